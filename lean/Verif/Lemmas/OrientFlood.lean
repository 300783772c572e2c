import Verif.Lemmas.Orient

/-!
# The flooding of surfaces orients them coherently
-/

namespace RSVS.Orient

open RSVS RSVS.Mesh RSVS.Spec RSVS.FaceFan

theorem foldlM_all {α τ : Type} {f : τ → α → Res τ} {I : τ → Prop} {E : τ → τ → Prop} {P : α → τ → Prop}
    (rfl' : ∀ s, E s s) (trans : ∀ {s t u}, E s t → E t u → E s u) (mono : ∀ {s t a}, E s t → P a s → P a t) :
    ∀ (l : List α), (∀ s, ∀ a ∈ l, I s → ∃ s', f s a = .ok s' ∧ I s' ∧ E s s' ∧ P a s') →
      ∀ s, I s → ∃ s', l.foldlM (m := Except Fault) f s = .ok s' ∧ I s' ∧ E s s' ∧ ∀ a ∈ l, P a s'
  | [], _, s, h => ⟨s, rfl, h, rfl' s, by simp⟩
  | a :: l, step, s, h => by
    obtain ⟨s1, h1, h2, h3, h4⟩ := step s a (by simp) h
    obtain ⟨s2, g1, g2, g3, g4⟩ := foldlM_all (f := f) (I := I) (E := E) (P := P) rfl' trans mono l
      (fun t b hb => step t b (List.mem_cons_of_mem _ hb)) s1 h2
    refine ⟨s2, ?_, g2, trans h3 g3, fun b hb => ?_⟩
    · rw [List.foldlM_cons, h1]
      exact g1
    · rcases List.mem_cons.1 hb with rfl | hb
      · exact mono g3 h4
      · exact g4 b hb

/-- Two positions of surfaces next to each other. -/
def AdjP (m : Mesh) (i j : Nat) : Prop :=
  ∃ f g, m.surfs[i]? = some f ∧ m.surfs[j]? = some g ∧ ∃ e ∈ m.edges, ∃ c, SharesEdge f g e c

theorem AdjP.symm {m : Mesh} {i j : Nat} (h : AdjP m i j) : AdjP m j i := by
  obtain ⟨f, g, h1, h2, e, he, c, k1, k2, k3, k4, k5, k6⟩ := h
  exact ⟨g, f, h2, h1, e, he, c, k1.symm, k3, k2, k4, k6, k5⟩

/-- The invariant of the flooding: `σ` is a coherent orientation, `β` whether a block is against it, `root` the start of a block,
`R` the part of the queue which is not explored yet. -/
structure Inv (m : Mesh) (σ : Int → Bool) (β : Int → Bool) (root : Int → Nat) (nB : Int) (R : List Nat) (st : St) : Prop where
  len : st.surfs.length = m.surfs.length
  flips : ∀ i f, m.surfs[i]? = some f → st.surfs[i]? = some (swapIf (st.done i && (σ f.index ^^ β |st.orient i|)) f)
  count : st.count = numDone m.surfs.length st.done
  lt : ∀ i, st.done i = true → i < m.surfs.length
  lab : ∀ i, st.done i = true → 1 ≤ |st.orient i| ∧ |st.orient i| ≤ nB
  queue : ∀ i, i ∈ R ∨ i ∈ st.next → st.done i = true ∧ |st.orient i| = nB
  closed : ∀ i, st.done i = true → i ∉ R → i ∉ st.next → ∀ j, AdjP m i j → st.done j = true
  same : ∀ i j, st.done i = true → st.done j = true → AdjP m i j → |st.orient i| = |st.orient j|
  linked : ∀ i, st.done i = true → Relation.ReflTransGen (AdjP m) (root |st.orient i|) i
  used : ∀ k, 1 ≤ k → k ≤ nB → st.done (root k) = true ∧ |st.orient (root k)| = k
  nonneg : 0 ≤ nB

/-- Later in the flooding. -/
def Ext (st st' : St) : Prop :=
  (∀ i, st.done i = true → st'.done i = true) ∧ st'.count + st.next.length = st.count + st'.next.length

theorem Ext.refl (st : St) : Ext st st := ⟨fun _ h => h, rfl⟩

theorem Ext.trans {a b c : St} (h : Ext a b) (g : Ext b c) : Ext a c :=
  ⟨fun i hi => g.1 i (h.1 i hi), by have := h.2; have := g.2; omega⟩

variable {m : Mesh} {w : Int → Nat → Int} {σ β : Int → Bool} {root : Int → Nat} {nB : Int} {R : List Nat} {st : St}

theorem Inv.index (h : Inv m σ β root nB R st) : st.surfs.map Surf.index = m.surfs.map Surf.index := by
  apply List.ext_getElem?
  intro i
  rw [List.getElem?_map, List.getElem?_map]
  cases hi : m.surfs[i]? with
  | none =>
    rw [List.getElem?_eq_none_iff] at hi
    rw [List.getElem?_eq_none (by rw [h.len]; exact hi)]
  | some f =>
    rw [h.flips i f hi]
    simp [swapIf_index]

theorem shared_iff {r s x : Int} : shared (r, s) x = true ↔ (r = x ∨ s = x) ∧ x ≠ 0 := by
  unfold shared
  simp

/-- One surface of one edge. -/
theorem tryNext_ok (hm : SolidMesh m w) (hσ : Orientable m w σ) (hI : Inv m σ β root nB R st) {q : Nat} (hq : q ∈ R) {f : Surf}
    (hf : m.surfs[q]? = some f) {ed : Edge} (he : ed ∈ m.edges) (hef : ed.index ∈ f.edgeind) {s : Int} (hs : s ∈ ed.surfind) :
    ∃ st', tryNext (m.surfs.map fun f => (List.range f.edgeind.length).map (w f.index)) q ed st s = .ok st' ∧
      Inv m σ β root nB R st' ∧ Ext st st' ∧
      ∀ j g c, m.surfs[j]? = some g → g.index = s → SharesEdge f g ed c → st'.done j = true := by
  have hfm : f ∈ m.surfs := List.mem_of_getElem? hf
  have hs0 : s ≠ 0 := fun h => hm.noZero ed he (h ▸ hs)
  have hse : SurfEdge m s ed.index := by
    have h1 : EdgeSurf m ed.index s := ⟨ed, he, rfl, hs⟩
    exact (hm.sound.sym.edgeSurf _ _ ⟨ed, he, rfl⟩ (hm.sound.noDangling.edgeSurf _ _ h1 hs0)).1 h1
  obtain ⟨g, hgm, hgi, heg⟩ := hse
  obtain ⟨j, hj⟩ := List.getElem?_of_mem hgm
  have hjl := (List.getElem?_eq_some_iff.1 hj).1
  have hpos : posOf Surf.index st.surfs s = (j : Int) := by
    rw [posOf_congr hI.index s, ← hgi]
    have := posOf_getElem hm.sound.unique.surfs j hjl
    rwa [(List.getElem?_eq_some_iff.1 hj).2] at this
  have onlyJ : ∀ j' g', m.surfs[j']? = some g' → g'.index = s → j' = j := by
    intro j' g' h1 h2
    have h3 := posOf_getElem hm.sound.unique.surfs j' (List.getElem?_eq_some_iff.1 h1).1
    rw [(List.getElem?_eq_some_iff.1 h1).2, h2, ← posOf_congr hI.index s, hpos] at h3
    omega
  obtain ⟨p1, p2, hfv, hp⟩ := hm.two f hfm
  obtain ⟨r1, r2, hgv, hr⟩ := hm.two g hgm
  obtain ⟨hqd, hql⟩ := hI.queue q (.inl hq)
  have ef := hI.flips q f hf
  have eg := hI.flips j g hj
  rw [hqd, Bool.true_and] at ef
  have cf : elemAt st.surfs (q : Int) = .ok (swapIf (σ f.index ^^ β |st.orient q|) f) := by
    have := (List.getElem?_eq_some_iff.1 ef)
    rw [elemAt_nat _ q this.1, this.2]
  have cg : elemAt st.surfs (j : Int) = .ok (swapIf (st.done j && (σ g.index ^^ β |st.orient j|)) g) := by
    have := (List.getElem?_eq_some_iff.1 eg)
    rw [elemAt_nat _ j this.1, this.2]
  -- the volumes
  generalize hbf : (σ f.index ^^ β |st.orient q|) = bf at ef cf
  generalize hbg : (st.done j && (σ g.index ^^ β |st.orient j|)) = bg at eg cg
  obtain ⟨c1, c2, hcv, hcne⟩ : ∃ c1 c2, (swapIf bf f).voluind = [c1, c2] ∧ c1 ≠ c2 := by
    rw [swapIf_two hfv]; cases bf
    · exact ⟨_, _, rfl, hp⟩
    · exact ⟨_, _, rfl, hp.symm⟩
  obtain ⟨t1, t2, htv, htne⟩ : ∃ t1 t2, (swapIf bg g).voluind = [t1, t2] ∧ t1 ≠ t2 := by
    rw [swapIf_two hgv]; cases bg
    · exact ⟨_, _, rfl, hr⟩
    · exact ⟨_, _, rfl, hr.symm⟩
  have hshare : (shared (t1, t2) c1 = true ∨ shared (t1, t2) c2 = true) ↔ ∃ c, c ≠ 0 ∧ c ∈ f.voluind ∧ c ∈ g.voluind := by
    have m1 : ∀ c, c ∈ f.voluind ↔ c = c1 ∨ c = c2 := fun c => by rw [← swapIf_mem bf, hcv]; simp
    have m2 : ∀ c, c ∈ g.voluind ↔ c = t1 ∨ c = t2 := fun c => by rw [← swapIf_mem bg, htv]; simp
    simp only [shared_iff, m1, m2]
    constructor
    · rintro (⟨h1, h2⟩ | ⟨h1, h2⟩)
      · exact ⟨c1, h2, .inl rfl, h1.imp Eq.symm Eq.symm⟩
      · exact ⟨c2, h2, .inr rfl, h1.imp Eq.symm Eq.symm⟩
    · rintro ⟨c, h0, rfl | rfl, h⟩
      · exact .inl ⟨h.imp Eq.symm Eq.symm, h0⟩
      · exact .inr ⟨h.imp Eq.symm Eq.symm, h0⟩
  unfold tryNext
  rw [hpos, cg, cf]
  simp only [Except.bind, sides_ok hcv, sides_ok htv, swapIf_index, Int.toNat_natCast]
  by_cases hcond : s ≠ f.index ∧ (shared (t1, t2) c1 = true ∨ shared (t1, t2) c2 = true) ∧ st.done j = false
  swap
  · rw [if_neg hcond]
    refine ⟨st, rfl, hI, Ext.refl st, fun j' g' c h1 h2 h3 => ?_⟩
    have hjj := onlyJ j' g' h1 h2
    subst hjj
    by_contra hd
    rw [hj] at h1
    cases h1
    exact hcond ⟨fun h => h3.1 (h2.trans h).symm, hshare.2 ⟨c, h3.2.2.2.1, h3.2.2.2.2.1, h3.2.2.2.2.2⟩, by simpa using hd⟩
  · rw [if_pos hcond]
    obtain ⟨hsf, hsh, hnd⟩ := hcond
    obtain ⟨c, hc0, hcf, hcg⟩ := hshare.1 hsh
    have hbg0 : bg = false := by rw [← hbg, hnd]; rfl
    subst hbg0
    have hsE : SharesEdge f g ed c := ⟨fun h => hsf (by rw [← hgi, ← h]), hef, heg, hc0, hcf, hcg⟩
    have hadj : AdjP m q j := ⟨f, g, hf, hj, ed, he, c, hsE⟩
    -- the edge
    obtain ⟨a, b, hv⟩ : ∃ a b, ed.vertind = [a, b] := by
      obtain ⟨k, hk⟩ := List.getElem?_of_mem hef
      obtain ⟨x, hx, hxi, hxv⟩ := (hm.ring f hfm).2.1 k _ hk
      cases inj_of_nodup hm.sound.unique.edges hx he hxi
      rcases hxv with h | h <;> exact ⟨_, _, h⟩
    have o1 : vecGet (m.surfs.map fun f => (List.range f.edgeind.length).map (w f.index)) (q : Int) =
        .ok ((List.range f.edgeind.length).map (w f.index)) := Order.vecGet_nat (by rw [List.getElem?_map, hf]; rfl)
    have o2 : vecGet (m.surfs.map fun f => (List.range f.edgeind.length).map (w f.index)) (j : Int) =
        .ok ((List.range g.edgeind.length).map (w g.index)) := Order.vecGet_nat (by rw [List.getElem?_map, hj]; rfl)
    have v0 : vecGet ed.vertind 0 = .ok a := by rw [hv]; rfl
    have v1 : vecGet ed.vertind 1 = .ok b := by rw [hv]; rfl
    rw [o1, o2, v0, v1]
    classical
    simp only [relOrient_ok hm hfm hgm he hv hef heg]
    -- the flip is the one wanted
    have hflip : isFlip (if Contra w f g a b then -1 else 1) (c1, c2) (t1, t2) = (σ g.index ^^ β nB) := by
      rw [isFlip_eq hcv htv hcne htne hc0 ((swapIf_mem _ _ _).2 hcf) ((swapIf_mem _ _ _).2 hcg)]
      rw [first_swap hfv hp hcf, first_swap hgv hr hcg]
      have target := hσ (swapIf (σ f.index) f) (List.mem_map.2 ⟨f, hfm, rfl⟩) (swapIf (σ g.index) g) (List.mem_map.2 ⟨g, hgm, rfl⟩)
        ed he a b c hv ⟨by rw [swapIf_index, swapIf_index]; exact hsE.1, by rw [swapIf_edgeind]; exact hef,
          by rw [swapIf_edgeind]; exact heg, hc0, (swapIf_mem _ _ _).2 hcf, (swapIf_mem _ _ _).2 hcg⟩
      rw [swapIf_index, swapIf_index, swapIf_edgeind, swapIf_edgeind] at target
      have t1 := first_swap hfv hp hcf (σ f.index)
      have t2 := first_swap hgv hr hcg (σ g.index)
      have key : decide (Contra w f g a b) = (first (swapIf (σ f.index) f) c == first (swapIf (σ g.index) g) c) := by
        have : Contra w f g a b ↔ ((swapIf (σ f.index) f).voluind.head? = some c ↔ (swapIf (σ g.index) g).voluind.head? = some c) :=
          target.symm
        rw [Bool.eq_iff_iff, decide_eq_true_iff, this, beq_iff_eq]
        unfold first
        by_cases x1 : (swapIf (σ f.index) f).voluind.head? = some c <;> by_cases x2 : (swapIf (σ g.index) g).voluind.head? = some c <;>
          simp [x1, x2]
      rw [key, t1, t2, ← hbf, hql]
      generalize first f c = u
      generalize first g c = v
      generalize σ f.index = a1
      generalize σ g.index = a2
      generalize β nB = a3
      revert u v a1 a2 a3
      decide
    have hrel : |(-1 : Int) * (if Contra w f g a b then -1 else 1) * st.orient q| = nB := by
      rw [← hql]
      split <;> simp
    have hmod : (if isFlip (if Contra w f g a b then -1 else 1) (c1, c2) (t1, t2) = true then
        modAt st.surfs (j : Int) flipVolus else (.ok st.surfs : Res (List Surf))) =
          .ok (st.surfs.modify j (swapIf (σ g.index ^^ β nB))) := by
      rw [hflip]
      have hjl' : j < st.surfs.length := by rw [hI.len]; exact hjl
      cases hb : (σ g.index ^^ β nB)
      · rw [if_neg (by simp)]
        congr 1
        apply List.ext_getElem?
        intro k
        rw [List.getElem?_modify]
        cases st.surfs[k]? <;> simp [swapIf]
      · rw [if_pos rfl]
        unfold modAt
        rw [if_neg (by omega), if_pos (by simpa using hjl')]
        rfl
    rw [hmod]
    refine ⟨_, rfl, ⟨?_, ?_, ?_, ?_, ?_, ?_, ?_, ?_, ?_, ?_, hI.nonneg⟩, ⟨?_, ?_⟩, ?_⟩
    · simpa using hI.len
    · intro i h hi
      simp only [List.getElem?_modify]
      by_cases hij : j = i
      · subst hij
        rw [hj] at hi
        cases hi
        rw [eg]
        simp only [setAt, if_true, Bool.true_and, hrel]
        simp
        rfl
      · have : i ≠ j := fun h => hij h.symm
        simp only [setAt, if_neg this, hI.flips i h hi]
        simp [hij]
    · simp only
      rw [numDone_set hjl hnd, hI.count]
    · intro i hi
      simp only [setAt] at hi
      split at hi
      · rename_i h; rw [h]; exact hjl
      · exact hI.lt i hi
    · intro i hi
      simp only [setAt] at hi ⊢
      split at hi
      · rename_i h
        rw [if_pos h, hrel]
        have := hI.lab q hqd
        exact ⟨by omega, le_refl _⟩
      · rename_i h
        rw [if_neg h]
        exact hI.lab i hi
    · intro i hi
      simp only [setAt]
      by_cases hij : i = j
      · simp only [if_pos hij]
        exact ⟨trivial, hrel⟩
      · simp only [if_neg hij]
        refine hI.queue i ?_
        simp only [List.mem_append, List.mem_cons, List.not_mem_nil, or_false, hij] at hi
        exact hi
    · intro i hi hiR hin k hk
      simp only [List.mem_append, List.mem_cons, List.not_mem_nil, or_false, not_or] at hin
      simp only [setAt, if_neg hin.2] at hi ⊢
      by_cases hkj : k = j
      · simp [hkj]
      · rw [if_neg hkj]
        exact hI.closed i hi hiR hin.1 k hk
    · have near : ∀ i, st.done i = true → AdjP m i j → |st.orient i| = nB := by
        intro i hi hij
        by_contra hne
        have h1 : i ∉ R := fun h => hne (hI.queue i (.inl h)).2
        have h2 : i ∉ st.next := fun h => hne (hI.queue i (.inr h)).2
        have := hI.closed i hi h1 h2 j hij
        rw [hnd] at this
        cases this
      intro i k hi hk hik
      simp only [setAt] at hi hk ⊢
      by_cases h1 : i = j <;> by_cases h2 : k = j
      · rw [if_pos h1, if_pos h2]
      · rw [if_neg h2] at hk
        rw [if_pos h1, if_neg h2, hrel]
        exact (near k hk (h1 ▸ hik.symm)).symm
      · rw [if_neg h1] at hi
        rw [if_neg h1, if_pos h2, hrel]
        exact near i hi (h2 ▸ hik)
      · rw [if_neg h1] at hi ⊢
        rw [if_neg h2] at hk ⊢
        exact hI.same i k hi hk hik
    · intro i hi
      simp only [setAt] at hi ⊢
      by_cases h1 : i = j
      · rw [if_pos h1, hrel, h1]
        have := hI.linked q hqd
        rw [hql] at this
        exact this.tail hadj
      · rw [if_neg h1] at hi ⊢
        exact hI.linked i hi
    · intro k k1 k2
      obtain ⟨u1, u2⟩ := hI.used k k1 k2
      have : root k ≠ j := fun h => by rw [h, hnd] at u1; cases u1
      simp only [setAt, if_neg this]
      exact ⟨u1, u2⟩
    · intro i hi
      simp only [setAt]
      split
      · rfl
      · exact hi
    · simp only [List.length_append, List.length_cons, List.length_nil]
      omega
    · intro j' g' c' h1 h2 _
      rw [onlyJ j' g' h1 h2]
      simp [setAt]

/-- One surface of the queue. -/
theorem explore_ok (hm : SolidMesh m w) (hσ : Orientable m w σ) (hI : Inv m σ β root nB R st) {q : Nat} (hq : q ∈ R) :
    ∃ st', explore m (m.surfs.map fun f => (List.range f.edgeind.length).map (w f.index)) st q = .ok st' ∧
      Inv m σ β root nB R st' ∧ Ext st st' ∧ ∀ j, AdjP m q j → st'.done j = true := by
  obtain ⟨hqd, -⟩ := hI.queue q (.inl hq)
  have hql := hI.lt q hqd
  obtain ⟨f, hf⟩ : ∃ f, m.surfs[q]? = some f := ⟨_, List.getElem?_eq_getElem hql⟩
  have hfm : f ∈ m.surfs := List.mem_of_getElem? hf
  have ef := hI.flips q f hf
  have cf : elemAt st.surfs (q : Int) = .ok (swapIf (st.done q && (σ f.index ^^ β |st.orient q|)) f) := by
    have := (List.getElem?_eq_some_iff.1 ef)
    rw [elemAt_nat _ q this.1, this.2]
  unfold explore
  rw [cf]
  simp only [Except.bind, swapIf_edgeind]
  obtain ⟨st', h1, h2, h3, h4⟩ := foldlM_all (E := Ext) (I := Inv m σ β root nB R)
    (f := fun st e => (isearch Edge.index m.edges e).bind fun ed => ed.surfind.foldlM (m := Except Fault)
      (tryNext (m.surfs.map fun f => (List.range f.edgeind.length).map (w f.index)) q ed) st)
    (P := fun (e : Int) (st : St) => ∀ ed ∈ m.edges, ed.index = e → ∀ s ∈ ed.surfind, ∀ j g c, m.surfs[j]? = some g → g.index = s →
      SharesEdge f g ed c → st.done j = true) Ext.refl Ext.trans
    (by intro _ _ _ hE hP ed he hi s hs j g c k1 k2 k3; exact hE.1 j (hP ed he hi s hs j g c k1 k2 k3)) f.edgeind
    (by
      intro st e he hI
      obtain ⟨ed, hed, hei⟩ := hm.sound.noDangling.surfEdge f.index e ⟨f, hfm, rfl, he⟩
      subst hei
      have hs : isearch Edge.index m.edges ed.index = .ok ed := by
        obtain ⟨b, h1, h2, h3⟩ := elemAt_posOf_ok (ix := Edge.index) (l := m.edges) (k := ed.index) ⟨ed, hed, rfl⟩
        rw [show isearch Edge.index m.edges ed.index = .ok b from h1, inj_of_nodup hm.sound.unique.edges h2 hed h3]
      rw [hs]
      simp only [Except.bind]
      obtain ⟨st', g1, g2, g3, g4⟩ := foldlM_all (E := Ext) (I := Inv m σ β root nB R)
        (f := tryNext (m.surfs.map fun f => (List.range f.edgeind.length).map (w f.index)) q ed)
        (P := fun (s : Int) (st : St) => ∀ j g c, m.surfs[j]? = some g → g.index = s → SharesEdge f g ed c → st.done j = true)
        Ext.refl Ext.trans (by intro _ _ _ hE hP j g c k1 k2 k3; exact hE.1 j (hP j g c k1 k2 k3)) ed.surfind
        (fun st s hs hI => tryNext_ok hm hσ hI hq hf hed he hs) st hI
      refine ⟨st', g1, g2, g3, fun ed' he' hi' s hs => ?_⟩
      cases inj_of_nodup hm.sound.unique.edges he' hed hi'
      exact g4 s hs) st hI
  refine ⟨st', h1, h2, h3, fun j hj => ?_⟩
  obtain ⟨f', g, k1, k2, e, he, c, k3⟩ := hj
  rw [hf] at k1
  cases k1
  refine h4 e.index k3.2.1 e he rfl g.index ?_ j g c k2 rfl k3
  have hgm : g ∈ m.surfs := List.mem_of_getElem? k2
  obtain ⟨x, hx, hxi, hxs⟩ := (hm.sound.sym.edgeSurf e.index g.index ⟨e, he, rfl⟩ ⟨g, hgm, rfl⟩).2 ⟨g, hgm, rfl, k3.2.2.1⟩
  cases inj_of_nodup hm.sound.unique.edges hx he hxi
  exact hxs

/-- The whole queue. -/
theorem queue_ok (hm : SolidMesh m w) (hσ : Orientable m w σ) : ∀ {R : List Nat} {st : St}, Inv m σ β root nB R st →
    ∃ st', R.foldlM (m := Except Fault) (explore m (m.surfs.map fun f => (List.range f.edgeind.length).map (w f.index))) st = .ok st' ∧
      Inv m σ β root nB [] st' ∧ Ext st st'
  | [], st, hI => ⟨st, rfl, hI, Ext.refl st⟩
  | q :: R, st, hI => by
    obtain ⟨s1, h1, h2, h3, h4⟩ := explore_ok hm hσ hI (q := q) (by simp)
    have hI' : Inv m σ β root nB R s1 := by
      refine { h2 with
        queue := fun i hi => h2.queue i (hi.imp (List.mem_cons_of_mem _) id)
        closed := fun i hi hR hn j hj => ?_ }
      by_cases hiq : i = q
      · exact h4 j (hiq ▸ hj)
      · exact h2.closed i hi (by simp [hiq, hR]) hn j hj
    obtain ⟨s2, g1, g2, g3⟩ := queue_ok hm hσ hI'
    refine ⟨s2, ?_, g2, h3.trans g3⟩
    rw [List.foldlM_cons, h1]
    exact g1

/-- The next turn: the queue for it is `next`. -/
theorem Inv.turn (h : Inv m σ β root nB [] st) : Inv m σ β root nB st.next ⟨st.surfs, st.done, st.orient, [], st.count⟩ :=
  { h with
    queue := fun i hi => h.queue i (.inr (by simpa using hi))
    closed := fun i hi hR _ j hj => h.closed i hi (by simp) hR j hj }

/-- A new block. -/
theorem Inv.start (h : Inv m σ β root nB [] ⟨st.surfs, st.done, st.orient, [], st.count⟩) {i : Nat} (hi : i < m.surfs.length)
    (hd : st.done i = false) {f : Surf} (hf : m.surfs[i]? = some f) :
    Inv m σ (fun k => if k = nB + 1 then σ f.index else β k) (fun k => if k = nB + 1 then i else root k) (nB + 1) [i]
      ⟨st.surfs, setAt st.done i true, setAt st.orient i (nB + 1), [], st.count + 1⟩ := by
  have hn := h.nonneg
  have habs : |nB + 1| = nB + 1 := abs_of_nonneg (by omega)
  have hlab : ∀ j, st.done j = true → |st.orient j| ≠ nB + 1 := fun j hj => by have := (h.lab j hj).2; simp only at this; omega
  have noAdj : ∀ j, st.done j = true → ¬ AdjP m j i := by
    intro j hj hji
    have := h.closed j hj (by simp) (by simp) i hji
    simp only [hd] at this
    cases this
  refine ⟨h.len, ?_, ?_, ?_, ?_, ?_, ?_, ?_, ?_, ?_, by omega⟩
  · intro j g hg
    simp only [setAt]
    have := h.flips j g hg
    simp only at this
    by_cases hj : j = i
    · subst hj
      rw [hf] at hg
      cases hg
      rw [this, hd]
      simp [habs]
    · simp only [if_neg hj]
      rw [this]
      cases hdj : st.done j
      · simp
      · simp [hlab j hdj]
  · simp only
    rw [numDone_set hi hd]
    exact congrArg (· + 1) h.count
  · intro j hj
    simp only [setAt] at hj
    split at hj
    · rename_i e; rw [e]; exact hi
    · exact h.lt j hj
  · intro j hj
    simp only [setAt] at hj ⊢
    split at hj
    · rename_i e
      rw [if_pos e, habs]
      omega
    · rename_i e
      rw [if_neg e]
      have := h.lab j hj
      simp only at this
      omega
  · intro j hj
    simp only [List.mem_cons, List.not_mem_nil, or_false] at hj
    simp only [setAt, if_pos hj]
    exact ⟨trivial, habs⟩
  · intro j hj hR _ k hk
    have hji : j ≠ i := by simpa using hR
    simp only [setAt, if_neg hji] at hj ⊢
    by_cases hki : k = i
    · simp [hki]
    · rw [if_neg hki]
      exact h.closed j hj (by simp) (by simp) k hk
  · intro j k hj hk hjk
    simp only [setAt] at hj hk ⊢
    by_cases h1 : j = i <;> by_cases h2 : k = i
    · rw [if_pos h1, if_pos h2]
    · rw [if_neg h2] at hk
      exact absurd (h1 ▸ hjk.symm) (noAdj k hk)
    · rw [if_neg h1] at hj
      exact absurd (h2 ▸ hjk) (noAdj j hj)
    · rw [if_neg h1] at hj ⊢
      rw [if_neg h2] at hk ⊢
      exact h.same j k hj hk hjk
  · intro j hj
    show Relation.ReflTransGen (AdjP m) ((fun k => if k = nB + 1 then i else root k) |setAt st.orient i (nB + 1) j|) j
    by_cases h1 : j = i
    · have e : setAt st.orient i (nB + 1) j = nB + 1 := if_pos h1
      rw [e, habs, h1]
      simp only [if_true]
      exact .refl
    · have e : setAt st.orient i (nB + 1) j = st.orient j := if_neg h1
      simp only [setAt, if_neg h1] at hj
      rw [e]
      simp only [if_neg (hlab j hj)]
      exact h.linked j hj
  · intro k k1 k2
    simp only [setAt]
    by_cases hk : k = nB + 1
    · simp [hk, habs]
    · simp only [if_neg hk]
      obtain ⟨u1, u2⟩ := h.used k k1 (by omega)
      simp only at u1 u2
      have : root k ≠ i := fun e => by rw [e, hd] at u1; cases u1
      rw [if_neg this, if_neg this]
      exact ⟨u1, u2⟩

/-- What the flooding leaves. -/
theorem relLoop_ok (hm : SolidMesh m w) (hσ : Orientable m w σ) : ∀ {fuel : Nat} {st : St} {β : Int → Bool} {root : Int → Nat} {nB : Int},
    Inv m σ β root nB [] st → 2 * (m.surfs.length - st.count) + (if st.next = [] then 0 else 1) < fuel →
    ∃ st' nB' β' root', relLoop m (m.surfs.map fun f => (List.range f.edgeind.length).map (w f.index)) m.surfs.length fuel st st.next nB =
      .ok (st', nB') ∧ Inv m σ β' root' nB' [] st' ∧ ∀ i < m.surfs.length, st'.done i = true
  | 0, _, _, _, _, _, h => by omega
  | fuel + 1, st, β, root, nB, hI, hfuel => by
    unfold relLoop
    by_cases hc : st.count < m.surfs.length
    · rw [if_pos hc]
      by_cases hn : st.next = []
      · rw [if_pos hn]
        cases hfind : (List.range m.surfs.length).find? (fun i => !st.done i) with
        | none =>
          exfalso
          rw [List.find?_eq_none] at hfind
          have : m.surfs.length ≤ numDone m.surfs.length st.done := by
            rw [numDone_countP, List.countP_eq_length.2 (fun i hi => by simpa using hfind i hi), List.length_range]
          rw [← hI.count] at this
          omega
        | some i =>
          have hi : i < m.surfs.length := List.mem_range.1 (List.mem_of_find?_eq_some hfind)
          have hd : st.done i = false := by simpa using List.find?_some hfind
          have hI0 := hI.turn
          rw [hn] at hI0
          have hI1 := hI0.start hi hd (List.getElem?_eq_getElem hi)
          obtain ⟨s1, g1, g2, g3⟩ := queue_ok hm hσ hI1
          have g1' : explore m (m.surfs.map fun f => (List.range f.edgeind.length).map (w f.index))
              ⟨st.surfs, setAt st.done i true, setAt st.orient i (nB + 1), [], st.count + 1⟩ i = .ok s1 := by
            rw [List.foldlM_cons] at g1
            obtain ⟨a, ha, hb⟩ := bind_ok_iff.1 g1
            cases hb
            exact ha
          simp only [g1', Except.bind]
          refine relLoop_ok hm hσ g2 ?_
          have := g3.2
          simp only [List.length_nil] at this
          rw [if_pos hn] at hfuel
          split <;> omega
      · rw [if_neg hn]
        obtain ⟨s1, g1, g2, g3⟩ := queue_ok hm hσ hI.turn
        simp only [g1, Except.bind]
        refine relLoop_ok hm hσ g2 ?_
        have := g3.2
        simp only [List.length_nil] at this
        rw [if_neg hn] at hfuel
        split
        · omega
        · rename_i hne
          have := List.length_pos_iff.2 hne
          omega
    · rw [if_neg hc]
      refine ⟨st, nB, β, root, rfl, hI, all_done_of_numDone ?_⟩
      rw [← hI.count]
      omega

end RSVS.Orient
