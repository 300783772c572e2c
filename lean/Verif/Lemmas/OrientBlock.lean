import Verif.Lemmas.OrientFlood

/-!
# The orientation of the blocks of surfaces
-/

namespace RSVS.Orient

open RSVS RSVS.Mesh RSVS.Spec RSVS.FaceFan

variable {m : Mesh} {w : Int → Nat → Int} {σ : Int → Bool}

theorem verts_ok (hm : SolidMesh m w) : ∀ {l : List Surf}, (∀ f ∈ l, f ∈ m.surfs) →
    l.mapM (m := Except Fault) (fun f => Order.orderedVerts m f.edgeind) =
      .ok (l.map fun f => (List.range f.edgeind.length).map (w f.index))
  | [], _ => rfl
  | f :: l, h => by
    rw [List.mapM_cons, verts_ok hm fun g hg => h g (List.mem_cons_of_mem _ hg)]
    obtain ⟨h3, hj, hc, hi⟩ := hm.ring f (h f (by simp))
    rw [Order.orderedVerts_ok hm.sound.unique.edges h3 ⟨hj, hc, hi⟩]
    rfl

theorem adj_next {i j : Nat} {f g : Surf} (hf : m.surfs[i]? = some f) (hg : m.surfs[j]? = some g) (h : AdjP m i j) :
    SideNext m f.index g.index := by
  obtain ⟨f', g', h1, h2, h3⟩ := h
  rw [hf] at h1
  rw [hg] at h2
  cases h1
  cases h2
  exact ⟨f, List.mem_of_getElem? hf, g, List.mem_of_getElem? hg, rfl, rfl, h3⟩

theorem chain_joined {i j : Nat} (h : Relation.ReflTransGen (AdjP m) i j) : ∀ {f g : Surf}, m.surfs[i]? = some f → m.surfs[j]? = some g →
    Joined m f.index g.index := by
  induction h with
  | refl =>
    intro f g hf hg
    rw [hf] at hg
    cases hg
    exact .refl
  | tail _ h2 ih =>
    intro f g hf hg
    obtain ⟨f', g', k1, k2, k3⟩ := h2
    rw [hg] at k2
    cases k2
    exact (ih hf k1).tail (adj_next k1 hg ⟨f', g, k1, hg, k3⟩)

theorem chain_symm {i j : Nat} (h : Relation.ReflTransGen (AdjP m) i j) : Relation.ReflTransGen (AdjP m) j i := by
  induction h with
  | refl => exact .refl
  | tail _ h2 ih => exact .head h2.symm ih

theorem joined_chain (hu : (m.surfs.map Surf.index).Nodup) {s t : Int} (h : Joined m s t) : ∀ {i : Nat} {f : Surf}, m.surfs[i]? = some f →
    f.index = s → ∃ j g, m.surfs[j]? = some g ∧ g.index = t ∧ Relation.ReflTransGen (AdjP m) i j := by
  induction h with
  | refl => exact fun {i f} hf hs => ⟨i, f, hf, hs, .refl⟩
  | tail _ h2 ih =>
    intro i f hf hs
    obtain ⟨j, g, k1, k2, k3⟩ := ih hf hs
    obtain ⟨f', hf', g', hg', e1, e2, e3⟩ := h2
    cases inj_of_nodup hu (List.mem_of_getElem? k1) hf' (k2.trans e1.symm)
    obtain ⟨k, hk⟩ := List.getElem?_of_mem hg'
    exact ⟨k, g', hk, e2, k3.tail ⟨g, g', k1, hk, e3⟩⟩

/-- The result of the flooding. -/
structure Blocks (m : Mesh) (σ : Int → Bool) (β : Int → Bool) (r : List Surf × List Int × Int) : Prop where
  len : r.1.length = m.surfs.length
  len2 : r.2.1.length = m.surfs.length
  each : ∀ (i : Nat) (f : Surf), m.surfs[i]? = some f → ∃ o, r.2.1[i]? = some o ∧ 1 ≤ |o| ∧ |o| ≤ r.2.2 ∧ r.1[i]? = some (swapIf (σ f.index ^^ β |o|) f)
  same : ∀ (i j : Nat) (f g : Surf) (o p : Int), m.surfs[i]? = some f → m.surfs[j]? = some g → r.2.1[i]? = some o → r.2.1[j]? = some p →
    (|o| = |p| ↔ Joined m f.index g.index)
  used : ∀ k, 1 ≤ k → k ≤ r.2.2 → ∃ o ∈ r.2.1, |o| = k
  nonneg : 0 ≤ r.2.2

theorem orientRelative_ok (hm : SolidMesh m w) (hσ : Orientable m w σ) : ∃ r β, orientRelative m = .ok r ∧ Blocks m σ β r := by
  have hI : Inv m σ (fun _ => false) (fun _ => 0) 0 [] ⟨m.surfs, fun _ => false, fun _ => 0, [], 0⟩ := by
    refine ⟨rfl, fun i f h => by simpa [swapIf] using h, ?_, by simp, by simp, by simp, by simp, by simp, by simp,
      fun k h1 h2 => by omega, le_refl _⟩
    rw [numDone_countP]
    simp
  obtain ⟨st, nB, β, root, h1, h2, h3⟩ := relLoop_ok hm hσ hI (fuel := 2 * m.surfs.length + 1) (by simp)
  refine ⟨(st.surfs, (List.range m.surfs.length).map st.orient, nB), β, ?_, ?_⟩
  · unfold orientRelative
    rw [verts_ok hm fun f hf => hf]
    have := hm.dim
    simp only [Except.bind]
    rw [if_neg (by omega), h1]
    rfl
  · have lab : ∀ i, i < m.surfs.length → ((List.range m.surfs.length).map st.orient)[i]? = some (st.orient i) := by
      intro i hi
      rw [List.getElem?_map, List.getElem?_range hi]
      rfl
    have sameAll : ∀ i j, Relation.ReflTransGen (AdjP m) i j → i < m.surfs.length → |st.orient i| = |st.orient j| := by
      intro i j h hi
      induction h with
      | refl => rfl
      | tail _ h2' ih =>
        rw [ih]
        obtain ⟨f, g, k1, k2, hk⟩ := h2'
        exact h2.same _ _ (h3 _ (List.getElem?_eq_some_iff.1 k1).1) (h3 _ (List.getElem?_eq_some_iff.1 k2).1) ⟨f, g, k1, k2, hk⟩
    refine ⟨h2.len, by simp, ?_, ?_, ?_, h2.nonneg⟩
    · intro i f hf
      have hi := (List.getElem?_eq_some_iff.1 hf).1
      refine ⟨st.orient i, lab i hi, (h2.lab i (h3 i hi)).1, (h2.lab i (h3 i hi)).2, ?_⟩
      have := h2.flips i f hf
      rw [h3 i hi, Bool.true_and] at this
      exact this
    · intro i j f g o p hf hg ho hp
      have hi := (List.getElem?_eq_some_iff.1 hf).1
      have hj := (List.getElem?_eq_some_iff.1 hg).1
      rw [lab i hi] at ho
      rw [lab j hj] at hp
      cases ho
      cases hp
      constructor
      · intro h
        have a := h2.linked i (h3 i hi)
        have b := h2.linked j (h3 j hj)
        rw [h] at a
        exact chain_joined ((chain_symm a).trans b) hf hg
      · intro h
        obtain ⟨k, g', k1, k2, k3⟩ := joined_chain hm.sound.unique.surfs h hf rfl
        have : k = j := by
          have hk := (List.getElem?_eq_some_iff.1 k1).1
          refine (List.Nodup.getElem_inj_iff hm.sound.unique.surfs (hi := by simpa using hk) (hj := by simpa using hj)).1 ?_
          rw [List.getElem_map, List.getElem_map, (List.getElem?_eq_some_iff.1 k1).2, (List.getElem?_eq_some_iff.1 hg).2, k2]
        exact this ▸ sameAll i k k3 hi
    · intro k k1 k2
      obtain ⟨u1, u2⟩ := h2.used k k1 k2
      exact ⟨_, List.mem_map.2 ⟨root k, List.mem_range.2 (h2.lt _ u1), rfl⟩, u2⟩

variable {K : Type} [Field K] [LinearOrder K] [IsStrictOrderedRing K]

/-- The direction of a block: right if a surface tells it. -/
theorem findFlip_ok (hm : SolidMesh m w) {eps : K} {dotProd : Int → Int → Option K} (he : 0 < eps) (ht : TellsSide m σ eps dotProd)
    {β : Int → Bool} (ii : Int) : ∀ {l : List (Surf × Int)}, (∀ p ∈ l, ∃ f ∈ m.surfs, p.1 = swapIf (σ f.index ^^ β |p.2|) f) →
    ∃ b, findFlip eps dotProd ii l = .ok b ∧
      ((∃ p ∈ l, |p.2| = ii ∧ ∀ c ∈ p.1.voluind, c ≠ 0 → ∃ d, dotProd p.1.index c = some d ∧ eps ≤ |d|) → b = β ii)
  | [], _ => ⟨false, rfl, by simp⟩
  | (s, o) :: l, h => by
    obtain ⟨b, hb, hb2⟩ := findFlip_ok hm he ht ii (l := l) fun p hp => h p (List.mem_cons_of_mem _ hp)
    obtain ⟨f, hf, hs⟩ := h (s, o) (by simp)
    simp only at hs
    unfold findFlip
    by_cases ho : ii = |o|
    · rw [if_neg (by simpa using ho)]
      obtain ⟨p, q, hv, hpq⟩ := hm.two f hf
      obtain ⟨p', q', hv', hpq'⟩ : ∃ p' q', s.voluind = [p', q'] ∧ p' ≠ q' := by
        rw [hs, swapIf_two hv]
        split
        · exact ⟨q, p, rfl, hpq.symm⟩
        · exact ⟨p, q, rfl, hpq⟩
      have hsi : s.index = f.index := by rw [hs, swapIf_index]
      rw [sides_ok hv']
      simp only [Except.bind]
      have hcm : (if p' = 0 then q' else p') ∈ s.voluind := by
        rw [hv']
        split <;> simp
      have hc0 : (if p' = 0 then q' else p') ≠ 0 := by
        split
        · rename_i e
          exact fun e' => hpq' (e.trans e'.symm)
        · assumption
      have skip : (∀ d, dotProd s.index (if p' = 0 then q' else p') = some d → ¬ eps ≤ |d|) →
          ((∃ p ∈ (s, o) :: l, |p.2| = ii ∧ ∀ c ∈ p.1.voluind, c ≠ 0 → ∃ d, dotProd p.1.index c = some d ∧ eps ≤ |d|) → b = β ii) := by
        rintro hn ⟨x, hx, k1, k2⟩
        rcases List.mem_cons.1 hx with rfl | hx
        · obtain ⟨d, d1, d2⟩ := k2 _ hcm hc0
          exact absurd d2 (hn d d1)
        · exact hb2 ⟨x, hx, k1, k2⟩
      cases hd : dotProd s.index (if p' = 0 then q' else p') with
      | none =>
        refine ⟨b, hb, skip fun d hd' => ?_⟩
        rw [hd] at hd'
        cases hd'
      | some d =>
        by_cases hde : |d| < eps
        · simp only [if_pos hde]
          refine ⟨b, hb, skip fun d' hd' => ?_⟩
          rw [hd] at hd'
          cases hd'
          exact not_le.2 hde
        · simp only [if_neg hde]
          refine ⟨_, rfl, fun _ => ?_⟩
          have hd0 : d ≠ 0 := fun e => hde (by simpa [e] using he)
          have hcf : (if p' = 0 then q' else p') ∈ f.voluind := by
            rw [hs, swapIf_mem] at hcm
            exact hcm
          have key := ht f hf _ hcf hc0 d (hsi ▸ hd) (not_lt.1 hde)
          have e1 := first_swap hv hpq hcf (σ f.index ^^ β |o|)
          have e2 := first_swap hv hpq hcf (σ f.index)
          rw [← hs] at e1
          have e3 : first (swapIf (σ f.index) f) (if p' = 0 then q' else p') = (β ii ^^ first s (if p' = 0 then q' else p')) := by
            rw [e1, e2, ho]
            cases σ f.index <;> cases β |o| <;> simp
          have e4 : decide (0 < d) = (β ii ^^ first s (if p' = 0 then q' else p')) := by
            rw [← e3]
            unfold first
            exact decide_eq_decide.2 key
          have e5 : first s (if p' = 0 then q' else p') = decide (p' ≠ 0) := by
            unfold first
            rw [hv']
            by_cases hp : p' = 0
            · simp [hp]
              rintro rfl
              exact hpq' hp
            · simp [hp]
          rw [e5] at e4
          rcases lt_or_gt_of_ne hd0 with hn | hn
          · by_cases hp : p' = 0
            · cases hB : β ii <;> simp [hp, hn, not_lt.2 hn.le, hB] at e4 ⊢
            · cases hB : β ii <;> simp [hp, hn, not_lt.2 hn.le, hB] at e4 ⊢
          · by_cases hp : p' = 0
            · cases hB : β ii <;> simp [hp, hn, not_lt.2 hn.le, hB] at e4 ⊢
            · cases hB : β ii <;> simp [hp, hn, not_lt.2 hn.le, hB] at e4 ⊢
    · rw [if_pos (by simpa using ho)]
      refine ⟨b, hb, ?_⟩
      rintro ⟨p, hp, h1, h2⟩
      rcases List.mem_cons.1 hp with rfl | hp
      · exact absurd h1.symm ho
      · exact hb2 ⟨p, hp, h1, h2⟩

theorem mapM_range {f : Nat → Res Bool} {P : Nat → Bool → Prop} (h : ∀ i, ∃ b, f i = .ok b ∧ P i b) : ∀ n : Nat,
    ∃ γ : Nat → Bool, (List.range n).mapM (m := Except Fault) f = .ok ((List.range n).map γ) ∧ ∀ i, P i (γ i) := by
  choose γ h1 h2 using h
  refine fun n => ⟨γ, ?_, h2⟩
  generalize List.range n = l
  induction l with
  | nil => rfl
  | cons a l ih =>
    rw [List.mapM_cons, ih, h1]
    rfl

theorem allFlips_ok (hm : SolidMesh m w) {eps : K} {dotProd : Int → Int → Option K} (he : 0 < eps) (ht : TellsSide m σ eps dotProd)
    {β : Int → Bool} {r : List Surf × List Int × Int} (hr : Blocks m σ β r) :
    ∃ γ : Nat → Bool, allFlips eps dotProd r = .ok ((List.range r.2.2.toNat).map γ) ∧
      ∀ (i : Nat) (f : Surf) (o : Int), m.surfs[i]? = some f → r.2.1[i]? = some o → Decided m eps dotProd f.index → γ (|o| - 1).toNat = β |o| := by
  have pairs : ∀ p ∈ r.1.zip r.2.1, ∃ (i : Nat) (f : Surf), m.surfs[i]? = some f ∧ r.2.1[i]? = some p.2 ∧ p.1 = swapIf (σ f.index ^^ β |p.2|) f := by
    intro p hp
    obtain ⟨i, hi⟩ := List.getElem?_of_mem hp
    rw [List.getElem?_zip_eq_some] at hi
    have hl := (List.getElem?_eq_some_iff.1 hi.1).1
    rw [hr.len] at hl
    obtain ⟨o, k1, -, -, k2⟩ := hr.each i _ (List.getElem?_eq_getElem hl)
    rw [hi.2] at k1
    cases k1
    rw [hi.1] at k2
    exact ⟨i, _, List.getElem?_eq_getElem hl, hi.2, by simpa using k2⟩
  obtain ⟨γ, h1, h2⟩ := mapM_range (fun (i : Nat) => findFlip_ok hm he ht (β := β) ((i : Int) + 1) (l := r.1.zip r.2.1) fun p hp => by
    obtain ⟨i, f, k1, -, k2⟩ := pairs p hp
    exact ⟨f, List.mem_of_getElem? k1, k2⟩) r.2.2.toNat
  refine ⟨γ, by unfold allFlips; exact h1, fun i f o hf ho hd => ?_⟩
  obtain ⟨o', ho', l1, l2, -⟩ := hr.each i f hf
  rw [ho] at ho'
  cases ho'
  have e : (((|o| - 1).toNat : Nat) : Int) + 1 = |o| := by omega
  obtain ⟨g, hg, hj, hd⟩ := hd
  obtain ⟨j, hj'⟩ := List.getElem?_of_mem hg
  obtain ⟨o2, k1, -, -, k2⟩ := hr.each j g hj'
  have hs := (hr.same i j f g o o2 hf hj' ho k1).2 hj
  have := h2 (|o| - 1).toNat
  rw [e] at this
  refine this ⟨(swapIf (σ g.index ^^ β |o2|) g, o2), ?_, hs.symm, ?_⟩
  · exact List.mem_of_getElem? (i := j) (List.getElem?_zip_eq_some.2 ⟨k2, k1⟩)
  · intro c hc hc0
    rw [swapIf_mem] at hc
    rw [swapIf_index]
    exact hd c hc hc0

theorem flipBlocks_ok {β : Int → Bool} {r : List Surf × List Int × Int} (hr : Blocks m σ β r) (γ : Nat → Bool) :
    ∃ s', flipBlocks r ((List.range r.2.2.toNat).map γ) = .ok s' ∧ s'.length = m.surfs.length ∧
      ∀ (i : Nat) (f : Surf) (o : Int), m.surfs[i]? = some f → r.2.1[i]? = some o → s'[i]? = some (swapIf (σ f.index ^^ (β |o| ^^ γ (|o| - 1).toNat)) f) := by
  have hok : ∀ p ∈ r.1.zip r.2.1, (vecGet ((List.range r.2.2.toNat).map γ) (abs p.2 - 1)).map (fun b => if b then flipVolus p.1 else p.1) =
      .ok (swapIf (γ (|p.2| - 1).toNat) p.1) := by
    intro p hp
    obtain ⟨i, hi⟩ := List.getElem?_of_mem hp
    rw [List.getElem?_zip_eq_some] at hi
    have hl := (List.getElem?_eq_some_iff.1 hi.1).1
    rw [hr.len] at hl
    obtain ⟨o, k1, l1, l2, -⟩ := hr.each i _ (List.getElem?_eq_getElem hl)
    rw [hi.2] at k1
    cases k1
    have e : |p.2| - 1 = (((|p.2| - 1).toNat : Nat) : Int) := by omega
    have hg : ((List.range r.2.2.toNat).map γ)[(|p.2| - 1).toNat]? = some (γ (|p.2| - 1).toNat) := by
      rw [List.getElem?_map, List.getElem?_range (by omega)]
      rfl
    rw [e, Order.vecGet_nat hg]
    simp only [Except.map, Int.toNat_natCast]
    rfl
  have hmap : ∀ l : List (Surf × Int), (∀ p ∈ l, (vecGet ((List.range r.2.2.toNat).map γ) (abs p.2 - 1)).map
      (fun b => if b then flipVolus p.1 else p.1) = .ok (swapIf (γ (|p.2| - 1).toNat) p.1)) →
      l.mapM (m := Except Fault) (fun p => (vecGet ((List.range r.2.2.toNat).map γ) (abs p.2 - 1)).map
        fun b => if b then flipVolus p.1 else p.1) = .ok (l.map fun p => swapIf (γ (|p.2| - 1).toNat) p.1) := by
    intro l
    induction l with
    | nil => exact fun _ => rfl
    | cons a l ih =>
      intro h
      rw [List.mapM_cons, ih fun p hp => h p (List.mem_cons_of_mem _ hp), h a (by simp)]
      rfl
  refine ⟨_, hmap _ hok, by simp [hr.len, hr.len2], fun i f o hf ho => ?_⟩
  obtain ⟨o', k1, -, -, k2⟩ := hr.each i f hf
  rw [ho] at k1
  cases k1
  rw [List.getElem?_map, show (r.1.zip r.2.1)[i]? = some (swapIf (σ f.index ^^ β |o|) f, o) from List.getElem?_zip_eq_some.2 ⟨k2, ho⟩]
  simp only [Option.map_some, swapIf_swapIf]
  congr 2
  cases σ f.index <;> cases β |o| <;> cases γ (|o| - 1).toNat <;> rfl

/-- An orientation changed in the same way on each block is coherent. -/
theorem orientable_xor (hm : SolidMesh m w) (hσ : Orientable m w σ) {δ : Int → Bool}
    (hδ : ∀ f ∈ m.surfs, ∀ g ∈ m.surfs, Joined m f.index g.index → δ f.index = δ g.index) :
    Orientable m w (fun s => σ s ^^ δ s) := by
  intro f' hf' g' hg' e he a b c hv hs
  obtain ⟨f, hf, rfl⟩ := List.mem_map.1 hf'
  obtain ⟨g, hg, rfl⟩ := List.mem_map.1 hg'
  obtain ⟨h1, h2, h3, h4, h5, h6⟩ := hs
  simp only [swapIf_index, swapIf_edgeind, swapIf_mem] at h1 h2 h3 h5 h6 ⊢
  have hfg : SharesEdge f g e c := ⟨h1, h2, h3, h4, h5, h6⟩
  have hd := hδ f hf g hg (.single ⟨f, hf, g, hg, rfl, rfl, e, he, c, hfg⟩)
  have old := hσ (swapIf (σ f.index) f) (List.mem_map.2 ⟨f, hf, rfl⟩) (swapIf (σ g.index) g) (List.mem_map.2 ⟨g, hg, rfl⟩) e he a b c hv
    (by unfold SharesEdge; simp only [swapIf_index, swapIf_edgeind, swapIf_mem]; exact hfg)
  simp only [swapIf_index, swapIf_edgeind] at old
  rw [← old]
  obtain ⟨p, q, f1, f2⟩ := hm.two f hf
  obtain ⟨p', q', g1, g2⟩ := hm.two g hg
  have ef1 := first_swap f1 f2 h5 (σ f.index ^^ δ f.index)
  have ef2 := first_swap f1 f2 h5 (σ f.index)
  have eg1 := first_swap g1 g2 h6 (σ g.index ^^ δ g.index)
  have eg2 := first_swap g1 g2 h6 (σ g.index)
  have F : ∀ (s : Surf), s.voluind.head? = some c ↔ first s c = true := fun s => by unfold first; simp
  rw [F, F, F, F, ef1, ef2, eg1, eg2, hd]
  cases σ f.index <;> cases σ g.index <;> cases δ g.index <;> cases first f c <;> cases first g c <;> simp

omit [IsStrictOrderedRing K] in
/-- The label of a surface of which the index is given. -/
theorem findIdx_index (hu : (m.surfs.map Surf.index).Nodup) {i : Nat} {f : Surf} (hf : m.surfs[i]? = some f) :
    m.surfs.findIdx (fun g => decide (g.index = f.index)) = i := by
  obtain ⟨hi, hg⟩ := List.getElem?_eq_some_iff.1 hf
  have hl : m.surfs.findIdx (fun g => decide (g.index = f.index)) < m.surfs.length :=
    List.findIdx_lt_length_of_exists ⟨f, List.mem_of_getElem? hf, by simp⟩
  have h1 := List.findIdx_getElem (w := hl)
  simp only [decide_eq_true_eq] at h1
  refine (List.Nodup.getElem_inj_iff hu (hi := by simpa using hl) (hj := by simpa using hi)).1 ?_
  rw [List.getElem_map, List.getElem_map, h1, hg]

/-- The orientation with the exchange of blocks. -/
theorem flipped_ok (hm : SolidMesh m w) (hσ : Orientable m w σ) {β : Int → Bool} {r : List Surf × List Int × Int} (hr : Blocks m σ β r)
    (γ : Nat → Bool) : ∃ τ, flipBlocks r ((List.range r.2.2.toNat).map γ) = .ok (m.surfs.map fun f => swapIf (τ f.index) f) ∧
      Orientable m w τ ∧ ∀ (i : Nat) (f : Surf) (o : Int), m.surfs[i]? = some f → r.2.1[i]? = some o →
        τ f.index = (σ f.index ^^ (β |o| ^^ γ (|o| - 1).toNat)) := by
  obtain ⟨s', h1, h2, h3⟩ := flipBlocks_ok hr γ
  let lab : Int → Int := fun s => r.2.1.getD (m.surfs.findIdx fun g => decide (g.index = s)) 0
  have hlab : ∀ (i : Nat) (f : Surf) (o : Int), m.surfs[i]? = some f → r.2.1[i]? = some o → lab f.index = o := by
    intro i f o hf ho
    show r.2.1.getD _ 0 = o
    rw [findIdx_index hm.sound.unique.surfs hf, List.getD_eq_getElem?_getD, ho]
    rfl
  refine ⟨fun s => σ s ^^ (β |lab s| ^^ γ (|lab s| - 1).toNat), ?_, ?_, ?_⟩
  · rw [h1]
    congr 1
    apply List.ext_getElem?
    intro i
    rw [List.getElem?_map]
    cases hf : m.surfs[i]? with
    | none =>
      rw [List.getElem?_eq_none_iff] at hf
      rw [List.getElem?_eq_none (by rw [h2]; exact hf)]
      rfl
    | some f =>
      obtain ⟨o, ho, -⟩ := hr.each i f hf
      rw [h3 i f o hf ho]
      simp only [Option.map_some, hlab i f o hf ho]
  · refine orientable_xor hm hσ fun f hf g hg hj => ?_
    obtain ⟨i, hi⟩ := List.getElem?_of_mem hf
    obtain ⟨j, hj'⟩ := List.getElem?_of_mem hg
    obtain ⟨o, ho, -⟩ := hr.each i f hi
    obtain ⟨p, hp, -⟩ := hr.each j g hj'
    rw [hlab i f o hi ho, hlab j g p hj' hp, (hr.same i j f g o p hi hj' ho hp).2 hj]
  · intro i f o hf ho
    simp only [hlab i f o hf ho]

omit [IsStrictOrderedRing K] in
/-- The flooding, without the exchange of blocks. -/
theorem relative_ok (hm : SolidMesh m w) (hσ : Orientable m w σ) : ∃ τ lab nB,
    orientRelative m = .ok (m.surfs.map fun f => swapIf (τ f.index) f, lab, nB) ∧ Orientable m w τ ∧
      lab.length = m.surfs.length ∧ (∀ o ∈ lab, 1 ≤ |o| ∧ |o| ≤ nB) ∧ (∀ k, 1 ≤ k → k ≤ nB → ∃ o ∈ lab, |o| = k) ∧
      ∀ (i j : Nat) (f g : Surf) (o p : Int), m.surfs[i]? = some f → m.surfs[j]? = some g → lab[i]? = some o → lab[j]? = some p →
        (|o| = |p| ↔ Joined m f.index g.index) := by
  obtain ⟨⟨s, lab, nB⟩, β, h1, hr⟩ := orientRelative_ok hm hσ
  obtain ⟨τ, h5, h6, h7⟩ := flipped_ok hm hσ hr fun _ => false
  obtain ⟨s', g1, g2, g3⟩ := flipBlocks_ok hr fun _ => false
  rw [h5] at g1
  cases g1
  refine ⟨τ, lab, nB, ?_, h6, hr.len2, ?_, hr.used, hr.same⟩
  · rw [h1]
    congr 2
    apply List.ext_getElem?
    intro i
    cases hf : m.surfs[i]? with
    | none =>
      rw [List.getElem?_eq_none_iff] at hf
      rw [List.getElem?_eq_none (by rw [hr.len]; exact hf), List.getElem?_eq_none (by rw [List.length_map]; exact hf)]
    | some f =>
      obtain ⟨o, ho, -, -, k⟩ := hr.each i f hf
      rw [g3 i f o hf ho, k]
      simp
  · intro o ho
    obtain ⟨i, hi⟩ := List.getElem?_of_mem ho
    have hl := (List.getElem?_eq_some_iff.1 hi).1
    have h2 := hr.len2
    simp only at h2
    rw [h2] at hl
    obtain ⟨o', k1, k2, k3, -⟩ := hr.each i _ (List.getElem?_eq_getElem hl)
    simp only at k1
    rw [hi] at k1
    cases k1
    exact ⟨k2, k3⟩

/-- The surfaces of the mesh are oriented. -/
theorem orientSurfaceVolume_ok (hm : SolidMesh m w) (hσ : Orientable m w σ) {eps : K} {dotProd : Int → Int → Option K} (he : 0 < eps)
    (ht : TellsSide m σ eps dotProd) : ∃ τ, orientSurfaceVolume m eps dotProd =
      .ok { m with surfs := m.surfs.map fun f => swapIf (τ f.index) f } ∧ Orientable m w τ ∧
      ∀ f ∈ m.surfs, Decided m eps dotProd f.index → τ f.index = σ f.index := by
  obtain ⟨r, β, h1, h2⟩ := orientRelative_ok hm hσ
  obtain ⟨γ, h3, h4⟩ := allFlips_ok hm he ht h2
  obtain ⟨τ, h5, h6, h7⟩ := flipped_ok hm hσ h2 γ
  refine ⟨τ, ?_, h6, fun f hf hd => ?_⟩
  · unfold orientSurfaceVolume
    rw [h1]
    simp only [Except.bind, h3, h5]
    rfl
  · obtain ⟨i, hi⟩ := List.getElem?_of_mem hf
    obtain ⟨o, ho, -⟩ := h2.each i f hi
    rw [h7 i f o hi ho, h4 i f o hi ho hd]
    simp

/-- The surfaces of a snake are oriented. -/
theorem orientSnake_ok (hm : SolidMesh m w) (hσ : Orientable m w σ) {eps : K} {dotProd : Int → Option K} (he : 0 < eps)
    (ht : TellsSide m σ eps fun s _ => dotProd s) : ∃ τ, orientSnake m eps dotProd =
      .ok { m with surfs := m.surfs.map fun f => swapIf (τ f.index) f } ∧ Orientable m w τ ∧
      ∀ f ∈ m.surfs, Decided m eps (fun s _ => dotProd s) f.index → τ f.index = σ f.index := by
  obtain ⟨r, β, h1, h2⟩ := orientRelative_ok hm hσ
  obtain ⟨γ, h3, h4⟩ := allFlips_ok hm he ht h2
  obtain ⟨τ, h5, h6, h7⟩ := flipped_ok hm hσ h2 γ
  refine ⟨τ, ?_, h6, fun f hf hd => ?_⟩
  · unfold orientSnake
    rw [h1]
    simp only [Except.bind, h3, h5]
    split
    · rfl
    · rename_i hn
      have hz : m.surfs = [] := by
        rw [← List.length_eq_zero_iff]
        by_contra h0
        obtain ⟨o, -, l1, l2, -⟩ := h2.each 0 _ (List.getElem?_eq_getElem (Nat.pos_of_ne_zero h0))
        omega
      have : r.1 = [] := by rw [← List.length_eq_zero_iff, h2.len, hz]; rfl
      rw [this, hz]
      rfl
  · obtain ⟨i, hi⟩ := List.getElem?_of_mem hf
    obtain ⟨o, ho, -⟩ := h2.each i f hi
    rw [h7 i f o hi ho, h4 i f o hi ho hd]
    simp

end RSVS.Orient
