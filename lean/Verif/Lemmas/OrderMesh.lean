import Mathlib.Data.List.Sort
import Verif.Lemmas.OrderLoop

/-!
# Ordering edges of a mesh, orientation and searches: lemmas
-/

namespace RSVS.Order

open RSVS.Spec RSVS.Mesh

/-! ### A table -/

/-- One possible order of the table: sorted by key. -/
def sortTab (l : List Int) : Table := l.zipIdx.insertionSort (fun a b => a.1 ≤ b.1)

theorem grouped_of_sorted : ∀ {t : Table}, t.Pairwise (fun a b => a.1 ≤ b.1) → Grouped t
  | [], _ => trivial
  | a :: r, h => by
    have h' := List.pairwise_cons.mp h
    refine ⟨grouped_of_sorted h'.2, ?_⟩
    intro hm
    cases r with
    | nil => simp at hm
    | cons b r =>
      simp only [List.head?_cons, Option.map_some, Option.some.injEq]
      obtain ⟨c, hc, hca⟩ := List.mem_map.mp hm
      have h1 := h'.1 b (by simp)
      rcases List.mem_cons.mp hc with rfl | hc
      · exact hca
      · have h2 := (List.pairwise_cons.mp h'.2).1 c hc
        omega

theorem sortTab_isTable (l : List Int) : IsTable l (sortTab l) := by
  refine ⟨List.perm_insertionSort _ _, grouped_of_sorted ?_⟩
  have : Std.Total (α := Int × Nat) (fun a b => a.1 ≤ b.1) := ⟨fun a b => by omega⟩
  have : IsTrans (Int × Nat) (fun a b => a.1 ≤ b.1) := ⟨fun a b c h1 h2 => by omega⟩
  exact List.pairwise_insertionSort _ _

/-! ### Reading the ends -/

/-- `e2v` has the two entries of `field` for each index of `l`. -/
def Reads {α : Type} (ix : α → Int) (field : α → List Int) (es : List α) (l e2v : List Int) : Prop :=
  e2v.length = 2 * l.length ∧ ∀ (k : Nat) (e : Int), l[k]? = some e → ∃ x ∈ es, ix x = e ∧
    ∃ a b, field x = [a, b] ∧ e2v[2 * k]? = some a ∧ e2v[2 * k + 1]? = some b

theorem Reads.cons {α : Type} {ix : α → Int} {field : α → List Int} {es : List α} {l e2v : List Int}
    (h : Reads ix field es l e2v) {x : α} (hx : x ∈ es) {a b : Int} (hf : field x = [a, b]) :
    Reads ix field es (ix x :: l) (a :: b :: e2v) := by
  refine ⟨by simp [h.1]; omega, ?_⟩
  intro k e hk
  cases k with
  | zero =>
    simp only [List.getElem?_cons_zero, Option.some.injEq] at hk
    exact ⟨x, hx, hk, a, b, hf, rfl, rfl⟩
  | succ k =>
    rw [List.getElem?_cons_succ] at hk
    obtain ⟨y, y1, y2, c, d, y3, y4, y5⟩ := h.2 k e hk
    exact ⟨y, y1, y2, c, d, y3, by rw [show 2 * (k + 1) = 2 * k + 1 + 1 by omega]; simpa using y4,
      by rw [show 2 * (k + 1) + 1 = 2 * k + 1 + 1 + 1 by omega]; simpa using y5⟩

theorem concatField_reads {α : Type} {ix : α → Int} {field : α → List Int} {es : List α} :
    ∀ (l acc : List Int), (∀ e ∈ l, ∃ x ∈ es, ix x = e) → (∀ x ∈ es, (field x).length = 2) →
      ∃ e2v, List.foldlM (m := Except Fault) (fun acc p => do
          let a ← elemAt es p
          pure (acc ++ field a)) acc (posList ix es l) = .ok (acc ++ e2v) ∧
        Reads ix field es l e2v := by
  intro l
  induction l with
  | nil =>
    intro acc _ _
    exact ⟨[], by simp [posList]; rfl, rfl, by simp⟩
  | cons e l ih =>
    intro acc hex h2
    obtain ⟨x, x1, x2, x3⟩ := elemAt_posOf_ok (ix := ix) (hex e (by simp))
    obtain ⟨a, b, hf⟩ := two_cases (h2 x x2)
    obtain ⟨e2v, g1, g2⟩ := ih (acc ++ [a, b]) (fun y hy => hex y (by simp [hy])) h2
    refine ⟨a :: b :: e2v, ?_, ?_⟩
    · show List.foldlM (m := Except Fault) _ acc (posOf ix es e :: posList ix es l) = _
      rw [List.foldlM_cons]
      show ((elemAt es (posOf ix es e) >>= fun a => pure (acc ++ field a)) >>= _) = _
      rw [x1]
      show List.foldlM (m := Except Fault) _ (acc ++ field x) _ = _
      rw [hf, g1]
      simp
    · rw [← x3]; exact g2.cons x2 hf

theorem joins_iff {α : Type} {ix : α → Int} {field : α → List Int} {es : List α} {l e2v : List Int}
    (h : Reads ix field es l e2v) (hu : (es.map ix).Nodup) {e a b : Int} :
    Joins l e2v e a b ↔ e ∈ l ∧ ∃ x ∈ es, ix x = e ∧ (field x = [a, b] ∨ field x = [b, a]) := by
  constructor
  · rintro ⟨k, k1, k2⟩
    refine ⟨List.mem_of_getElem? k1, ?_⟩
    obtain ⟨x, x1, x2, c, d, x3, x4, x5⟩ := h.2 k e k1
    refine ⟨x, x1, x2, ?_⟩
    rcases k2 with ⟨p, q⟩ | ⟨p, q⟩
    · rw [p, Option.some.injEq] at x4; rw [q, Option.some.injEq] at x5
      subst x4 x5; exact Or.inl x3
    · rw [p, Option.some.injEq] at x4; rw [q, Option.some.injEq] at x5
      subst x4 x5; exact Or.inr x3
  · rintro ⟨he, x, x1, x2, x3⟩
    obtain ⟨k, hk, rfl⟩ := List.getElem_of_mem he
    obtain ⟨y, y1, y2, c, d, y3, y4, y5⟩ := h.2 k _ (List.getElem?_eq_getElem hk)
    have := inj_of_nodup hu x1 y1 (by rw [x2, y2])
    subst this
    refine ⟨k, List.getElem?_eq_getElem hk, ?_⟩
    rw [y4, y5]
    rcases x3 with x3 | x3 <;> rw [y3] at x3 <;> simp only [List.cons.injEq, and_true] at x3
    · left; simp [x3.1, x3.2]
    · right; simp [x3.1, x3.2]

theorem isLoop_congr {J J' : Int → Int → Int → Prop} {es : List Int}
    (h : ∀ e ∈ es, ∀ a b, J e a b → J' e a b) (hl : IsLoop J es) : IsLoop J' es := by
  obtain ⟨w, h1, h2⟩ := hl
  exact ⟨w, fun k e hk => h e (List.mem_of_getElem? hk) _ _ (h1 k e hk), h2⟩

theorem isChain_congr {J J' : Int → Int → Int → Prop} {es : List Int}
    (h : ∀ e ∈ es, ∀ a b, J e a b → J' e a b) (hl : IsChain J es) : IsChain J' es := by
  obtain ⟨w, h1⟩ := hl
  exact ⟨w, fun k e hk => h e (List.mem_of_getElem? hk) _ _ (h1 k e hk)⟩

theorem nodup_sortUnique (l : List Int) : (sortUnique l).Nodup :=
  (sortUnique_strict l).imp (fun h => ne_of_lt h)

/-- The ordering of a loop, abstractly. -/
theorem orderListPtr_loop {orig e2v : List Int} {t : Table} (hn : orig.Nodup)
    (hlen : e2v.length = 2 * orig.length) (ht : IsTable e2v t) {r : List Int}
    (hp : r.Perm orig) (hl : IsLoop (Joins orig e2v) r) (errout : Bool) :
    ∃ r', orderListPtr t orig orig e2v errout = .ok (r', 0) ∧ r'.Perm orig ∧
      IsLoop (Joins orig e2v) r' := by
  cases ho : orig with
  | nil => exact ⟨[], rfl, List.Perm.refl _, fun _ => 0, by simp, rfl, by simp⟩
  | cons e0 rest =>
    rw [← ho]
    have h2 := twoRegular_of_loop hn hlen hp hl
    obtain ⟨r', f, h1, P, d, w, s, hc⟩ :=
      orderListPtr_two hn (by rw [ho]; simp) hlen h2 ht errout
    have h0 : orig[0]? = some e0 := by rw [ho]; rfl
    have hall : ∀ e ∈ orig, e ∈ r' := by
      intro e he
      refine (hc.linked h2 hn ht h0 e).mpr ⟨he, ?_⟩
      exact linked_of_loop hl (hp.mem_iff.mpr (List.mem_of_getElem? h0)) (hp.mem_iff.mpr he)
    have hperm : r'.Perm orig := by
      rw [List.perm_ext_iff_of_nodup (hc.nodup hn) hn]
      exact fun e => ⟨hc.sub e, hall e⟩
    have hlen' := hperm.length_eq
    rw [hc.length] at hlen'
    rcases hc.flag with ⟨rfl, _⟩ | ⟨_, hlt⟩
    · exact ⟨r', h1, hperm, hc.loop⟩
    · omega

/-! ### Surfaces -/

theorem edgesOf_reads {m : Mesh} (hm : Sound m) (h2 : TwoVerts m) {s : Surf} (hs : s ∈ m.surfs) :
    ∃ e2v, concatField m.edges Edge.vertind (posList Edge.index m.edges (sortUnique s.edgeind)) =
        .ok e2v ∧ Reads Edge.index Edge.vertind m.edges (sortUnique s.edgeind) e2v := by
  obtain ⟨e2v, h1, h3⟩ := concatField_reads (ix := Edge.index) (field := Edge.vertind)
    (es := m.edges) (sortUnique s.edgeind) [] (fun e he =>
      hm.noDangling.surfEdge s.index e ⟨s, hs, rfl, mem_sortUnique.mp he⟩) h2
  exact ⟨e2v, by simpa [concatField] using h1, h3⟩

theorem surfOrderEdges_eq {tab : List Int → Table} {m : Mesh} {s : Surf} {e2v : List Int}
    (h : concatField m.edges Edge.vertind (posList Edge.index m.edges (sortUnique s.edgeind)) =
        .ok e2v) :
    surfOrderEdges tab m s =
      orderListPtr (tab e2v) (sortUnique s.edgeind) (sortUnique s.edgeind) e2v true := by
  unfold surfOrderEdges orderEdgeList
  cases hs : sortUnique s.edgeind with
  | nil => rfl
  | cons e es =>
    simp only
    rw [← hs, h]; rfl

theorem edgeJoins_iff {m : Mesh} {l e2v : List Int} (hm : Sound m)
    (h : Reads Edge.index Edge.vertind m.edges l e2v) {e a b : Int} :
    Joins l e2v e a b ↔ e ∈ l ∧ EdgeJoins m e a b := joins_iff h hm.unique.edges

theorem surfOrder_loop {tab : List Int → Table} (ht : ∀ l, IsTable l (tab l)) {m : Mesh}
    (hm : Sound m) (h2 : TwoVerts m) {s : Surf} (hs : s ∈ m.surfs) {r : List Int}
    (hp : r.Perm (sortUnique s.edgeind)) (hl : IsLoop (EdgeJoins m) r) :
    ∃ r', surfOrderEdges tab m s = .ok (r', 0) ∧ r'.Perm (sortUnique s.edgeind) ∧
      IsLoop (EdgeJoins m) r' := by
  obtain ⟨e2v, h1, h3⟩ := edgesOf_reads hm h2 hs
  rw [surfOrderEdges_eq h1]
  obtain ⟨r', g1, g2, g3⟩ := orderListPtr_loop (nodup_sortUnique _) h3.1 (ht e2v) hp
    (isLoop_congr (fun e he a b hj => (edgeJoins_iff hm h3).mpr ⟨hp.mem_iff.mp he, hj⟩) hl) true
  exact ⟨r', g1, g2, isLoop_congr (fun e he a b hj => ((edgeJoins_iff hm h3).mp hj).2) g3⟩

theorem surfOrder_any {tab : List Int → Table} (ht : ∀ l, IsTable l (tab l)) {m : Mesh}
    (hm : Sound m) (h2 : TwoVerts m) {s : Surf} (hs : s ∈ m.surfs) :
    surfOrderEdges tab m s = .error .throws ∨ ∃ r f, surfOrderEdges tab m s = .ok (r, f) ∧
      IsChain (EdgeJoins m) r ∧ r.Nodup ∧ (∀ e ∈ r, e ∈ s.edgeind) ∧
      ((f = 0 ∧ ∀ e ∈ s.edgeind, e ∈ r) ∨ (f = 1 ∧ ∃ e ∈ s.edgeind, e ∉ r)) := by
  obtain ⟨e2v, h1, h3⟩ := edgesOf_reads hm h2 hs
  rw [surfOrderEdges_eq h1]
  rcases orderListPtr_any (nodup_sortUnique _) h3.1 (ht e2v) with h | ⟨r, f, h, g1, g2, g3, g4⟩
  · exact Or.inl h
  · right
    refine ⟨r, f, h, isChain_congr (fun e he a b hj => ((edgeJoins_iff hm h3).mp hj).2) g1, g2,
      fun e he => mem_sortUnique.mp (g3 e he), ?_⟩
    have hsub : r.Subperm (sortUnique s.edgeind) := g2.subperm g3
    rcases g4 with ⟨g4, g5⟩ | ⟨g4, g5⟩
    · left
      refine ⟨g4, fun e he => ?_⟩
      exact (hsub.perm_of_length_le (by omega)).mem_iff.mpr (mem_sortUnique.mpr he)
    · right
      refine ⟨g4, ?_⟩
      by_contra hno
      simp only [not_exists, not_and, not_not] at hno
      have : (sortUnique s.edgeind).Subperm r :=
        (nodup_sortUnique _).subperm (fun e he => hno e (mem_sortUnique.mp he))
      have := this.length_le
      omega

/-! ### Vertices -/

theorem surfPairs_reads {m : Mesh} : ∀ (l : List Int), (∀ e ∈ l, HasEdge m e) →
    (∀ e ∈ l, ∃ a b, EdgeParts m e a b) → (m.edges.map Edge.index).Nodup →
    ∃ e2v, surfPairs m l = .ok (some e2v) ∧ Reads Edge.index Edge.surfind m.edges l e2v := by
  intro l
  induction l with
  | nil => intro _ _ _; exact ⟨[], rfl, rfl, by simp⟩
  | cons e l ih =>
    intro hex hp hu
    obtain ⟨x, x1, x2, x3⟩ := elemAt_posOf_ok (ix := Edge.index) (hex e (by simp))
    obtain ⟨a, b, y, y1, y2, y3⟩ := hp e (by simp)
    have := inj_of_nodup hu x2 y1 (by rw [x3, y2])
    subst this
    obtain ⟨e2v, g1, g2⟩ := ih (fun z hz => hex z (by simp [hz])) (fun z hz => hp z (by simp [hz])) hu
    have hab : ∃ a b, x.surfind = [a, b] := by
      rcases y3 with h | h
      · exact ⟨_, _, h⟩
      · exact ⟨_, _, h⟩
    obtain ⟨a, b, hab⟩ := hab
    refine ⟨a :: b :: e2v, ?_, ?_⟩
    · show (isearch Edge.index m.edges e >>= _) = _
      rw [show isearch Edge.index m.edges e = .ok x from x1]
      show (if x.surfind.length ≠ 2 then _ else (surfPairs m l >>= _)) = _
      rw [if_neg (by rw [hab]; simp), g1, hab]
      rfl
    · rw [← x3]; exact g2.cons x2 hab

theorem surfPairs_none {m : Mesh} : ∀ (l : List Int), (∀ e ∈ l, HasEdge m e) →
    (∃ e ∈ l, ∃ x ∈ m.edges, x.index = e ∧ x.surfind.length ≠ 2) → (m.edges.map Edge.index).Nodup →
    surfPairs m l = .ok none := by
  intro l
  induction l with
  | nil => rintro _ ⟨e, he, _⟩; cases he
  | cons e l ih =>
    rintro hex ⟨z, hz, y, y1, y2, y3⟩ hu
    obtain ⟨x, x1, x2, x3⟩ := elemAt_posOf_ok (ix := Edge.index) (hex e (by simp))
    show (isearch Edge.index m.edges e >>= _) = _
    rw [show isearch Edge.index m.edges e = .ok x from x1]
    show (if x.surfind.length ≠ 2 then _ else (surfPairs m l >>= _)) = _
    by_cases hx : x.surfind.length ≠ 2
    · rw [if_pos hx]
    · rw [if_neg hx]
      have hz : z ∈ l := by
        rcases List.mem_cons.mp hz with h | h
        · exfalso
          have := inj_of_nodup hu x2 y1 (by rw [x3, y2, h])
          subst this
          exact hx y3
        · exact h
      rw [ih (fun z hz => hex z (by simp [hz])) ⟨z, hz, y, y1, y2, y3⟩ hu]
      rfl

theorem vertOrder_loop {tab : List Int → Table} (ht : ∀ l, IsTable l (tab l)) {m : Mesh}
    (hm : Sound m) {v : Vert} (hv : v ∈ m.verts) {r : List Int} (hlen : 2 ≤ r.length)
    (hp : r.Perm (sortUnique v.edgeind)) (hl : IsLoop (EdgeParts m) r) :
    ∃ r', vertOrderEdges tab m v = .ok (r', 0) ∧ r'.Perm (sortUnique v.edgeind) ∧
      IsLoop (EdgeParts m) r' := by
  have hex : ∀ e ∈ sortUnique v.edgeind, HasEdge m e := by
    intro e he
    have hve : VertEdge m v.index e := ⟨v, hv, rfl, mem_sortUnique.mp he⟩
    exact hm.noDangling.vertEdge _ e hve (by rintro rfl; exact hm.zeroOutside.vertEdge _ hve)
  have hpart : ∀ e ∈ sortUnique v.edgeind, ∃ a b, EdgeParts m e a b := by
    intro e he
    obtain ⟨w, w1, _⟩ := hl
    obtain ⟨k, hk, rfl⟩ := List.getElem_of_mem (hp.mem_iff.mpr he)
    exact ⟨_, _, w1 k _ (List.getElem?_eq_getElem hk)⟩
  obtain ⟨e2v, h1, h3⟩ := surfPairs_reads _ hex hpart hm.unique.edges
  have hj : ∀ e a b, Joins (sortUnique v.edgeind) e2v e a b ↔
      e ∈ sortUnique v.edgeind ∧ EdgeParts m e a b := fun e a b => joins_iff h3 hm.unique.edges
  obtain ⟨r', g1, g2, g3⟩ := orderListPtr_loop (nodup_sortUnique _) h3.1 (ht e2v) hp
    (isLoop_congr (fun e he a b h => (hj e a b).mpr ⟨hp.mem_iff.mp he, h⟩) hl) false
  refine ⟨r', ?_, g2, isLoop_congr (fun e he a b h => ((hj e a b).mp h).2) g3⟩
  unfold vertOrderEdges
  rw [if_neg (by rw [← hp.length_eq]; omega), h1]
  show (orderListPtr _ _ _ _ _ >>= _) = _
  rw [g1]
  rfl

/-! ### Vertices along a loop -/

theorem endsOf_ok {m : Mesh} (hu : (m.edges.map Edge.index).Nodup) {e a b : Int}
    (h : EdgeJoins m e a b) : endsOf m e = .ok (a, b) ∨ endsOf m e = .ok (b, a) := by
  obtain ⟨x, x1, x2, x3⟩ := h
  obtain ⟨y, y1, y2, y3⟩ := elemAt_posOf_ok (ix := Edge.index) ⟨x, x1, x2⟩
  have := inj_of_nodup hu x1 y2 (by rw [x2, y3])
  subst this
  unfold endsOf
  rw [y1]
  rcases x3 with x3 | x3
  · left; show (vecGet x.vertind 0 >>= _) = _; rw [x3]; rfl
  · right; show (vecGet x.vertind 0 >>= _) = _; rw [x3]; rfl

theorem orderedVertsLoop_ok {m : Mesh} (hu : (m.edges.map Edge.index).Nodup) (w : Nat → Int) :
    ∀ (es : List Int) (k : Nat) (p : Int) (past : Int × Int),
      (∀ (i : Nat) (e : Int), es[i]? = some e → EdgeJoins m e (w (k + i)) (w (k + i + 1))) →
      (past = (p, w k) ∨ past = (w k, p)) →
      (es ≠ [] → p ≠ w k ∧ p ≠ w (k + 1)) →
      (∀ i, i + 1 < es.length → w (k + i) ≠ w (k + i + 1) ∧ w (k + i) ≠ w (k + i + 2)) →
      orderedVertsLoop m past es = .ok ((List.range es.length).map (fun i => w (k + i))) := by
  intro es
  induction es with
  | nil => intro k p past _ _ _ _; rfl
  | cons e es ih =>
    intro k p past hj hpast hp hw
    obtain ⟨p1, p2⟩ := hp (by simp)
    have hje := hj 0 e rfl
    simp only [Nat.add_zero] at hje
    have hstep : ∃ now, endsOf m e = .ok now ∧ (now = (w k, w (k + 1)) ∨ now = (w (k + 1), w k)) := by
      rcases endsOf_ok hu hje with h | h
      · exact ⟨_, h, Or.inl rfl⟩
      · exact ⟨_, h, Or.inr rfl⟩
    obtain ⟨now, h1, h2⟩ := hstep
    have hshared : sharedVert past now = .ok (w k) := by
      unfold sharedVert
      rcases hpast with rfl | rfl
      · rw [if_neg (by
          simp only
          rcases h2 with rfl | rfl
          · rintro (h | h)
            · exact p1 h.symm
            · exact p2 h.symm
          · rintro (h | h)
            · exact p2 h.symm
            · exact p1 h.symm), if_pos (by
          rcases h2 with rfl | rfl
          · exact Or.inl rfl
          · exact Or.inr rfl)]
      · rw [if_pos (by
          rcases h2 with rfl | rfl
          · exact Or.inl rfl
          · exact Or.inr rfl)]
    have hrec := ih (k + 1) (w k) now (by
        intro i e' hi
        have := hj (i + 1) e' (by simpa using hi)
        rw [show k + 1 + i = k + (i + 1) by omega]; exact this) h2 (by
        intro hne
        have := hw 0 (by
          cases es with
          | nil => exact absurd rfl hne
          | cons => simp)
        simpa using this) (by
        intro i hi
        have := hw (i + 1) (by simp; omega)
        rw [show k + 1 + i = k + (i + 1) by omega]; exact this)
    show (endsOf m e >>= _) = _
    rw [h1]
    show (sharedVert past now >>= _) = _
    rw [hshared]
    show (orderedVertsLoop m now es >>= _) = _
    rw [hrec]
    show Except.ok _ = _
    rw [List.length_cons, List.range_succ_eq_map, List.map_cons, List.map_map]
    simp only [Nat.add_zero]
    congr 2
    apply List.map_congr_left
    intro i _
    simp only [Function.comp]
    congr 1
    omega

theorem goesRound_ne {J : Int → Int → Int → Prop} {es : List Int} {w : Nat → Int}
    (h : GoesRound J es w) {i j : Nat} (hi : i ≤ es.length) (hj : j ≤ es.length) (hij : i < j)
    (hn : ¬ (i = 0 ∧ j = es.length)) : w i ≠ w j := by
  intro he
  by_cases hj' : j = es.length
  · subst hj'
    rw [h.2.1] at he
    have := h.2.2 i 0 (by omega) (by omega) he
    omega
  · have := h.2.2 i j (by omega) (by omega) he
    omega

theorem orderedVerts_ok {m : Mesh} (hu : (m.edges.map Edge.index).Nodup) {es : List Int}
    {w : Nat → Int} (h3 : 3 ≤ es.length) (h : GoesRound (EdgeJoins m) es w) :
    orderedVerts m es = .ok ((List.range es.length).map w) := by
  unfold orderedVerts
  have hlast : es[es.length - 1]? = some (es[es.length - 1]'(by omega)) :=
    List.getElem?_eq_getElem (by omega)
  have hg : vecGet es ((es.length : Int) - 1) = .ok (es[es.length - 1]'(by omega)) := by
    rw [show ((es.length : Int) - 1) = ((es.length - 1 : Nat) : Int) by omega]
    exact vecGet_nat hlast
  have hj := h.1 _ _ hlast
  rw [show es.length - 1 + 1 = es.length by omega, h.2.1] at hj
  have hpast : ∃ past, endsOf m (es[es.length - 1]'(by omega)) = .ok past ∧
      (past = (w (es.length - 1), w 0) ∨ past = (w 0, w (es.length - 1))) := by
    rcases endsOf_ok hu hj with h | h
    · exact ⟨_, h, Or.inl rfl⟩
    · exact ⟨_, h, Or.inr rfl⟩
  obtain ⟨past, q1, q2⟩ := hpast
  rw [hg]
  show (endsOf m _ >>= _) = _
  rw [q1]
  have := orderedVertsLoop_ok hu w es 0 (w (es.length - 1)) past (by simpa using h.1) q2 (by
    intro _
    exact ⟨(goesRound_ne h (i := 0) (by omega) (by omega) (by omega) (by omega)).symm,
      (goesRound_ne h (i := 1) (j := es.length - 1) (by omega) (by omega) (by omega) (by omega)).symm⟩)
    (by
      intro i hi
      rw [Nat.zero_add]
      exact ⟨goesRound_ne h (by omega) (by omega) (by omega) (by omega),
        goesRound_ne h (by omega) (by omega) (by omega) (by omega)⟩)
  show orderedVertsLoop m past es = _
  simpa using this

theorem connVertLoop_ok {m : Mesh} (hu : (m.edges.map Edge.index).Nodup) (w : Nat → Int) :
    ∀ (es : List Int) (k : Nat) (ll : Bool),
      (∀ (i : Nat) (e : Int), es[i]? = some e → EdgeJoins m e (w (k + i)) (w (k + i + 1))) →
      (∀ e, es[0]? = some e → ∃ x, endsOf m e = .ok x ∧ pick ll x = w (k + 1)) →
      (∀ i, i + 1 < es.length → w (k + i + 1) ≠ w (k + i + 2) ∧ w (k + i) ≠ w (k + i + 2)) →
      connVertLoop m ll es = .ok ((List.range es.length).map (fun i => w (k + i + 1))) := by
  intro es
  induction es with
  | nil => intro k ll _ _ _; rfl
  | cons e es ih =>
    intro k ll hj hll hw
    obtain ⟨x, x1, x2⟩ := hll e rfl
    cases es with
    | nil =>
      show (endsOf m e >>= _) = _
      rw [x1]
      show Except.ok [pick ll x] = _
      rw [x2]
      rfl
    | cons f es =>
      have hje := hj 0 e rfl
      have hjf := hj 1 f rfl
      simp only [Nat.add_zero] at hje
      have hw0 := hw 0 (by simp)
      simp only [Nat.add_zero] at hw0
      obtain ⟨y, y1, y2⟩ : ∃ y, endsOf m f = .ok y ∧
          (y = (w (k + 1), w (k + 2)) ∨ y = (w (k + 2), w (k + 1))) := by
        rcases endsOf_ok hu hjf with h | h
        · exact ⟨_, h, Or.inl rfl⟩
        · exact ⟨_, h, Or.inr rfl⟩
      have hx : x = (w k, w (k + 1)) ∨ x = (w (k + 1), w k) := by
        rcases endsOf_ok hu hje with h | h <;> rw [x1] at h <;> cases h
        · exact Or.inl rfl
        · exact Or.inr rfl
      have hnext : pick (if x.1 = pick ll y ∨ x.2 = pick ll y then !ll else ll) y = w (k + 2) := by
        obtain ⟨n1, n2⟩ := hw0
        rcases y2 with rfl | rfl <;> rcases hx with rfl | rfl <;> cases ll <;>
          simp [pick, n1, n2, Ne.symm]
      have hrec := ih (k + 1) (if x.1 = pick ll y ∨ x.2 = pick ll y then !ll else ll) (by
          intro i e' hi
          have := hj (i + 1) e' (by simpa using hi)
          rw [show k + 1 + i = k + (i + 1) by omega]; exact this) (by
          intro e' he'
          simp only [List.getElem?_cons_zero, Option.some.injEq] at he'
          subst he'
          exact ⟨y, y1, hnext⟩) (by
          intro i hi
          have := hw (i + 1) (by simp at hi ⊢; omega)
          rw [show k + 1 + i = k + (i + 1) by omega]; exact this)
      show (endsOf m e >>= _) = _
      rw [x1]
      show (endsOf m f >>= _) = _
      rw [y1]
      show (connVertLoop m _ (f :: es) >>= _) = _
      rw [hrec]
      show Except.ok (pick ll x :: _) = _
      rw [x2, List.length_cons (a := e), List.range_succ_eq_map, List.map_cons, List.map_map]
      simp only [Nat.add_zero]
      congr 2
      apply List.map_congr_left
      intro i _
      simp only [Function.comp]
      congr 1
      omega

theorem connVert_ok {m : Mesh} (hu : (m.edges.map Edge.index).Nodup) {es : List Int}
    {w : Nat → Int} (h3 : 3 ≤ es.length) (h : GoesRound (EdgeJoins m) es w) :
    connVert m es = .ok ((List.range es.length).map (fun k => w (k + 1))) := by
  match es, h3 with
  | e :: f :: g :: es, _ =>
    have hne : ∀ i j, i ≤ (e :: f :: g :: es).length → j ≤ (e :: f :: g :: es).length → i < j →
        ¬ (i = 0 ∧ j = (e :: f :: g :: es).length) → w i ≠ w j :=
      fun i j => goesRound_ne h
    have hje := h.1 0 e rfl
    have hjf := h.1 1 f rfl
    simp only [Nat.zero_add] at hje
    have n01 : w 0 ≠ w 1 := hne 0 1 (by simp) (by simp) (by omega) (by simp)
    have n12 : w 1 ≠ w 2 := hne 1 2 (by simp) (by simp) (by omega) (by simp)
    have n02 : w 0 ≠ w 2 := hne 0 2 (by simp) (by simp) (by omega) (by simp)
    obtain ⟨x, x1, x2⟩ : ∃ x, endsOf m e = .ok x ∧ (x = (w 0, w 1) ∨ x = (w 1, w 0)) := by
      rcases endsOf_ok hu hje with h | h
      · exact ⟨_, h, Or.inl rfl⟩
      · exact ⟨_, h, Or.inr rfl⟩
    obtain ⟨y, y1, y2⟩ : ∃ y, endsOf m f = .ok y ∧ (y = (w 1, w 2) ∨ y = (w 2, w 1)) := by
      rcases endsOf_ok hu hjf with h | h
      · exact ⟨_, h, Or.inl rfl⟩
      · exact ⟨_, h, Or.inr rfl⟩
    have hfirst : pick (if x.1 = y.1 ∨ x.1 = y.2 then false else true) x = w 1 := by
      rcases x2 with rfl | rfl <;> rcases y2 with rfl | rfl <;> simp [pick, n01, n02]
    have := connVertLoop_ok hu w (e :: f :: g :: es) 0 _ (by simpa using h.1) (by
        intro e' he'
        simp only [List.getElem?_cons_zero, Option.some.injEq] at he'
        subst he'
        exact ⟨x, x1, hfirst⟩) (by
        intro i hi
        rw [Nat.zero_add]
        refine ⟨hne _ _ (by omega) (by omega) (by omega) (by omega), ?_⟩
        refine hne _ _ (by omega) (by omega) (by omega) ?_
        simp only [List.length_cons]; omega)
    show (endsOf m e >>= _) = _
    rw [x1]
    show (endsOf m f >>= _) = _
    rw [y1]
    show connVertLoop m _ _ = _
    rw [this]
    simp

/-! ### Orientation -/

/-- The sum of the positions of `v`. -/
def posSum (v : Int) : Int → List Int → Int
  | _, [] => 0
  | b, x :: xs => (if x = v then b else 0) + posSum v (b + 1) xs

theorem matchLoop_eq {p1 p2 : Int} (hne : p1 ≠ p2) : ∀ (l : List Int) (b : Int),
    matchLoop p1 p2 b l = (posSum p1 b l - posSum p2 b l, l.count p1 + l.count p2) := by
  intro l
  induction l with
  | nil => intro b; rfl
  | cons x xs ih =>
    intro b
    unfold matchLoop posSum
    rw [ih (b + 1), List.count_cons, List.count_cons]
    by_cases h1 : x = p1
    · have : ¬ x = p2 := by rw [h1]; exact hne
      simp only [h1, if_pos, beq_self_eq_true]
      rw [h1] at this
      simp [this]
      constructor <;> omega
    · by_cases h2 : x = p2
      · simp [h2, hne.symm]
        constructor <;> omega
      · simp [h1, h2]

theorem posSum_notMem {v : Int} : ∀ (l : List Int) (b : Int), v ∉ l → posSum v b l = 0 := by
  intro l
  induction l with
  | nil => intro b _; rfl
  | cons x xs ih =>
    intro b h
    unfold posSum
    rw [if_neg (by rintro rfl; exact h (by simp)), ih _ (fun hv => h (by simp [hv]))]
    rfl

theorem posSum_get {v : Int} : ∀ (l : List Int) (b : Int) (i : Nat), l.Nodup → l[i]? = some v →
    posSum v b l = b + i := by
  intro l
  induction l with
  | nil => intro b i _ h; simp at h
  | cons x xs ih =>
    intro b i hn h
    unfold posSum
    have hn' := List.nodup_cons.mp hn
    cases i with
    | zero =>
      simp only [List.getElem?_cons_zero, Option.some.injEq] at h
      subst h
      rw [if_pos rfl, posSum_notMem _ _ hn'.1]
      simp
    | succ i =>
      rw [List.getElem?_cons_succ] at h
      rw [if_neg (by rintro rfl; exact hn'.1 (List.mem_of_getElem? h)), ih _ i hn'.2 h]
      push_cast
      omega

theorem orderMatch_get {l : List Int} (hn : l.Nodup) {a b : Int} (hne : a ≠ b) {i j : Nat}
    (hi : l[i]? = some a) (hj : l[j]? = some b) :
    orderMatch l a b = (wrapSign ((i : Int) - j), 2) := by
  unfold orderMatch
  rw [matchLoop_eq hne, posSum_get l 0 i hn hi, posSum_get l 0 j hn hj,
    List.count_eq_one_of_mem hn (List.mem_of_getElem? hi),
    List.count_eq_one_of_mem hn (List.mem_of_getElem? hj)]
  simp

theorem wrapSign_neg (d : Int) : wrapSign (-d) = -wrapSign d := by
  unfold wrapSign
  by_cases h1 : d > 1
  · have : ¬ -d > 1 := by omega
    rw [if_neg this, if_pos h1, if_pos (by omega), if_neg (by omega)]; rfl
  · by_cases h2 : d < -1
    · have : -d > 1 := by omega
      rw [if_pos this, if_neg h1, if_neg (by omega), if_pos h2]
    · rw [if_neg (show ¬ -d > 1 by omega), if_neg h1, if_neg (by omega), if_neg (by omega)]

theorem wrapSign_cases {d : Int} (h : d ≠ 0) : wrapSign d = 1 ∨ wrapSign d = -1 := by
  unfold wrapSign
  split <;> split <;> omega

theorem orderMatch_follows {l : List Int} (hn : l.Nodup) (h3 : 3 ≤ l.length) {a b : Int}
    (h : Follows l a b) : orderMatch l a b = (-1, 2) ∧ a ≠ b := by
  obtain ⟨i, hi, hj⟩ := h
  have hlt := lt_of_get hi
  have hmod : (i + 1) % l.length = if i + 1 = l.length then 0 else i + 1 := by
    split
    · next h => rw [h, Nat.mod_self]
    · exact Nat.mod_eq_of_lt (by omega)
  have hne : a ≠ b := by
    rintro rfl
    have := inj_of_get hn hi hj
    rw [hmod] at this
    split at this <;> omega
  refine ⟨?_, hne⟩
  rw [orderMatch_get hn hne hi hj, hmod]
  congr 1
  unfold wrapSign
  split <;> split <;> split <;> omega

theorem orderMatch_swap {l : List Int} (hn : l.Nodup) {a b : Int} (hne : a ≠ b) (ha : a ∈ l)
    (hb : b ∈ l) : orderMatch l b a = (-(orderMatch l a b).1, 2) ∧ (orderMatch l a b).2 = 2 ∧
      ((orderMatch l a b).1 = 1 ∨ (orderMatch l a b).1 = -1) := by
  obtain ⟨i, hi, rfl⟩ := List.getElem_of_mem ha
  obtain ⟨j, hj, rfl⟩ := List.getElem_of_mem hb
  rw [orderMatch_get hn hne (List.getElem?_eq_getElem hi) (List.getElem?_eq_getElem hj),
    orderMatch_get hn hne.symm (List.getElem?_eq_getElem hj) (List.getElem?_eq_getElem hi)]
  have hij : (i : Int) - j ≠ 0 := by
    intro h
    have : i = j := by omega
    subst this
    exact hne rfl
  refine ⟨?_, rfl, wrapSign_cases hij⟩
  rw [← wrapSign_neg]
  congr 2
  omega

theorem orderMatch_reverse {l : List Int} (hn : l.Nodup) {a b : Int} (hne : a ≠ b) (ha : a ∈ l)
    (hb : b ∈ l) : orderMatch l.reverse a b = (-(orderMatch l a b).1, 2) := by
  obtain ⟨i, hi, rfl⟩ := List.getElem_of_mem ha
  obtain ⟨j, hj, rfl⟩ := List.getElem_of_mem hb
  have hi' : l.reverse[l.length - 1 - i]? = some l[i] := by
    rw [List.getElem?_reverse (by omega), show l.length - 1 - (l.length - 1 - i) = i by omega]
    exact List.getElem?_eq_getElem hi
  have hj' : l.reverse[l.length - 1 - j]? = some l[j] := by
    rw [List.getElem?_reverse (by omega), show l.length - 1 - (l.length - 1 - j) = j by omega]
    exact List.getElem?_eq_getElem hj
  rw [orderMatch_get hn hne (List.getElem?_eq_getElem hi) (List.getElem?_eq_getElem hj),
    orderMatch_get (List.nodup_reverse.mpr hn) hne hi' hj']
  have hij : (i : Int) - j ≠ 0 := by
    intro h
    have : i = j := by omega
    subst this
    exact hne rfl
  rw [← wrapSign_neg]
  congr 2
  omega

theorem orderMatch2_eq (l1 l2 : List Int) (a b : Int) :
    orderMatch2 l1 l2 a b = orderMatch2Old l1 l2 a b := by
  unfold orderMatch2 orderMatch2Old orderMatch
  simp only
  by_cases h1 : (matchLoop a b 0 l1).2 ≠ 2
  · rw [if_pos h1, if_pos h1]
  · rw [if_neg h1, if_neg h1]
    by_cases h2 : (matchLoop a b 0 l2).2 ≠ 2
    · rw [if_pos h2, if_pos h2]
    · rw [if_neg h2, if_neg h2]
      show (if _ then _ else _) = _
      rw [if_neg (by simp)]

/-! ### Searches -/

theorem edgeSearch_ok {m : Mesh} (hu : (m.edges.map Edge.index).Nodup) (h2 : TwoVerts m)
    (v1 v2 : Int) : ∀ (l : List Int), (∀ e ∈ l, HasEdge m e) →
      ∃ r, edgeSearch m v1 v2 l = .ok r ∧
        ((r ∈ l ∧ EdgeJoins m r v1 v2) ∨ (r = -1 ∧ ∀ e ∈ l, ¬ EdgeJoins m e v1 v2)) := by
  intro l
  induction l with
  | nil => intro _; exact ⟨-1, rfl, Or.inr ⟨rfl, by simp⟩⟩
  | cons e l ih =>
    intro hex
    obtain ⟨x, x1, x2, x3⟩ := elemAt_posOf_ok (ix := Edge.index) (hex e (by simp))
    obtain ⟨a, b, hab⟩ := two_cases (h2 x x2)
    have hstep : edgeSearch m v1 v2 (e :: l) =
        if (a = v1 ∧ b = v2) ∨ (b = v1 ∧ a = v2) then .ok e else edgeSearch m v1 v2 l := by
      show (isearch Edge.index m.edges e >>= _) = _
      rw [show isearch Edge.index m.edges e = .ok x from x1]
      show (vecGet x.vertind 0 >>= _) = _
      rw [hab]
      rfl
    rw [hstep]
    by_cases hc : (a = v1 ∧ b = v2) ∨ (b = v1 ∧ a = v2)
    · rw [if_pos hc]
      refine ⟨e, rfl, Or.inl ⟨by simp, x, x2, x3, ?_⟩⟩
      rw [hab]
      rcases hc with ⟨rfl, rfl⟩ | ⟨rfl, rfl⟩
      · exact Or.inl rfl
      · exact Or.inr rfl
    · rw [if_neg hc]
      obtain ⟨r, r1, r2⟩ := ih (fun y hy => hex y (by simp [hy]))
      refine ⟨r, r1, ?_⟩
      rcases r2 with ⟨r2, r3⟩ | ⟨r2, r3⟩
      · exact Or.inl ⟨by simp [r2], r3⟩
      · refine Or.inr ⟨r2, ?_⟩
        intro y hy
        rcases List.mem_cons.mp hy with rfl | hy
        · rintro ⟨z, z1, z2, z3⟩
          have := inj_of_nodup hu x2 z1 (by rw [x3, z2])
          subst this
          apply hc
          rcases z3 with z3 | z3 <;> rw [hab] at z3 <;>
            simp only [List.cons.injEq, and_true] at z3
          · exact Or.inl z3
          · exact Or.inr ⟨z3.2, z3.1⟩
        · exact r3 y hy

theorem edgeFromVerts_ok {m : Mesh} (hm : Sound m) (h2 : TwoVerts m) {v1 v2 : Int}
    (h1 : HasVert m v1) (hv2 : HasVert m v2) :
    ∃ r, edgeFromVerts m v1 v2 = .ok r ∧
      (EdgeJoins m r v1 v2 ∨ (r = -1 ∧ ∀ e, ¬ EdgeJoins m e v1 v2)) := by
  obtain ⟨x, x1, x2, x3⟩ := elemAt_posOf_ok (ix := Vert.index) h1
  obtain ⟨y, y1, y2, y3⟩ := elemAt_posOf_ok (ix := Vert.index) hv2
  have hex : ∀ z ∈ m.verts, ∀ e ∈ z.edgeind, HasEdge m e := by
    intro z hz e he
    have hve : VertEdge m z.index e := ⟨z, hz, rfl, he⟩
    exact hm.noDangling.vertEdge _ e hve (by rintro rfl; exact hm.zeroOutside.vertEdge _ hve)
  have hall : ∀ z ∈ m.verts, (z.index = v1 ∨ z.index = v2) → ∀ e, EdgeJoins m e v1 v2 →
      e ∈ z.edgeind := by
    intro z hz hzi e ⟨w, w1, w2, w3⟩
    have hev : EdgeVert m e z.index := by
      refine ⟨w, w1, w2, ?_⟩
      rcases w3 with w3 | w3 <;> rw [w3] <;> rcases hzi with h | h <;> rw [h] <;> simp
    obtain ⟨z', z1, z2, z3⟩ := (hm.sym.vertEdge z.index e ⟨z, hz, rfl⟩ ⟨w, w1, w2⟩).mpr hev
    rw [inj_of_nodup hm.unique.verts hz z1 z2.symm]
    exact z3
  have key : ∀ z ∈ m.verts, (z.index = v1 ∨ z.index = v2) →
      ∃ r, edgeSearch m v1 v2 z.edgeind = .ok r ∧
      (EdgeJoins m r v1 v2 ∨ (r = -1 ∧ ∀ e, ¬ EdgeJoins m e v1 v2)) := by
    intro z hz hzi
    obtain ⟨r, r1, r2⟩ := edgeSearch_ok hm.unique.edges h2 v1 v2 z.edgeind (hex z hz)
    refine ⟨r, r1, ?_⟩
    rcases r2 with ⟨_, r2⟩ | ⟨r2, r3⟩
    · exact Or.inl r2
    · exact Or.inr ⟨r2, fun e he => r3 e (hall z hz hzi e he) he⟩
  unfold edgeFromVerts
  rw [show isearch Vert.index m.verts v1 = .ok x from x1]
  show ∃ r, (isearch Vert.index m.verts v2 >>= _) = _ ∧ _
  rw [show isearch Vert.index m.verts v2 = .ok y from y1]
  show ∃ r, edgeSearch m v1 v2 (if x.edgeind.length < y.edgeind.length then _ else _) = _ ∧ _
  split
  · exact key x x2 (Or.inl x3)
  · exact key y y2 (Or.inr y3)

theorem surfSearch_step {m : Mesh} (hu : (m.surfs.map Surf.index).Nodup) {s : Int} (hs : HasSurf m s)
    (e rep : Int) (ret : Option Int) (ss : List Int) :
    (SurfEdge m s e ∧ surfSearch m e rep ret (s :: ss) =
      if ret.isSome then (if rep = 1 then .ok (-1) else .error .throws)
      else if rep = 0 then .ok s else surfSearch m e rep (some s) ss) ∨
    (¬ SurfEdge m s e ∧ surfSearch m e rep ret (s :: ss) = surfSearch m e rep ret ss) := by
  obtain ⟨x, x1, x2, x3⟩ := elemAt_posOf_ok (ix := Surf.index) hs
  have hstep : surfSearch m e rep ret (s :: ss) =
      if x.edgeind.contains e then
        if ret.isSome then (if rep = 1 then .ok (-1) else .error .throws)
        else if rep = 0 then .ok s else surfSearch m e rep (some s) ss
      else surfSearch m e rep ret ss := by
    show (isearch Surf.index m.surfs s >>= _) = _
    rw [show isearch Surf.index m.surfs s = .ok x from x1]
    rfl
  have hiff : SurfEdge m s e ↔ x.edgeind.contains e = true := by
    rw [List.contains_iff_mem]
    constructor
    · rintro ⟨y, y1, y2, y3⟩
      rw [inj_of_nodup hu x2 y1 (by rw [x3, y2])]; exact y3
    · intro h; exact ⟨x, x2, x3, h⟩
  by_cases h : x.edgeind.contains e = true
  · left
    exact ⟨hiff.mpr h, by rw [hstep, if_pos h]⟩
  · right
    exact ⟨fun h' => h (hiff.mp h'), by rw [hstep, if_neg h]⟩

/-- What the search does with the list: the first surface found (`rep = 0`), or the only one. -/
theorem surfSearch_ok {m : Mesh} (hu : (m.surfs.map Surf.index).Nodup) (e rep : Int) :
    ∀ (l : List Int), (∀ s ∈ l, HasSurf m s) → l.Nodup →
      ((∀ s ∈ l, ¬ SurfEdge m s e) ∧ surfSearch m e rep none l = .ok (-1)) ∨
      (∃ s ∈ l, SurfEdge m s e ∧ (∀ s' ∈ l, SurfEdge m s' e → s' = s) ∧
        surfSearch m e rep none l = .ok s) ∨
      (∃ s ∈ l, ∃ s' ∈ l, s ≠ s' ∧ SurfEdge m s e ∧ SurfEdge m s' e ∧
        surfSearch m e rep none l =
          if rep = 0 then .ok s else if rep = 1 then .ok (-1) else .error .throws) := by
  -- after one surface has been found
  have after : ∀ (l : List Int) (s : Int), (∀ s ∈ l, HasSurf m s) → 
      ((∀ s ∈ l, ¬ SurfEdge m s e) ∧ surfSearch m e rep (some s) l = .ok s) ∨
      (∃ s' ∈ l, SurfEdge m s' e ∧ surfSearch m e rep (some s) l =
        if rep = 1 then .ok (-1) else .error .throws) := by
    intro l s
    induction l with
    | nil => intro _; exact Or.inl ⟨by simp, rfl⟩
    | cons a l ih =>
      intro hex
      rcases surfSearch_step hu (hex a (by simp)) e rep (some s) l with ⟨h1, h2⟩ | ⟨h1, h2⟩
      · right
        exact ⟨a, by simp, h1, by rw [h2]; rfl⟩
      · rcases ih (fun y hy => hex y (by simp [hy])) with ⟨i1, i2⟩ | ⟨s', i1, i2, i3⟩
        · left
          refine ⟨?_, by rw [h2, i2]⟩
          intro y hy
          rcases List.mem_cons.mp hy with rfl | hy
          · exact h1
          · exact i1 y hy
        · right
          exact ⟨s', by simp [i1], i2, by rw [h2, i3]⟩
  intro l
  induction l with
  | nil => intro _ _; exact Or.inl ⟨by simp, rfl⟩
  | cons a l ih =>
    intro hex hn
    have hn' := List.nodup_cons.mp hn
    have hexl : ∀ s ∈ l, HasSurf m s := fun y hy => hex y (by simp [hy])
    rcases surfSearch_step hu (hex a (by simp)) e rep none l with ⟨h1, h2⟩ | ⟨h1, h2⟩
    · right
      rw [h2]
      simp only [Option.isSome_none, Bool.false_eq_true, if_false]
      by_cases hex2 : ∃ s' ∈ l, SurfEdge m s' e
      · right
        obtain ⟨s', i1, i2⟩ := hex2
        refine ⟨a, by simp, s', by simp [i1], by rintro rfl; exact hn'.1 i1, h1, i2, ?_⟩
        by_cases hr : rep = 0
        · rw [if_pos hr, if_pos hr]
        · rw [if_neg hr, if_neg hr]
          rcases after l a hexl with ⟨j1, _⟩ | ⟨_, _, _, j2⟩
          · exact absurd i2 (j1 s' i1)
          · exact j2
      · left
        refine ⟨a, by simp, h1, ?_, ?_⟩
        · intro s' hs' he'
          rcases List.mem_cons.mp hs' with rfl | hs'
          · rfl
          · exact absurd ⟨s', hs', he'⟩ hex2
        · by_cases hr : rep = 0
          · rw [if_pos hr]
          · rw [if_neg hr]
            rcases after l a hexl with ⟨_, j2⟩ | ⟨s', j1, j2, _⟩
            · exact j2
            · exact absurd ⟨s', j1, j2⟩ hex2
    · rw [h2]
      rcases ih hexl hn'.2 with ⟨i1, i2⟩ | ⟨s, i1, i2, i3, i4⟩ | ⟨s, i1, s', i2, i3, i4, i5, i6⟩
      · left
        refine ⟨?_, i2⟩
        intro y hy
        rcases List.mem_cons.mp hy with rfl | hy
        · exact h1
        · exact i1 y hy
      · right; left
        refine ⟨s, by simp [i1], i2, ?_, i4⟩
        intro s' hs' he'
        rcases List.mem_cons.mp hs' with rfl | hs'
        · exact absurd he' h1
        · exact i3 s' hs' he'
      · right; right
        exact ⟨s, by simp [i1], s', by simp [i2], i3, i4, i5, i6⟩

theorem surfFromEdges_ok {m : Mesh} (hm : Sound m) (hl : ∀ x ∈ m.edges, x.surfind.Nodup)
    {e1 e2 : Int} (he1 : HasEdge m e1) (he2 : HasEdge m e2) (h1 : ¬ EdgeSurf m e1 0)
    (h2 : ¬ EdgeSurf m e2 0) (rep : Int) :
      ((∀ s, ¬ BothEdges m e1 e2 s) ∧ surfFromEdges m e1 e2 rep = .ok (-1)) ∨
      (∃ s, BothEdges m e1 e2 s ∧ (∀ s', BothEdges m e1 e2 s' → s' = s) ∧
        surfFromEdges m e1 e2 rep = .ok s) ∨
      (∃ s s', s ≠ s' ∧ BothEdges m e1 e2 s ∧ BothEdges m e1 e2 s' ∧
        surfFromEdges m e1 e2 rep =
          if rep = 0 then .ok s else if rep = 1 then .ok (-1) else .error .throws) := by
  obtain ⟨x, x1, x2, x3⟩ := elemAt_posOf_ok (ix := Edge.index) he1
  obtain ⟨y, y1, y2, y3⟩ := elemAt_posOf_ok (ix := Edge.index) he2
  have hmem : ∀ z ∈ m.edges, ¬ EdgeSurf m z.index 0 → ∀ s, s ∈ z.surfind ↔ SurfEdge m s z.index := by
    intro z hz h0 s
    constructor
    · intro hs
      have hes : EdgeSurf m z.index s := ⟨z, hz, rfl, hs⟩
      have hss := hm.noDangling.edgeSurf _ s hes (by rintro rfl; exact h0 hes)
      exact (hm.sym.edgeSurf z.index s ⟨z, hz, rfl⟩ hss).mp hes
    · intro hse
      have hss : HasSurf m s := by obtain ⟨t, t1, t2, _⟩ := hse; exact ⟨t, t1, t2⟩
      obtain ⟨z', z1, z2, z3⟩ := (hm.sym.edgeSurf z.index s ⟨z, hz, rfl⟩ hss).mpr hse
      rw [inj_of_nodup hm.unique.edges hz z1 z2.symm]; exact z3
  have hex : ∀ z ∈ m.edges, ¬ EdgeSurf m z.index 0 → ∀ s ∈ z.surfind, HasSurf m s := by
    intro z hz h0 s hs
    obtain ⟨t, t1, t2, _⟩ := (hmem z hz h0 s).mp hs
    exact ⟨t, t1, t2⟩
  have key : ∀ z ∈ m.edges, ¬ EdgeSurf m z.index 0 → ∀ e,
      ((∀ s, ¬ BothEdges m z.index e s) ∧ surfSearch m e rep none z.surfind = .ok (-1)) ∨
      (∃ s, BothEdges m z.index e s ∧ (∀ s', BothEdges m z.index e s' → s' = s) ∧
        surfSearch m e rep none z.surfind = .ok s) ∨
      (∃ s s', s ≠ s' ∧ BothEdges m z.index e s ∧ BothEdges m z.index e s' ∧
        surfSearch m e rep none z.surfind =
          if rep = 0 then .ok s else if rep = 1 then .ok (-1) else .error .throws) := by
    intro z hz h0 e
    have hmz := hmem z hz h0
    rcases surfSearch_ok hm.unique.surfs e rep z.surfind (hex z hz h0) (hl z hz) with
      ⟨i1, i2⟩ | ⟨s, i1, i2, i3, i4⟩ | ⟨s, i1, s', i2, i3, i4, i5, i6⟩
    · left
      exact ⟨fun s ⟨b1, b2⟩ => i1 s ((hmz s).mpr b1) b2, i2⟩
    · right; left
      exact ⟨s, ⟨(hmz s).mp i1, i2⟩, fun s' ⟨b1, b2⟩ => i3 s' ((hmz s').mpr b1) b2, i4⟩
    · right; right
      exact ⟨s, s', i3, ⟨(hmz s).mp i1, i4⟩, ⟨(hmz s').mp i2, i5⟩, i6⟩
  have heq : surfFromEdges m e1 e2 rep =
      if x.surfind.length < y.surfind.length then surfSearch m e2 rep none x.surfind
      else surfSearch m e1 rep none y.surfind := by
    unfold surfFromEdges
    rw [show isearch Edge.index m.edges e1 = .ok x from x1]
    show (isearch Edge.index m.edges e2 >>= _) = _
    rw [show isearch Edge.index m.edges e2 = .ok y from y1]
    rfl
  rw [heq]
  split
  · have := key x x2 (by rw [x3]; exact h1) e2
    rw [x3] at this
    exact this
  · have := key y y2 (by rw [y3]; exact h2) e1
    rw [y3] at this
    rcases this with ⟨i1, i2⟩ | ⟨s, i1, i2, i3⟩ | ⟨s, s', i1, i2, i3, i4⟩
    · exact Or.inl ⟨fun s b => i1 s b.symm, i2⟩
    · exact Or.inr (Or.inl ⟨s, i1.symm, fun s' b => i2 s' b.symm, i3⟩)
    · exact Or.inr (Or.inr ⟨s, s', i1, i2.symm, i3.symm, i4⟩)

end RSVS.Order
