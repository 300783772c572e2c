import Mathlib.Logic.Relation
import Verif.Lemmas.Order
import Verif.Lemmas.MeshOrder
import Verif.Model.Close
import Verif.Spec.Close

/-!
# Lemmas on groups of close vertices
-/

namespace RSVS

open Spec Mesh

/-- The graph of the short edges, on positions. -/
structure ShortGraph (m : Mesh) (tol2 : ℚ) (inc : Nat → List Int) (ends : Int → Nat × Nat) (sh : Int → Bool) : Prop where
  verts : ∀ p, p < m.verts.length → ∃ v, elemAt m.verts (p : Int) = .ok v ∧ v.edgeind = inc p
  edges : ∀ p, p < m.verts.length → ∀ e ∈ inc p, edgeShort m tol2 e = .ok (sh e) ∧
    ∃ ab, edgeEnds m e = .ok ab ∧ posOf Vert.index m.verts ab.1 = ((ends e).1 : Int) ∧
      posOf Vert.index m.verts ab.2 = ((ends e).2 : Int)
  lt : ∀ p, p < m.verts.length → ∀ e ∈ inc p, (ends e).1 < m.verts.length ∧ (ends e).2 < m.verts.length
  own : ∀ p, p < m.verts.length → ∀ e ∈ inc p, p = (ends e).1 ∨ p = (ends e).2
  both : ∀ p, p < m.verts.length → ∀ e ∈ inc p, e ∈ inc (ends e).1 ∧ e ∈ inc (ends e).2

section
variable {m : Mesh} {tol2 : ℚ} {inc : Nat → List Int} {ends : Int → Nat × Nat} {sh : Int → Bool}

/-- One step along a short edge. -/
def Adj (inc : Nat → List Int) (ends : Int → Nat × Nat) (sh : Int → Bool) (p q : Nat) : Prop :=
  ∃ e ∈ inc p, sh e = true ∧ ((ends e).1 = q ∨ (ends e).2 = q)

/-- `p` is new in `D'`. -/
def Fresh (D D' : List Bool) (p : Nat) : Prop := D[p]? = some false ∧ D'[p]? = some true

/-- What a part of the search leaves: from `D` to `D'` with the edges `new`, started at `v`. -/
structure Searched (inc : Nat → List Int) (ends : Int → Nat × Nat) (sh : Int → Bool) (n : Nat) (D D' : List Bool)
    (new : List Int) (v : Nat) : Prop where
  length : D'.length = n
  mono : ∀ p : Nat, D[p]? = some true → D'[p]? = some true
  count : D'.count false ≤ D.count false
  reach : ∀ p, Fresh D D' p → Relation.ReflTransGen (Adj inc ends sh) v p
  closed : ∀ p, Fresh D D' p → ∀ e ∈ inc p, sh e = true →
    e ∈ new ∧ D'[(ends e).1]? = some true ∧ D'[(ends e).2]? = some true

theorem fresh_split {D D1 D2 : List Bool} {n p : Nat} (h : D1.length = n) (hp : p < n) (hf : Fresh D D2 p) :
    Fresh D D1 p ∨ Fresh D1 D2 p := by
  have h1 : D1[p]? = some D1[p] := List.getElem?_eq_getElem (by omega)
  cases hb : D1[p] with
  | true => exact .inl ⟨hf.1, by rw [h1, hb]⟩
  | false => exact .inr ⟨by rw [h1, hb], hf.2⟩

theorem fresh_lt {D D' : List Bool} {p n : Nat} (h : D'.length = n) (hf : Fresh D D' p) : p < n := by
  obtain ⟨hp, _⟩ := List.getElem?_eq_some_iff.mp hf.2
  omega

/-- Two parts of the search in a row. -/
theorem Searched.trans {n : Nat} {D D1 D2 : List Bool} {new1 new2 : List Int} {v w : Nat}
    (h1 : Searched inc ends sh n D D1 new1 v) (h2 : Searched inc ends sh n D1 D2 new2 w)
    (hr : Relation.ReflTransGen (Adj inc ends sh) v w) (new : List Int) (hn1 : ∀ e ∈ new1, e ∈ new)
    (hn2 : ∀ e ∈ new2, e ∈ new) : Searched inc ends sh n D D2 new v := by
  refine ⟨h2.length, fun p hp => h2.mono p (h1.mono p hp), le_trans h2.count h1.count, ?_, ?_⟩
  · intro p hp
    rcases fresh_split h1.length (fresh_lt h2.length hp) hp with h | h
    · exact h1.reach p h
    · exact hr.trans (h2.reach p h)
  · intro p hp e he hs
    rcases fresh_split h1.length (fresh_lt h2.length hp) hp with h | h
    · obtain ⟨a, b, c⟩ := h1.closed p h e he hs
      exact ⟨hn1 e a, h2.mono _ b, h2.mono _ c⟩
    · obtain ⟨a, b, c⟩ := h2.closed p h e he hs
      exact ⟨hn2 e a, b, c⟩

theorem Searched.refl {n : Nat} {D : List Bool} {new : List Int} {v : Nat} (h : D.length = n) :
    Searched inc ends sh n D D new v :=
  ⟨h, fun _ h => h, le_refl _, fun p hp => absurd (hp.1.symm.trans hp.2) (by simp),
    fun p hp => absurd (hp.1.symm.trans hp.2) (by simp)⟩

/-- The search from one vertex. -/
theorem testVertClose_ok (H : ShortGraph m tol2 inc ends sh) : ∀ (fuel : Nat) (D : List Bool) (out : List Int) (v : Nat),
    D.length = m.verts.length → v < m.verts.length → D.count false < fuel →
    ∃ D' new, testVertClose m tol2 fuel (D, out) v = .ok (D', out ++ new) ∧
      Searched inc ends sh m.verts.length D D' new v ∧ D'[v]? = some true ∧
      (∀ e ∈ new, sh e = true ∧ ∃ p, Fresh D D' p ∧ e ∈ inc p) ∧ (D[v]? = some true → D' = D)
  | 0, _, _, _, _, _, h => by omega
  | fuel + 1, D, out, v, hD, hv, hf => by
    have hDv : D[v]? = some D[v] := List.getElem?_eq_getElem (by omega)
    have hget : vecGet D (v : Int) = .ok D[v] := RSVS.Order.vecGet_nat hDv
    rw [testVertClose]
    simp only [hget, Except.bind]
    cases hb : D[v] with
    | true =>
      exact ⟨D, [], by simp, .refl hD, by rw [hDv, hb], by simp, fun _ => rfl⟩
    | false =>
      obtain ⟨vv, h1, h2⟩ := H.verts v hv
      simp only [h1, h2, Bool.false_eq_true, if_false]
      have hcount' : (D.set v true).count false + 1 = D.count false := by
        have := List.count_set (a := true) (b := false) (l := D) (i := v) (by omega)
        simp [hb] at this
        have hpos : 0 < D.count false := List.count_pos_iff.mpr (by rw [← hb]; exact List.getElem_mem _)
        omega
      have hcount : (D.set v true).count false < fuel := by omega
      have hset : (D.set v true)[v]? = some true := by simp [hD, hv]
      have hne : ∀ p : Nat, p ≠ v → (D.set v true)[p]? = D[p]? := fun p hp => by
        rw [List.getElem?_set_ne (by omega)]
      -- the loop over the edges
      have key : ∀ (es : List Int) (D1 : List Bool) (out1 : List Int), (∀ e ∈ es, e ∈ inc v) →
          D1.length = m.verts.length → D1.count false < fuel → D1[v]? = some true →
          ∃ D' new, es.foldlM (m := Except Fault) (fun s e =>
              (edgeShort m tol2 e).bind fun short =>
              if short then
                (edgeEnds m e).bind fun ab =>
                (testVertClose m tol2 fuel (s.1, s.2 ++ [e]) (posOf Vert.index m.verts ab.1)).bind fun s =>
                testVertClose m tol2 fuel s (posOf Vert.index m.verts ab.2)
              else .ok s) (D1, out1) = .ok (D', out1 ++ new) ∧
            Searched inc ends sh m.verts.length D1 D' new v ∧
            (∀ e ∈ es, sh e = true → e ∈ new ∧ D'[(ends e).1]? = some true ∧ D'[(ends e).2]? = some true) ∧
            (∀ e ∈ new, sh e = true ∧ (e ∈ es ∨ ∃ p, Fresh D1 D' p ∧ e ∈ inc p)) := by
        intro es
        induction es with
        | nil => intro D1 out1 _ hl _ _; exact ⟨D1, [], by simp; rfl, .refl hl, by simp, by simp⟩
        | cons e es ih =>
          intro D1 out1 hinc hl hc hvt
          obtain ⟨h3, ab, h4, h5, h6⟩ := H.edges v hv e (hinc e (by simp))
          obtain ⟨h7, h8⟩ := H.lt v hv e (hinc e (by simp))
          simp only [List.foldlM_cons, h3]
          cases hs : sh e with
          | false =>
            obtain ⟨D', new, k1, k2, k3, k4⟩ := ih D1 out1 (fun e he => hinc e (by simp [he])) hl hc hvt
            refine ⟨D', new, ?_, k2, ?_, ?_⟩
            · exact k1
            · intro e' he' hs'
              rcases List.mem_cons.mp he' with rfl | he'
              · rw [hs] at hs'; cases hs'
              · exact k3 e' he' hs'
            · intro e' he'
              obtain ⟨a, b⟩ := k4 e' he'
              exact ⟨a, b.imp (fun h => by simp [h]) id⟩
          | true =>
            obtain ⟨D2, new2, a1, a2, a3, a4, -⟩ := testVertClose_ok H fuel D1 (out1 ++ [e]) (ends e).1 hl h7 hc
            obtain ⟨D3, new3, b1, b2, b3, b4, -⟩ := testVertClose_ok H fuel D2 (out1 ++ [e] ++ new2) (ends e).2 a2.length h8
              (lt_of_le_of_lt a2.count hc)
            obtain ⟨D', new, k1, k2, k3, k4⟩ := ih D3 (out1 ++ [e] ++ new2 ++ new3) (fun e he => hinc e (by simp [he]))
              b2.length (lt_of_le_of_lt (le_trans b2.count a2.count) hc) (b2.mono _ (a2.mono _ hvt))
            have r1 : Relation.ReflTransGen (Adj inc ends sh) v (ends e).1 :=
              .single ⟨e, hinc e (by simp), hs, .inl rfl⟩
            have r2 : Relation.ReflTransGen (Adj inc ends sh) v (ends e).2 :=
              .single ⟨e, hinc e (by simp), hs, .inr rfl⟩
            have s1 : Searched inc ends sh m.verts.length D1 D2 (e :: new2) v :=
              ⟨a2.length, a2.mono, a2.count, fun p hp => r1.trans (a2.reach p hp),
                fun p hp e' he' hs' => ⟨by simp [(a2.closed p hp e' he' hs').1], (a2.closed p hp e' he' hs').2⟩⟩
            have s2 := s1.trans b2 r2 (e :: (new2 ++ new3)) (by intro x hx; simp at hx ⊢; tauto) (by intro x hx; simp; tauto)
            have s3 := s2.trans k2 .refl (e :: (new2 ++ new3) ++ new) (by intro x hx; simp at hx ⊢; tauto)
              (by intro x hx; simp; tauto)
            have mono13 : ∀ p : Nat, D1[p]? = some true → D3[p]? = some true := fun p h => b2.mono _ (a2.mono _ h)
            have up : ∀ p, Fresh D1 D2 p → Fresh D1 D' p := fun p h => ⟨h.1, k2.mono _ (b2.mono _ h.2)⟩
            have back : ∀ {p : Nat} {A B : List Bool}, (∀ q : Nat, D1[q]? = some true → A[q]? = some true) → p < m.verts.length →
                A[p]? = some false → D1[p]? = some false := by
              intro p A B hm hp hA
              have h9 : D1[p]? = some D1[p] := List.getElem?_eq_getElem (by omega)
              cases hb9 : D1[p] with
              | true => rw [hm p (by rw [h9, hb9])] at hA; cases hA
              | false => rw [h9, hb9]
            refine ⟨D', e :: (new2 ++ new3) ++ new, ?_, s3, ?_, ?_⟩
            · simp only [h4, h5, h6, Except.bind, if_true, a1, b1]
              refine Eq.trans k1 ?_
              simp
            · intro e' he' hs'
              rcases List.mem_cons.mp he' with rfl | he'
              · exact ⟨by simp, k2.mono _ (b2.mono _ a3), k2.mono _ b3⟩
              · obtain ⟨x, y⟩ := k3 e' he' hs'
                exact ⟨by simp [x], y⟩
            · intro e' he'
              simp only [List.cons_append, List.append_assoc, List.mem_cons, List.mem_append] at he'
              rcases he' with rfl | he' | he' | he'
              · exact ⟨hs, .inl (by simp)⟩
              · obtain ⟨x, p, hp, y⟩ := a4 e' he'
                exact ⟨x, .inr ⟨p, up p hp, y⟩⟩
              · obtain ⟨x, p, hp, y⟩ := b4 e' he'
                exact ⟨x, .inr ⟨p, ⟨back (B := D) a2.mono (fresh_lt b2.length hp) hp.1, k2.mono _ hp.2⟩, y⟩⟩
              · obtain ⟨x, y⟩ := k4 e' he'
                refine ⟨x, ?_⟩
                rcases y with y | ⟨p, hp, y⟩
                · exact .inl (by simp [y])
                · exact .inr ⟨p, ⟨back (B := D) mono13 (fresh_lt k2.length hp) hp.1, hp.2⟩, y⟩
      obtain ⟨D', new, k1, k2, k3, k4⟩ := key (inc v) (D.set v true) out (fun _ h => h) (by simp [hD]) hcount hset
      have hD'v : D'[v]? = some true := k2.mono v hset
      have fr : ∀ p, Fresh D D' p → p = v ∨ Fresh (D.set v true) D' p := by
        intro p hp
        by_cases hpv : p = v
        · exact .inl hpv
        · exact .inr ⟨by rw [hne p hpv]; exact hp.1, hp.2⟩
      refine ⟨D', new, k1, ⟨k2.length, ?_, ?_, ?_, ?_⟩, hD'v, ?_, ?_⟩
      · intro p hp
        by_cases hpv : p = v
        · rw [hpv]; exact hD'v
        · exact k2.mono p (by rw [hne p hpv]; exact hp)
      · have := k2.count
        omega
      · intro p hp
        rcases fr p hp with rfl | h
        · exact .refl
        · exact k2.reach p h
      · intro p hp e he hs
        rcases fr p hp with rfl | h
        · exact k3 e he hs
        · exact k2.closed p h e he hs
      · intro e he
        obtain ⟨x, y⟩ := k4 e he
        refine ⟨x, ?_⟩
        rcases y with y | ⟨p, hp, y⟩
        · exact ⟨v, ⟨by rw [hDv, hb], hD'v⟩, y⟩
        · refine ⟨p, ⟨?_, hp.2⟩, y⟩
          by_cases hpv : p = v
          · exact absurd ((hpv ▸ hp.1).symm.trans hset) (by simp)
          · rw [← hne p hpv]; exact hp.1
      · intro h; rw [hDv, hb] at h; cases h

theorem Adj.symm (H : ShortGraph m tol2 inc ends sh) {p q : Nat} (hp : p < m.verts.length) (h : Adj inc ends sh p q) :
    Adj inc ends sh q p ∧ q < m.verts.length := by
  obtain ⟨e, h1, h2, h3⟩ := h
  obtain ⟨h4, h5⟩ := H.both p hp e h1
  obtain ⟨h6, h7⟩ := H.lt p hp e h1
  have hown := (H.own p hp e h1).imp Eq.symm Eq.symm
  rcases h3 with rfl | rfl
  · exact ⟨⟨e, h4, h2, hown⟩, h6⟩
  · exact ⟨⟨e, h5, h2, hown⟩, h7⟩

theorem reach_symm (H : ShortGraph m tol2 inc ends sh) {p q : Nat} (hp : p < m.verts.length)
    (h : Relation.ReflTransGen (Adj inc ends sh) p q) :
    Relation.ReflTransGen (Adj inc ends sh) q p ∧ q < m.verts.length := by
  induction h with
  | refl => exact ⟨.refl, hp⟩
  | tail _ h ih =>
    obtain ⟨h1, h2⟩ := Adj.symm H ih.2 h
    exact ⟨Relation.ReflTransGen.head h1 ih.1, h2⟩

theorem vecSet_ok {l : List Int} {i : Nat} (x : Int) (h : i < l.length) : vecSet l (i : Int) x = .ok (l.set i x) := by
  unfold vecSet
  rw [if_neg (by omega), if_pos (by simpa using h)]
  rfl

theorem markEnds_ok (H : ShortGraph m tol2 inc ends sh) (g : Int) : ∀ (es vec : List Int), vec.length = m.verts.length →
    (∀ e ∈ es, ∃ p, p < m.verts.length ∧ e ∈ inc p) →
    ∃ vec', markEnds m g vec es = .ok vec' ∧ vec'.length = m.verts.length ∧
      (∀ p < m.verts.length, (∃ e ∈ es, (ends e).1 = p ∨ (ends e).2 = p) → vec'[p]? = some g) ∧
      (∀ p : Nat, (¬ ∃ e ∈ es, (ends e).1 = p ∨ (ends e).2 = p) → vec'[p]? = vec[p]?)
  | [], vec, hl, _ => ⟨vec, rfl, hl, by simp, by simp⟩
  | e :: es, vec, hl, hi => by
    obtain ⟨p, hp, he⟩ := hi e (by simp)
    obtain ⟨-, ab, h4, h5, h6⟩ := H.edges p hp e he
    obtain ⟨h7, h8⟩ := H.lt p hp e he
    obtain ⟨vec', k1, k2, k3, k4⟩ := markEnds_ok H g es ((vec.set (ends e).1 g).set (ends e).2 g) (by simp [hl])
      (fun e he => hi e (by simp [he]))
    refine ⟨vec', ?_, k2, ?_, ?_⟩
    · rw [← k1]
      unfold markEnds
      simp only [List.foldlM_cons, h4, h5, h6, Except.bind]
      rw [vecSet_ok g (by omega)]
      simp only
      rw [vecSet_ok g (by simp; omega)]
      rfl
    · intro q hq hex
      by_cases hc : ∃ e ∈ es, (ends e).1 = q ∨ (ends e).2 = q
      · exact k3 q hq hc
      · rw [k4 q hc]
        obtain ⟨e', he', hend⟩ := hex
        rcases List.mem_cons.mp he' with rfl | he'
        · rcases hend with rfl | rfl
          · by_cases hc2 : (ends e').2 = (ends e').1
            · rw [hc2]; simp [hl, h7]
            · rw [List.getElem?_set_ne hc2]; simp [hl, h7]
          · simp [hl, h8]
        · exact absurd ⟨e', he', hend⟩ hc
    · intro q hq
      rw [k4 q (fun ⟨e', a, b⟩ => hq ⟨e', by simp [a], b⟩), List.getElem?_set_ne, List.getElem?_set_ne]
      · exact fun h => hq ⟨e, by simp, .inl h⟩
      · exact fun h => hq ⟨e, by simp, .inr h⟩

/-- What holds between the turns of the loop over the vertices. -/
structure GroupInv (n : Nat) (inc : Nat → List Int) (ends : Int → Nat × Nat) (sh : Int → Bool) (D : List Bool)
    (vec : List Int) (g : Int) : Prop where
  lenD : D.length = n
  lenV : vec.length = n
  pos : 1 ≤ g
  closed : ∀ p q : Nat, D[p]? = some true → Adj inc ends sh p q → D[q]? = some true
  fresh : ∀ p : Nat, D[p]? = some false → vec[p]? = some (-1)
  alone : ∀ p : Nat, D[p]? = some true → (vec[p]? = some (-1) ↔ ∀ e ∈ inc p, sh e = false)
  num : ∀ (p : Nat) (l : Int), vec[p]? = some l → l = -1 ∨ (1 ≤ l ∧ l < g)
  same : ∀ (p q : Nat) (l k : Int), D[p]? = some true → D[q]? = some true → vec[p]? = some l → vec[q]? = some k → l ≠ -1 →
    (l = k ↔ Relation.ReflTransGen (Adj inc ends sh) p q)

theorem GroupInv.closedR {n : Nat} {D : List Bool} {vec : List Int} {g : Int} (h : GroupInv n inc ends sh D vec g)
    {p q : Nat} (hp : D[p]? = some true) (hr : Relation.ReflTransGen (Adj inc ends sh) p q) : D[q]? = some true := by
  induction hr with
  | refl => exact hp
  | tail _ h1 ih => exact h.closed _ _ ih h1

theorem groupStep_ok (H : ShortGraph m tol2 inc ends sh) {D : List Bool} {vec : List Int} {g : Int}
    (h : GroupInv m.verts.length inc ends sh D vec g) {i : Nat} (hi : i < m.verts.length) :
    ∃ D' vec' g', groupStep m tol2 (D, vec, g) i = .ok (D', vec', g') ∧
      GroupInv m.verts.length inc ends sh D' vec' g' ∧ D'[i]? = some true ∧
      (∀ p : Nat, D[p]? = some true → D'[p]? = some true) := by
  obtain ⟨D', new, k1, k2, k3, k4, k5⟩ := testVertClose_ok H (m.verts.length + 1) D [] i h.lenD hi
    (by have := List.count_le_length (a := false) (l := D); have := h.lenD; omega)
  have isT : ∀ p, p < m.verts.length → D[p]? = some true ∨ D[p]? = some false := by
    intro p hp
    have hl : p < D.length := by rw [h.lenD]; exact hp
    rw [List.getElem?_eq_getElem hl]; cases D[p] <;> simp
  -- what is new is what is reached from `i`
  have hclosed : ∀ p q : Nat, D'[p]? = some true → Adj inc ends sh p q → D'[q]? = some true := by
    intro p q hp ha
    have hpl : p < m.verts.length := by
      obtain ⟨hp', _⟩ := List.getElem?_eq_some_iff.mp hp; have := k2.length; omega
    rcases isT p hpl with h1 | h1
    · exact k2.mono q (h.closed p q h1 ha)
    · obtain ⟨e, h2, h3, h4⟩ := ha
      obtain ⟨-, h5, h6⟩ := k2.closed p ⟨h1, hp⟩ e h2 h3
      rcases h4 with rfl | rfl
      · exact h5
      · exact h6
  have hF : D[i]? = some false → ∀ p, Relation.ReflTransGen (Adj inc ends sh) i p → Fresh D D' p := by
    intro hDi p hr
    obtain ⟨hback, hpl⟩ := reach_symm H hi hr
    refine ⟨?_, ?_⟩
    · rcases isT p hpl with h1 | h1
      · rw [h.closedR h1 hback] at hDi; cases hDi
      · exact h1
    · clear hback hpl
      induction hr with
      | refl => exact k3
      | tail _ h1 ih => exact hclosed _ _ ih h1
  unfold groupStep
  simp only [k1, Except.bind, List.nil_append]
  have hlt : ∀ p : Nat, D'[p]? = some true → p < m.verts.length := by
    intro p hp
    obtain ⟨hp', _⟩ := List.getElem?_eq_some_iff.mp hp
    have := k2.length
    omega
  by_cases hnew : new = []
  · rw [if_pos hnew]
    refine ⟨D', vec, g, rfl, ?_, k3, k2.mono⟩
    -- a new vertex has no short edge
    have hno : ∀ p, Fresh D D' p → ∀ e ∈ inc p, sh e = false := by
      intro p hp e he
      cases hs : sh e with
      | false => rfl
      | true =>
        have := (k2.closed p hp e he hs).1
        rw [hnew] at this; cases this
    refine ⟨k2.length, h.lenV, h.pos, hclosed, ?_, ?_, h.num, ?_⟩
    · intro p hp
      have hpl : p < m.verts.length := by
        obtain ⟨hp', _⟩ := List.getElem?_eq_some_iff.mp hp
        have := k2.length
        omega
      rcases isT p hpl with h1 | h1
      · rw [k2.mono p h1] at hp; cases hp
      · exact h.fresh p h1
    · intro p hp
      rcases isT p (hlt p hp) with h1 | h1
      · exact h.alone p h1
      · exact iff_of_true (h.fresh p h1) (hno p ⟨h1, hp⟩)
    · intro p q l k hp hq hl hk hne
      rcases isT p (hlt p hp) with h1 | h1
      · rcases isT q (hlt q hq) with h2 | h2
        · exact h.same p q l k h1 h2 hl hk hne
        · rw [h.fresh q h2] at hk
          cases hk
          refine iff_of_false hne (fun hr => ?_)
          rw [h.closedR h1 hr] at h2; cases h2
      · rw [h.fresh p h1] at hl
        exact absurd (Option.some.inj hl).symm hne
  · rw [if_neg hnew]
    have hinc : ∀ e ∈ new, ∃ p, p < m.verts.length ∧ e ∈ inc p := fun e he => by
      obtain ⟨-, p, hp, h1⟩ := k4 e he
      exact ⟨p, hlt p hp.2, h1⟩
    obtain ⟨vec', m1, m2, m3, m4⟩ := markEnds_ok H g new vec h.lenV hinc
    have hDi : D[i]? = some false := by
      rcases isT i hi with h1 | h1
      · exfalso
        obtain ⟨e, he⟩ := List.exists_mem_of_ne_nil _ hnew
        obtain ⟨-, p, hp, -⟩ := k4 e he
        rw [k5 h1] at hp
        exact absurd (hp.1.symm.trans hp.2) (by simp)
      · exact h1
    have hiff : ∀ p, Fresh D D' p ↔ Relation.ReflTransGen (Adj inc ends sh) i p := fun p => ⟨k2.reach p, hF hDi p⟩
    -- which vertices are marked
    have hmark : ∀ p, (∃ e ∈ new, (ends e).1 = p ∨ (ends e).2 = p) ↔ (Fresh D D' p ∧ ∃ e ∈ inc p, sh e = true) := by
      intro p
      constructor
      · rintro ⟨e, he, hend⟩
        obtain ⟨hs, q, hq, h1⟩ := k4 e he
        have ha : Adj inc ends sh q p := ⟨e, h1, hs, hend⟩
        refine ⟨(hiff p).mpr (((hiff q).mp hq).tail ha), e, ?_, hs⟩
        have := H.both q (hlt q hq.2) e h1
        rcases hend with rfl | rfl
        · exact this.1
        · exact this.2
      · rintro ⟨hf, e, he, hs⟩
        exact ⟨e, (k2.closed p hf e he hs).1, (H.own p (hlt p hf.2) e he).imp Eq.symm Eq.symm⟩
    have hold : ∀ p, ¬ Fresh D D' p → vec'[p]? = vec[p]? := fun p hp => m4 p (fun hc => hp ((hmark p).mp hc).1)
    have notF : ∀ p : Nat, D[p]? = some true → ¬ Fresh D D' p := fun p hp hf => absurd (hf.1.symm.trans hp) (by simp)
    refine ⟨D', vec', g + 1, by simp only [m1, Except.map], ?_, k3, k2.mono⟩
    have hval : ∀ p, Fresh D D' p → (vec'[p]? = some g ∧ ∃ e ∈ inc p, sh e = true) ∨
        (vec'[p]? = some (-1) ∧ ∀ e ∈ inc p, sh e = false) := by
      intro p hp
      by_cases hc : ∃ e ∈ inc p, sh e = true
      · exact .inl ⟨m3 p (hlt p hp.2) ((hmark p).mpr ⟨hp, hc⟩), hc⟩
      · refine .inr ⟨?_, fun e he => ?_⟩
        · rw [m4 p (fun hx => hc ((hmark p).mp hx).2)]
          exact h.fresh p hp.1
        · cases hs : sh e with
          | false => rfl
          | true => exact absurd ⟨e, he, hs⟩ hc
    have hg := h.pos
    refine ⟨k2.length, m2, by omega, hclosed, ?_, ?_, ?_, ?_⟩
    · intro p hp
      have hpl : p < m.verts.length := by
        obtain ⟨hp', _⟩ := List.getElem?_eq_some_iff.mp hp
        have := k2.length
        omega
      rw [hold p (fun hf => absurd (hf.2.symm.trans hp) (by simp))]
      rcases isT p hpl with h1 | h1
      · rw [k2.mono p h1] at hp; cases hp
      · exact h.fresh p h1
    · intro p hp
      rcases isT p (hlt p hp) with h1 | h1
      · rw [hold p (notF p h1)]; exact h.alone p h1
      · rcases hval p ⟨h1, hp⟩ with ⟨h2, e, h3, h4⟩ | ⟨h2, h3⟩
        · rw [h2]
          refine iff_of_false (fun hc => ?_) (fun hc => ?_)
          · have := Option.some.inj hc; omega
          · rw [hc e h3] at h4; cases h4
        · exact iff_of_true h2 h3
    · intro p l hl
      by_cases hf : Fresh D D' p
      · rcases hval p hf with ⟨h2, -⟩ | ⟨h2, -⟩
        · rw [h2] at hl; cases hl; right; omega
        · rw [h2] at hl; cases hl; left; rfl
      · rw [hold p hf] at hl
        rcases h.num p l hl with h1 | h1
        · exact .inl h1
        · right; omega
    · intro p q l k hp hq hl hk hne
      by_cases hfp : Fresh D D' p
      · rcases hval p hfp with ⟨h2, e, h3, h4⟩ | ⟨h2, -⟩
        · rw [h2] at hl; cases hl
          by_cases hfq : Fresh D D' q
          · have hr : Relation.ReflTransGen (Adj inc ends sh) p q :=
              (reach_symm H hi ((hiff p).mp hfp)).1.trans ((hiff q).mp hfq)
            refine iff_of_true ?_ hr
            rcases hval q hfq with ⟨h5, -⟩ | ⟨h5, h6⟩
            · rw [h5] at hk; exact Option.some.inj hk
            · exfalso
              -- the last step of the path to `q` is a short edge at `q`
              have hrq := (reach_symm H (hlt p hp) hr).1
              rcases Relation.ReflTransGen.cases_head hrq with rfl | ⟨c, ⟨e', h7, h8, -⟩, -⟩
              · rw [h6 e h3] at h4; cases h4
              · rw [h6 e' h7] at h8; cases h8
          · rw [hold q hfq] at hk
            have hDq : D[q]? = some true := by
              rcases isT q (hlt q hq) with h5 | h5
              · exact h5
              · exact absurd ⟨h5, hq⟩ hfq
            refine iff_of_false ?_ ?_
            · rintro rfl
              rcases h.num q _ hk with h5 | h5 <;> omega
            · intro hr
              have := h.closedR hDq (reach_symm H (hlt p hp) hr).1
              exact absurd (hfp.1.symm.trans this) (by simp)
        · rw [h2] at hl; exact absurd (Option.some.inj hl).symm hne
      · have hDp : D[p]? = some true := by
          rcases isT p (hlt p hp) with h5 | h5
          · exact h5
          · exact absurd ⟨h5, hp⟩ hfp
        rw [hold p hfp] at hl
        by_cases hfq : Fresh D D' q
        · refine iff_of_false ?_ ?_
          · rintro rfl
            rcases hval q hfq with ⟨h5, -⟩ | ⟨h5, -⟩
            · rw [h5] at hk
              have := Option.some.inj hk
              rcases h.num p _ hl with h6 | h6 <;> omega
            · rw [h5] at hk
              exact hne (Option.some.inj hk).symm
          · intro hr
            exact absurd (hfq.1.symm.trans (h.closedR hDp hr)) (by simp)
        · rw [hold q hfq] at hk
          have hDq : D[q]? = some true := by
            rcases isT q (hlt q hq) with h5 | h5
            · exact h5
            · exact absurd ⟨h5, hq⟩ hfq
          exact h.same p q l k hDp hDq hl hk hne

theorem groupLoop_ok (H : ShortGraph m tol2 inc ends sh) : ∀ (is : List Nat) {D : List Bool} {vec : List Int} {g : Int},
    GroupInv m.verts.length inc ends sh D vec g → (∀ i ∈ is, i < m.verts.length) →
    ∃ D' vec' g', is.foldlM (m := Except Fault) (groupStep m tol2) (D, vec, g) = .ok (D', vec', g') ∧
      GroupInv m.verts.length inc ends sh D' vec' g' ∧ (∀ i ∈ is, D'[i]? = some true) ∧
      (∀ p : Nat, D[p]? = some true → D'[p]? = some true)
  | [], D, vec, g, h, _ => ⟨D, vec, g, rfl, h, by simp, fun _ h => h⟩
  | i :: is, D, vec, g, h, hi => by
    obtain ⟨D1, vec1, g1, h1, h2, h3, h4⟩ := groupStep_ok H h (hi i (by simp))
    obtain ⟨D2, vec2, g2, k1, k2, k3, k4⟩ := groupLoop_ok H is h2 (fun i hx => hi i (by simp [hx]))
    refine ⟨D2, vec2, g2, ?_, k2, ?_, fun p hp => k4 p (h4 p hp)⟩
    · rw [List.foldlM_cons, h1]; exact k1
    · intro j hj
      rcases List.mem_cons.mp hj with rfl | hj
      · exact k4 _ h3
      · exact k3 j hj

end

end RSVS
