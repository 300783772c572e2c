import Verif.Model.Refine
import Verif.Spec.Refine
import Verif.Lemmas.MeshCrop
import Verif.Lemmas.OrderMesh
import Verif.Lemmas.FillFile
import Mathlib.Algebra.Order.BigOperators.Group.List
import Mathlib.Tactic.Linarith
import Mathlib.Tactic.FieldSimp
import Mathlib.Tactic.FinCases

/-!
# Lemmas about coarse boxes
-/

namespace RSVS.Refine

open RSVS.Mesh RSVS.Spec

/-! ### Reading lists -/

theorem concatField_ok {α : Type} {ix : α → Int} {field : α → List Int} {l : List α} {ks : List Int}
    (hk : ∀ k ∈ ks, ∃ a ∈ l, ix a = k) (hn : (l.map ix).Nodup) :
    ∃ r, concatField l field (posList ix l ks) = .ok r ∧
      ∀ x, x ∈ r ↔ ∃ a ∈ l, ix a ∈ ks ∧ x ∈ field a := by
  have key : ∀ (ks : List Int) (acc : List Int), (∀ k ∈ ks, ∃ a ∈ l, ix a = k) →
      ∃ r, (posList ix l ks).foldlM (m := Except Fault) (fun acc p => do
        let a ← elemAt l p
        pure (acc ++ field a)) acc = .ok r := by
    intro ks
    induction ks with
    | nil => intro acc _; exact ⟨acc, rfl⟩
    | cons k ks ih =>
      intro acc hk
      obtain ⟨a, ha, _, _⟩ := elemAt_posOf_ok (hk k (by simp))
      obtain ⟨r, hr⟩ := ih (acc ++ field a) (fun k h => hk k (by simp [h]))
      refine ⟨r, ?_⟩
      simp only [posList, List.map_cons, List.foldlM_cons]
      rw [ha]
      exact hr
  obtain ⟨r, hr⟩ := key ks [] hk
  refine ⟨r, hr, fun x => ?_⟩
  rw [mem_concatField ks [] r hr hn x]
  constructor
  · rintro (h | ⟨k, hk, a, ha, e, hx⟩)
    · simp at h
    · exact ⟨a, ha, e ▸ hk, hx⟩
  · rintro ⟨a, ha, hk, hx⟩
    exact Or.inr ⟨_, hk, a, ha, rfl, hx⟩

theorem eq_of_strict : ∀ {a b : List Int}, a.Pairwise (· < ·) → b.Pairwise (· < ·) →
    (∀ x, x ∈ a ↔ x ∈ b) → a = b
  | a, b, ha, hb, h => by
    refine List.Perm.eq_of_pairwise (le := (· < ·)) ?_ ha hb ?_
    · intro x y _ _ h1 h2; omega
    · exact (List.perm_ext_iff_of_nodup (ha.imp (fun h => by omega)) (hb.imp (fun h => by omega))).mpr h

/-- Sorted places without repetition, read in order, are a sublist. -/
theorem places_read {α : Type} [Inhabited α] (l : List α) (used : α → Bool) (ps : List Int)
    (hs : ps.Pairwise (· < ·))
    (hm : ∀ p, p ∈ ps ↔ ∃ n : Nat, p = n ∧ ∃ h : n < l.length, used l[n] = true) :
    ps.mapM (m := Except Fault) (fun p => elemAt l p) = .ok (l.filter used) := by
  have e : ps = ((List.range l.length).filter (fun n => used (l.getD n default))).map (fun n : Nat => (n : Int)) := by
    apply eq_of_strict hs
    · rw [List.pairwise_map]
      exact (List.Pairwise.filter _ List.pairwise_lt_range).imp (fun h => by exact_mod_cast h)
    · intro p
      rw [hm p]
      simp only [List.mem_map, List.mem_filter, List.mem_range]
      constructor
      · rintro ⟨n, rfl, h, hu⟩
        exact ⟨n, ⟨h, by simpa [h] using hu⟩, rfl⟩
      · rintro ⟨n, ⟨h, hu⟩, rfl⟩
        exact ⟨n, rfl, h, by simpa [h] using hu⟩
  rw [MeshIO.mapM_ok_map (g := fun p => l.getD p.toNat default)]
  · have e2 : l = (List.range l.length).map (fun n => l.getD n default) := by
      apply List.ext_getElem
      · simp
      · intro n h1 h2
        simp [h1]
    conv_rhs => rw [e2]
    rw [e, List.filter_map, List.map_map]
    rfl
  · intro p hp
    obtain ⟨n, rfl, h, _⟩ := (hm p).mp hp
    rw [elemAt_nat l n h]
    simp [h]

theorem vertPlaces_read {m : Mesh} {es : List Int} (hv : (m.verts.map Vert.index).Nodup)
    (he : (m.edges.map Edge.index).Nodup) (hes : ∀ k ∈ es, ∃ e ∈ m.edges, e.index = k)
    (href : ∀ e ∈ m.edges, ∀ i ∈ e.vertind, ∃ v ∈ m.verts, v.index = i) :
    ∃ ps, vertPlaces m es = .ok ps ∧
      ps.mapM (m := Except Fault) (fun p => elemAt m.verts p) =
        .ok (vertsOf m fun e => es.contains e.index) := by
  obtain ⟨vs, hvs, hmem⟩ := concatField_ok (field := Edge.vertind) hes he
  refine ⟨_, by unfold vertPlaces; rw [hvs]; rfl, ?_⟩
  have : Inhabited Vert := ⟨⟨0, [], [], false⟩⟩
  apply places_read _ _ _ (sortUnique_strict _)
  intro p
  rw [mem_sortUnique, posList, List.mem_map]
  have hu : ∀ v : Vert, (m.edges.any fun e => es.contains e.index && e.vertind.contains v.index) = true ↔
      v.index ∈ vs := by
    intro v
    rw [hmem v.index]
    simp
  constructor
  · rintro ⟨k, hk, rfl⟩
    obtain ⟨e, hee, _, hke⟩ := (hmem k).mp hk
    obtain ⟨n, h1, hn, h2⟩ := posOf_mem (href e hee k hke)
    refine ⟨n, h1, hn, ?_⟩
    rw [hu, h2]
    exact hk
  · rintro ⟨n, rfl, hn, h⟩
    rw [hu] at h
    refine ⟨_, h, ?_⟩
    obtain ⟨n', h1, hn', h2⟩ := posOf_mem (ix := Vert.index) (l := m.verts) ⟨m.verts[n], List.getElem_mem hn, rfl⟩
    rw [h1]
    have := (List.Nodup.getElem_inj_iff hv (i := n') (j := n) (hi := by simpa) (hj := by simpa)).mp
      (by simpa using h2)
    rw [this]

/-! ### Bounds -/

theorem bounds_corner {m : Mesh} {lo hi : Fin 3 → ℚ} (h : Corners m lo hi) (i : Fin 3) :
    bounds i m.verts = some (lo i, hi i) := by
  obtain ⟨hb, ⟨v0, hv0, e0⟩, ⟨v1, hv1, e1⟩⟩ := h i
  cases hl : m.verts with
  | nil => rw [hl] at hv0; simp at hv0
  | cons v l =>
    simp only [bounds]
    have key : ∀ (l : List Vert) (b : ℚ × ℚ),
        (l.foldl (fun b w =>
          (if b.1 ≤ coordAt w i then b.1 else coordAt w i, if b.2 ≥ coordAt w i then b.2 else coordAt w i)) b) =
        (l.foldl (fun a w => min a (coordAt w i)) b.1, l.foldl (fun a w => max a (coordAt w i)) b.2) := by
      intro l
      induction l with
      | nil => intro b; rfl
      | cons w l ih =>
        intro b
        rw [List.foldl_cons, ih]
        simp only [List.foldl_cons]
        congr 1
        congr 1
        rw [max_comm]
        simp only [max_def, ge_iff_le]
    rw [key]
    have mn : ∀ (l : List Vert) (a : ℚ), (∀ w ∈ l, l.foldl (fun a w => min a (coordAt w i)) a ≤ coordAt w i) ∧
        l.foldl (fun a w => min a (coordAt w i)) a ≤ a ∧
        (l.foldl (fun a w => min a (coordAt w i)) a = a ∨ ∃ w ∈ l, coordAt w i = l.foldl (fun a w => min a (coordAt w i)) a) := by
      intro l
      induction l with
      | nil => intro a; simp
      | cons w l ih =>
        intro a
        obtain ⟨h1, h2, h3⟩ := ih (min a (coordAt w i))
        rw [List.foldl_cons]
        refine ⟨?_, h2.trans (min_le_left _ _), ?_⟩
        · intro u hu
          rcases List.mem_cons.mp hu with e | hu
          · rw [e]; exact h2.trans (min_le_right _ _)
          · exact h1 u hu
        · rcases h3 with h3 | ⟨u, hu, e⟩
          · rcases min_choice a (coordAt w i) with hc | hc
            · exact Or.inl (h3.trans hc)
            · exact Or.inr ⟨w, by simp, by rw [h3, hc]⟩
          · exact Or.inr ⟨u, by simp [hu], e⟩
    have mx : ∀ (l : List Vert) (a : ℚ), (∀ w ∈ l, coordAt w i ≤ l.foldl (fun a w => max a (coordAt w i)) a) ∧
        a ≤ l.foldl (fun a w => max a (coordAt w i)) a ∧
        (l.foldl (fun a w => max a (coordAt w i)) a = a ∨ ∃ w ∈ l, coordAt w i = l.foldl (fun a w => max a (coordAt w i)) a) := by
      intro l
      induction l with
      | nil => intro a; simp
      | cons w l ih =>
        intro a
        obtain ⟨h1, h2, h3⟩ := ih (max a (coordAt w i))
        rw [List.foldl_cons]
        refine ⟨?_, (le_max_left _ _).trans h2, ?_⟩
        · intro u hu
          rcases List.mem_cons.mp hu with e | hu
          · rw [e]; exact (le_max_right _ _).trans h2
          · exact h1 u hu
        · rcases h3 with h3 | ⟨u, hu, e⟩
          · rcases max_choice a (coordAt w i) with hc | hc
            · exact Or.inl (h3.trans hc)
            · exact Or.inr ⟨w, by simp, by rw [h3, hc]⟩
          · exact Or.inr ⟨u, by simp [hu], e⟩
    obtain ⟨p1, p2, p3⟩ := mn l (coordAt v i)
    obtain ⟨q1, q2, q3⟩ := mx l (coordAt v i)
    rw [hl] at hb hv0 hv1
    have a1 : l.foldl (fun a w => min a (coordAt w i)) (coordAt v i) = lo i := by
      apply le_antisymm
      · rw [← e0]
        rcases List.mem_cons.mp hv0 with e | h
        · rw [e]; exact p2
        · exact p1 _ h
      · rcases p3 with e | ⟨w, hw, e⟩
        · rw [e]; exact (hb v (by simp)).1
        · rw [← e]; exact (hb w (by simp [hw])).1
    have a2 : l.foldl (fun a w => max a (coordAt w i)) (coordAt v i) = hi i := by
      apply le_antisymm
      · rcases q3 with e | ⟨w, hw, e⟩
        · rw [e]; exact (hb v (by simp)).2
        · rw [← e]; exact (hb w (by simp [hw])).2
      · rw [← e1]
        rcases List.mem_cons.mp hv1 with e | h
        · rw [e]; exact q2
        · exact q1 _ h
    rw [a1, a2]

theorem centre_between {m : Mesh} {lo hi : Fin 3 → ℚ} (h : Corners m lo hi) {vs : List Vert}
    (hs : ∀ v ∈ vs, v ∈ m.verts) (hne : vs ≠ []) (i : Fin 3) :
    lo i ≤ centre vs i ∧ centre vs i ≤ hi i := by
  have hpos : (0 : ℚ) < vs.length := by
    exact_mod_cast List.length_pos_of_ne_nil hne
  unfold centre
  rw [le_div_iff₀ hpos, div_le_iff₀ hpos]
  have key : ∀ vs : List Vert, (∀ v ∈ vs, v ∈ m.verts) →
      lo i * vs.length ≤ (vs.map fun v => v.coord.getD i 0).sum ∧
      (vs.map fun v => v.coord.getD i 0).sum ≤ hi i * vs.length := by
    intro vs
    induction vs with
    | nil => intro _; simp
    | cons v vs ih =>
      intro hs
      obtain ⟨h1, h2⟩ := ih (fun v hv => hs v (by simp [hv]))
      obtain ⟨h3, h4⟩ := (h i).1 v (hs v (by simp))
      simp only [List.map_cons, List.sum_cons, List.length_cons, Nat.cast_add, Nat.cast_one]
      constructor <;> linarith
  exact key vs hs

/-! ### Slices -/

/-- The slice of a point. -/
def slice (lo hi : ℚ) (n : Int) (x : ℚ) : Int := min ⌊(x - lo) / (hi - lo) * n⌋ (n - 1)

theorem boxCoord_slice {lo hi : ℚ} {n : Int} {x : ℚ} (h : lo < hi) :
    boxCoord lo (hi - lo) n x = .ok (slice lo hi n x) := by
  unfold boxCoord slice
  rw [if_neg (by linarith)]
  split
  · rename_i h1
    have : n ≤ ⌊(x - lo) / (hi - lo) * n⌋ := by exact_mod_cast h1
    rw [min_eq_right (by omega)]
  · rename_i h1
    have : ¬ n ≤ ⌊(x - lo) / (hi - lo) * n⌋ := by exact_mod_cast h1
    rw [min_eq_left (by omega)]

theorem slice_spec {lo hi : ℚ} {n : Int} {x : ℚ} (h : lo < hi) (hn : 0 < n) (h0 : lo ≤ x) (h1 : x ≤ hi) :
    0 ≤ slice lo hi n x ∧ slice lo hi n x < n ∧
      ∀ k, InSlice lo hi n x k ∧ 0 ≤ k ∧ k < n ↔ k = slice lo hi n x := by
  have hd : 0 < hi - lo := by linarith
  have hnq : (0 : ℚ) < n := by exact_mod_cast hn
  set t := (x - lo) / (hi - lo) * n with ht
  have ht0 : 0 ≤ t := by
    rw [ht]; exact mul_nonneg (div_nonneg (by linarith) hd.le) hnq.le
  have ht1 : t ≤ n := by
    rw [ht]
    have : (x - lo) / (hi - lo) ≤ 1 := by rw [div_le_one hd]; linarith
    nlinarith
  have hx : x = lo + (hi - lo) * t / n := by rw [ht]; field_simp; ring
  have hf0 : 0 ≤ ⌊t⌋ := Int.floor_nonneg.mpr ht0
  have hle : ∀ k : Int, lo + (hi - lo) * k / n ≤ x ↔ (k : ℚ) ≤ t := by
    intro k
    rw [hx, add_le_add_iff_left, div_le_div_iff_of_pos_right hnq, mul_le_mul_iff_right₀ hd]
  have hlt : ∀ k : Int, x < lo + (hi - lo) * (k + 1) / n ↔ t < (k : ℚ) + 1 := by
    intro k
    rw [hx, add_lt_add_iff_left, div_lt_div_iff_of_pos_right hnq, mul_lt_mul_iff_right₀ hd]
  unfold slice
  rw [← ht]
  refine ⟨by omega, by omega, fun k => ?_⟩
  unfold InSlice
  rw [hle, hlt]
  have hfl := Int.floor_le t
  have hlf := Int.lt_floor_add_one t
  constructor
  · rintro ⟨⟨h2, h3⟩, h4, h5⟩
    have h6 : k ≤ ⌊t⌋ := Int.le_floor.mpr h2
    rcases h3 with h3 | ⟨h3, _⟩
    · have : ⌊t⌋ < k + 1 := Int.floor_lt.mpr (by exact_mod_cast h3)
      omega
    · omega
  · intro e
    have h6 : k ≤ ⌊t⌋ := by omega
    refine ⟨⟨Int.le_floor.mp h6, ?_⟩, by omega, by omega⟩
    by_cases hc : ⌊t⌋ ≤ n - 1
    · rw [min_eq_left hc] at e
      left; rw [e]; exact hlf
    · right; exact ⟨by omega, h1⟩

/-- The number of the box of a point. -/
def boxNum (lo hi : Fin 3 → ℚ) (n : Fin 3 → Int) (x : Fin 3 → ℚ) : Int :=
  slice (lo 0) (hi 0) (n 0) (x 0) + n 0 * slice (lo 1) (hi 1) (n 1) (x 1) +
    n 0 * n 1 * slice (lo 2) (hi 2) (n 2) (x 2)

theorem num_inj {n0 n1 a b c a' b' c' : Int} (ha : 0 ≤ a ∧ a < n0) (ha' : 0 ≤ a' ∧ a' < n0)
    (hb : 0 ≤ b ∧ b < n1) (hb' : 0 ≤ b' ∧ b' < n1)
    (h : a + n0 * b + n0 * n1 * c = a' + n0 * b' + n0 * n1 * c') : a = a' ∧ b = b' ∧ c = c' := by
  have h1 : a = a' := by
    have e1 : (a + n0 * (b + n1 * c)) % n0 = a := by
      rw [Int.add_mul_emod_self_left, Int.emod_eq_of_lt ha.1 ha.2]
    have e2 : (a' + n0 * (b' + n1 * c')) % n0 = a' := by
      rw [Int.add_mul_emod_self_left, Int.emod_eq_of_lt ha'.1 ha'.2]
    rw [← e1, ← e2]; congr 1; linarith
  subst h1
  have h2 : b + n1 * c = b' + n1 * c' := by
    apply Int.eq_of_mul_eq_mul_left (a := n0) (by omega)
    linarith
  have h3 : b = b' := by
    have e1 : (b + n1 * c) % n1 = b := by
      rw [Int.add_mul_emod_self_left, Int.emod_eq_of_lt hb.1 hb.2]
    have e2 : (b' + n1 * c') % n1 = b' := by
      rw [Int.add_mul_emod_self_left, Int.emod_eq_of_lt hb'.1 hb'.2]
    rw [← e1, ← e2, h2]
  subst h3
  exact ⟨rfl, rfl, Int.eq_of_mul_eq_mul_left (a := n1) (by omega) (by linarith)⟩

theorem num_range {n0 n1 n2 a b c : Int} (ha : 0 ≤ a ∧ a < n0) (hb : 0 ≤ b ∧ b < n1)
    (hc : 0 ≤ c ∧ c < n2) : 0 ≤ a + n0 * b + n0 * n1 * c ∧ a + n0 * b + n0 * n1 * c < n0 * n1 * n2 := by
  have h01 : 0 < n0 * n1 := by apply mul_pos <;> omega
  constructor
  · have := mul_nonneg (a := n0) (b := b) (by omega) hb.1
    have := mul_nonneg h01.le hc.1
    omega
  · have h1 : n0 * b ≤ n0 * (n1 - 1) := mul_le_mul_of_nonneg_left (by omega) (by omega)
    have h2 : n0 * n1 * c ≤ n0 * n1 * (n2 - 1) := mul_le_mul_of_nonneg_left (by omega) h01.le
    linarith [ha.2]

/-! ### The loop over cells -/

/-- The first element of a list in each class. -/
def firsts (σ : Int × List Vert → Int) (all : List (Int × List Vert)) (c : Int × List Vert) : Int :=
  ((all.find? (fun d => σ d = σ c)).map Prod.fst).getD 0

theorem mapLoop_ok {m : Mesh} {lo delta : Fin 3 → ℚ} {n : Fin 3 → Int} {N : Int}
    {σ : Int × List Vert → Int} : ∀ (post : List (Int × Res (List Int))) (specs pre : List (Int × List Vert))
    (boxMap : List Int),
    List.Forall₂ (fun (c : Int × Res (List Int)) (d : Int × List Vert) => c.1 = d.1 ∧ d.1 ≠ 0 ∧
      0 ≤ σ d ∧ σ d < N ∧
      (c.2.bind fun edges => (vertPlaces m edges).bind fun ps => (meanCoord m ps).bind fun x =>
        boxOf lo delta n x) = .ok (σ d)) post specs →
    (boxMap.length : Int) = N →
    (∀ k : Nat, (h : k < boxMap.length) →
      boxMap[k] = ((pre.find? (fun d => σ d = (k : Int))).map Prod.fst).getD 0) →
    (∀ d ∈ pre, d.1 ≠ 0) →
    mapLoop m lo delta n N post boxMap = .ok (specs.map (firsts σ (pre ++ specs)))
  | [], specs, pre, boxMap, hf, _, _, _ => by cases hf; rfl
  | c :: post, specs, pre, boxMap, hf, hlen, hbox, hpre => by
    cases hf with
    | cons hcd hrest =>
      rename_i d specs
      obtain ⟨h1, h2, h3, h4, h5⟩ := hcd
      obtain ⟨es, he, h6⟩ := bind_ok_iff.mp h5
      obtain ⟨ps, hp, h7⟩ := bind_ok_iff.mp h6
      obtain ⟨x, hx, h8⟩ := bind_ok_iff.mp h7
      obtain ⟨ci, ce⟩ := c
      simp only at h1 he
      subst h1
      have hlt : (σ d).toNat < boxMap.length := by omega
      have hget : vecGet boxMap (σ d) = .ok boxMap[(σ d).toNat] := by
        unfold vecGet
        rw [if_neg (by omega)]
        simp [hlt]
      have hb := hbox (σ d).toNat hlt
      rw [Int.toNat_of_nonneg h3] at hb
      have hself : ∀ rest, firsts σ (pre ++ d :: rest) d = if boxMap[(σ d).toNat] = 0 then d.1 else boxMap[(σ d).toNat] := by
        intro rest
        unfold firsts
        rw [List.find?_append, hb]
        cases hfind : pre.find? (fun e => σ e = σ d) with
        | none => simp
        | some e =>
          have := hpre e (List.mem_of_find?_eq_some hfind)
          simp [this]
      have hstep : mapLoop m lo delta n N ((d.1, ce) :: post) boxMap =
          if boxMap[(σ d).toNat] = 0 then (mapLoop m lo delta n N post (boxMap.set (σ d).toNat d.1)).map (d.1 :: ·)
          else (mapLoop m lo delta n N post boxMap).map (boxMap[(σ d).toNat] :: ·) := by
        conv_lhs => unfold mapLoop
        rw [he]; simp only [Except.bind]
        rw [hp]; simp only
        rw [hx]; simp only
        rw [h8]; simp only
        rw [if_neg (by omega), hget]
      rw [hstep, List.map_cons, hself]
      have hpre' : ∀ e ∈ pre ++ [d], e.1 ≠ 0 := by
        intro e he
        rcases List.mem_append.mp he with he | he
        · exact hpre e he
        · rw [List.mem_singleton.mp he]; exact h2
      split
      · rename_i h0
        rw [mapLoop_ok post specs (pre ++ [d]) _ hrest (by simpa using hlen) ?_ hpre']
        · simp [Except.map]
        · intro k hk
          rw [List.find?_append, List.getElem_set]
          split
          · rename_i hkk
            subst hkk
            rw [h0] at hb
            rw [Int.toNat_of_nonneg h3]
            cases hfind : pre.find? (fun e => σ e = σ d) with
            | none => simp
            | some e =>
              rw [hfind] at hb
              exact absurd hb.symm (hpre e (List.mem_of_find?_eq_some hfind))
          · rename_i hkk
            rw [hbox k (by simpa using hk)]
            have : ¬ σ d = (k : Int) := by omega
            simp [this]
      · rename_i h0
        rw [mapLoop_ok post specs (pre ++ [d]) _ hrest hlen ?_ hpre']
        · simp [Except.map]
        · intro k hk
          rw [List.find?_append, hbox k hk]
          by_cases hkk : σ d = (k : Int)
          · have hkn : k = (σ d).toNat := by omega
            subst hkn
            rw [Int.toNat_of_nonneg h3]
            cases hfind : pre.find? (fun e => σ e = σ d) with
            | none => rw [hfind] at hb; exact absurd hb h0
            | some e => simp
          · simp [hkk]

/-! ### Cells -/

theorem vertsOf_sub {m : Mesh} {E : Edge → Bool} : ∀ v ∈ vertsOf m E, v ∈ m.verts :=
  fun _ hv => List.mem_of_mem_filter hv

theorem cell_mean {m : Mesh} {es : List Int} {vs : List Vert} (hv : (m.verts.map Vert.index).Nodup)
    (he : (m.edges.map Edge.index).Nodup) (hes : ∀ k ∈ es, ∃ e ∈ m.edges, e.index = k)
    (href : ∀ e ∈ m.edges, ∀ i ∈ e.vertind, ∃ v ∈ m.verts, v.index = i)
    (hvs : vs = vertsOf m fun e => es.contains e.index) (hne : vs ≠ []) :
    ∃ ps, vertPlaces m es = .ok ps ∧ meanCoord m ps = .ok (centre vs) := by
  obtain ⟨ps, h1, h2⟩ := vertPlaces_read hv he hes href
  refine ⟨ps, h1, ?_⟩
  unfold meanCoord
  rw [h2, ← hvs]
  simp only [Except.bind]
  rw [if_neg (by simpa using hne)]
  congr 1
  funext i
  simp [centre, coordAt, div_eq_mul_inv]

/-- Each cell is read with the vertices it uses. -/
theorem cells_read {m : Mesh} (hv : (m.verts.map Vert.index).Nodup)
    (he : (m.edges.map Edge.index).Nodup) (hs : (m.surfs.map Surf.index).Nodup) (href : CellsRefer m)
    (hne : ∀ c ∈ cellVerts m, c.2 ≠ []) :
    List.Forall₂ (fun (c : Int × Res (List Int)) (d : Int × List Vert) => c.1 = d.1 ∧
      (c.2.bind fun edges => (vertPlaces m edges).bind fun ps => meanCoord m ps) = .ok (centre d.2))
      (cells m) (cellVerts m) := by
  unfold cells
  unfold cellVerts at hne ⊢
  split
  · rename_i h3
    rw [h3] at hne ⊢
    simp only at hne ⊢
    rw [List.forall₂_map_left_iff, List.forall₂_map_right_iff, List.forall₂_same]
    intro c hc
    refine ⟨rfl, ?_⟩
    obtain ⟨es, h1, h2⟩ := concatField_ok (field := Surf.edgeind) (href.surfs h3 c hc) hs
    have hpred : (fun e : Edge => m.surfs.any fun s => c.surfind.contains s.index && s.edgeind.contains e.index) =
        fun e : Edge => es.contains e.index := by
      funext e
      rw [Bool.eq_iff_iff]
      simp [h2]
    obtain ⟨ps, h4, h5⟩ := cell_mean (es := es) hv he
      (fun k hk => by
        obtain ⟨s, hs, _, hk⟩ := (h2 k).mp hk
        exact href.edges s hs k hk) href.verts (congrArg (vertsOf m) hpred)
      (hne _ (List.mem_map.mpr ⟨c, hc, rfl⟩))
    simp only
    rw [h1]
    simp only [Except.bind]
    rw [h4]
    exact h5
  · rename_i h3
    split
    · rename_i h2
      rw [h2] at hne ⊢
      simp only at hne ⊢
      rw [List.forall₂_map_left_iff, List.forall₂_map_right_iff, List.forall₂_same]
      intro s hs
      refine ⟨rfl, ?_⟩
      obtain ⟨ps, h4, h5⟩ := cell_mean (es := s.edgeind) hv he (href.edges s hs) href.verts rfl
        (hne _ (List.mem_map.mpr ⟨s, hs, rfl⟩))
      simp only [Except.bind]
      rw [h4]
      exact h5
    · rename_i h2
      split
      · exact absurd (by assumption) h3
      · exact absurd (by assumption) h2
      · exact .nil

theorem posDims_eq (dims : Fin 3 → Int) : posDims dims = slices dims := by
  funext i
  unfold posDims slices
  split <;> omega

theorem slices_pos (dims : Fin 3 → Int) (i : Fin 3) : 0 < slices dims i := by
  unfold slices; omega

theorem boxOf_num {lo hi : Fin 3 → ℚ} (h : ∀ i, lo i < hi i) (n : Fin 3 → Int) (x : Fin 3 → ℚ) :
    boxOf lo (fun i => hi i - lo i) n x = .ok (boxNum lo hi n x) := by
  unfold boxOf
  rw [boxCoord_slice (h 0), boxCoord_slice (h 1), boxCoord_slice (h 2)]
  rfl

theorem cartesian_eq {m : Mesh} {lo hi : Fin 3 → ℚ} (hc : Corners m lo hi) (dims : Fin 3 → Int) :
    cartesianMapping m dims = mapLoop m lo (fun i => hi i - lo i) (slices dims)
      (slices dims 0 * slices dims 1 * slices dims 2) (cells m)
      (List.replicate (slices dims 0 * slices dims 1 * slices dims 2).toNat 0) := by
  unfold cartesianMapping
  rw [bounds_corner hc 0, bounds_corner hc 1, bounds_corner hc 2]
  simp only [posDims_eq]
  congr 1
  · funext i; fin_cases i <;> rfl
  · funext i; fin_cases i <;> rfl

theorem forall₂_and_right {α β : Type} {R : α → β → Prop} {P : β → Prop} :
    ∀ {l : List α} {l' : List β}, List.Forall₂ R l l' → (∀ b ∈ l', P b) →
      List.Forall₂ (fun a b => R a b ∧ P b) l l'
  | [], _, .nil, _ => .nil
  | _ :: _, _ :: _, .cons h t, hp =>
    .cons ⟨h, hp _ (by simp)⟩ (forall₂_and_right t (fun b hb => hp b (by simp [hb])))

theorem same_iff {lo hi : Fin 3 → ℚ} (h : ∀ i, lo i < hi i) (dims : Fin 3 → Int) {x y : Fin 3 → ℚ}
    (hx : ∀ i, lo i ≤ x i ∧ x i ≤ hi i) (hy : ∀ i, lo i ≤ y i ∧ y i ≤ hi i) :
    SameBox lo hi dims x y ↔ boxNum lo hi (slices dims) x = boxNum lo hi (slices dims) y := by
  have sx := fun i => slice_spec (h i) (slices_pos dims i) (hx i).1 (hx i).2
  have sy := fun i => slice_spec (h i) (slices_pos dims i) (hy i).1 (hy i).2
  constructor
  · rintro ⟨k, hk⟩
    have : ∀ i, slice (lo i) (hi i) (slices dims i) (x i) = slice (lo i) (hi i) (slices dims i) (y i) := by
      intro i
      obtain ⟨h1, h2, h3, h4⟩ := hk i
      rw [← ((sx i).2.2 (k i)).mp ⟨h3, h1, h2⟩, ← ((sy i).2.2 (k i)).mp ⟨h4, h1, h2⟩]
    unfold boxNum
    rw [this 0, this 1, this 2]
  · intro e
    obtain ⟨e0, e1, e2⟩ := num_inj ⟨(sx 0).1, (sx 0).2.1⟩ ⟨(sy 0).1, (sy 0).2.1⟩ ⟨(sx 1).1, (sx 1).2.1⟩
      ⟨(sy 1).1, (sy 1).2.1⟩ e
    refine ⟨fun i => slice (lo i) (hi i) (slices dims i) (x i), fun i => ?_⟩
    have hi' : slice (lo i) (hi i) (slices dims i) (x i) = slice (lo i) (hi i) (slices dims i) (y i) := by
      fin_cases i
      · exact e0
      · exact e1
      · exact e2
    obtain ⟨h1, h2, h3⟩ := sx i
    obtain ⟨_, _, h4⟩ := sy i
    exact ⟨h1, h2, ((h3 _).mpr rfl).1, ((h4 _).mpr hi').1⟩

theorem cellVerts_sub {m : Mesh} : ∀ c ∈ cellVerts m, ∀ v ∈ c.2, v ∈ m.verts := by
  intro c hc v hv
  unfold cellVerts at hc
  split at hc
  · obtain ⟨a, _, rfl⟩ := List.mem_map.mp hc
    exact vertsOf_sub v hv
  · obtain ⟨a, _, rfl⟩ := List.mem_map.mp hc
    exact vertsOf_sub v hv
  · simp at hc

/-- The mapping gives each cell the first cell of its box. -/
theorem cartesian_firsts {m : Mesh} {lo hi : Fin 3 → ℚ} {dims : Fin 3 → Int}
    (hv : (m.verts.map Vert.index).Nodup) (he : (m.edges.map Edge.index).Nodup)
    (hs : (m.surfs.map Surf.index).Nodup) (href : CellsRefer m) (hc : Corners m lo hi)
    (hext : ∀ i, lo i < hi i) (hne : ∀ c ∈ cellVerts m, c.2 ≠ []) (h0 : ∀ c ∈ cellVerts m, c.1 ≠ 0) :
    cartesianMapping m dims = .ok ((cellVerts m).map
      (firsts (fun d => boxNum lo hi (slices dims) (centre d.2)) (cellVerts m))) := by
  rw [cartesian_eq hc]
  have hbet : ∀ d ∈ cellVerts m, d.1 ≠ 0 ∧ ∀ i, lo i ≤ centre d.2 i ∧ centre d.2 i ≤ hi i := by
    intro d hd
    refine ⟨h0 d hd, fun i => ?_⟩
    have hsub := cellVerts_sub d hd
    exact centre_between hc hsub (hne d hd) i
  have hread := forall₂_and_right (cells_read hv he hs href hne) hbet
  have hN : 0 < slices dims 0 * slices dims 1 * slices dims 2 :=
    mul_pos (mul_pos (slices_pos _ _) (slices_pos _ _)) (slices_pos _ _)
  have := mapLoop_ok (m := m) (lo := lo) (delta := fun i => hi i - lo i) (n := slices dims)
    (N := slices dims 0 * slices dims 1 * slices dims 2)
    (σ := fun d => boxNum lo hi (slices dims) (centre d.2)) (cells m) (cellVerts m) []
    (List.replicate (slices dims 0 * slices dims 1 * slices dims 2).toNat 0) ?_ (by simp; omega)
    (by simp) (by simp)
  · simpa using this
  · refine hread.imp ?_
    rintro ⟨ci, ce⟩ d ⟨⟨h1, h2⟩, h3, h4⟩
    have s := fun i => slice_spec (hext i) (slices_pos dims i) (h4 i).1 (h4 i).2
    obtain ⟨r0, r1⟩ := num_range ⟨(s 0).1, (s 0).2.1⟩ ⟨(s 1).1, (s 1).2.1⟩ ⟨(s 2).1, (s 2).2.1⟩
    refine ⟨h1, h3, r0, r1, ?_⟩
    obtain ⟨es, he, h6⟩ := bind_ok_iff.mp h2
    obtain ⟨ps, hp, h7⟩ := bind_ok_iff.mp h6
    simp only at he
    simp only
    rw [he]
    simp only [Except.bind]
    rw [hp]
    simp only
    rw [h7]
    simp only
    exact boxOf_num hext _ _

theorem firsts_spec {σ : Int × List Vert → Int} {all : List (Int × List Vert)} {c : Int × List Vert}
    (hc : c ∈ all) : ∃ d ∈ all, σ d = σ c ∧ firsts σ all c = d.1 ∧ firsts σ all d = d.1 ∧
      ∀ e ∈ all, σ e = σ c → firsts σ all e = d.1 := by
  unfold firsts
  cases h : all.find? (fun d => σ d = σ c) with
  | none =>
    rw [List.find?_eq_none] at h
    exact absurd (by simp) (h c hc)
  | some d =>
    have h1 := List.find?_some h
    simp only [decide_eq_true_eq] at h1
    refine ⟨d, List.mem_of_find?_eq_some h, h1, rfl, ?_, ?_⟩
    · rw [h1, h]; rfl
    · intro e _ he
      rw [he, h]; rfl

end RSVS.Refine
