import Verif.Model.Triangulate
import Verif.Lemmas.MeshShift
import Verif.Spec.Triangulate
import Mathlib.Algebra.BigOperators.Ring.Finset
import Mathlib.Algebra.BigOperators.Group.Finset.Basic
import Mathlib.Tactic.Ring
import Mathlib.Tactic.Linarith

namespace RSVS.Triang

open RSVS.Spec RSVS.Mesh

variable {α : Type}

theorem loopEdges_eq (l : List α) (d : α) :
    loopEdges l = (List.range l.length).map fun i => (l.getD i d, l.getD ((i + 1) % l.length) d) := by
  apply List.ext_getElem
  · simp [loopEdges]
  · intro i h1 h2
    have hi : i < l.length := by simpa using h2
    have hj : (i + 1) % l.length < l.length := Nat.mod_lt _ (by omega)
    simp [loopEdges, List.getElem_rotate, List.getElem?_eq_getElem hi, List.getElem?_eq_getElem hj]

theorem circulation_three (φ : α → α → ℝ) (a b c : α) :
    circulation φ [a, b, c] = φ a b + (φ b c + φ c a) := by
  simp [circulation, loopEdges, List.rotate]

theorem sum_shift (f : α → ℝ) (l : List α) :
    ((loopEdges l).map fun e => f e.2).sum = ((loopEdges l).map fun e => f e.1).sum := by
  have h1 : ((loopEdges l).map fun e => f e.2) = (l.rotate 1).map f := by
    have : (fun e : α × α => f e.2) = f ∘ Prod.snd := rfl
    rw [this, ← List.map_map, loopEdges, List.map_snd_zip (by simp)]
  have h2 : ((loopEdges l).map fun e => f e.1) = l.map f := by
    have : (fun e : α × α => f e.1) = f ∘ Prod.fst := rfl
    rw [this, ← List.map_map, loopEdges, List.map_fst_zip (by simp)]
  rw [h1, h2]
  exact ((List.rotate_perm l 1).map f).sum_eq

/-- A fan of triangles has the boundary of the polygon. -/
theorem fan_circulation {φ : α → α → ℝ} (hφ : Alternating φ) (l : List α) (c : α) :
    ((loopEdges l).map fun e => circulation φ [e.1, e.2, c]).sum = circulation φ l := by
  simp only [circulation_three]
  have : ∀ e : α × α, φ e.1 e.2 + (φ e.2 c + φ c e.1) = φ e.1 e.2 + (φ e.2 c + -φ e.1 c) := by
    intro e; rw [hφ e.1 c]
  simp only [this, List.sum_map_add]
  rw [sum_shift (fun x => φ x c)]
  have : ((loopEdges l).map fun e => -φ e.1 c).sum = -((loopEdges l).map fun e => φ e.1 c).sum := by
    induction loopEdges l with
    | nil => simp
    | cons a l ih => simp [ih]; ring
  rw [this, circulation]
  ring

/-- The sum over a list, by how often each entry is in it. -/
theorem sum_eq_count [BEq α] [LawfulBEq α] (f : α → ℝ) (l : List α) {S : Finset α} (hS : ∀ a ∈ l, a ∈ S) :
    (l.map f).sum = ∑ a ∈ S, (l.count a : ℝ) * f a := by
  classical
  induction l with
  | nil => simp
  | cons b l ih =>
    rw [List.map_cons, List.sum_cons, ih fun a ha => hS a (List.mem_cons_of_mem _ ha)]
    have : ∀ a, ((b :: l).count a : ℝ) * f a = (l.count a : ℝ) * f a + if b = a then f a else 0 := by
      intro a
      rw [List.count_cons]
      by_cases h : b = a <;> simp [h, add_mul]
    simp only [this, Finset.sum_add_distrib]
    rw [Finset.sum_ite_eq S b f, if_pos (hS b List.mem_cons_self)]
    ring

/-- Loops that close have no circulation. -/
theorem closed_circulation [DecidableEq α] {loops : List (ℝ × List α)} (hc : Closed loops)
    {φ : α → α → ℝ} (hφ : Alternating φ) :
    (loops.map fun p => p.1 * circulation φ p.2).sum = 0 := by
  obtain ⟨S, hS⟩ : ∃ S : Finset α, ∀ p ∈ loops, ∀ e ∈ loopEdges p.2, e.1 ∈ S ∧ e.2 ∈ S := by
    refine ⟨(loops.flatMap Prod.snd).toFinset, fun p hp e he => ?_⟩
    have h1 : e.1 ∈ p.2 := (List.of_mem_zip (a := e.1) (b := e.2) he).1
    have h2 : e.2 ∈ p.2 := List.mem_rotate.mp (List.of_mem_zip (a := e.1) (b := e.2) he).2
    simp only [List.mem_toFinset, List.mem_flatMap]
    exact ⟨⟨p, hp, h1⟩, ⟨p, hp, h2⟩⟩
  have key : (loops.map fun p => p.1 * circulation φ p.2).sum =
      ∑ e ∈ S ×ˢ S, flow loops e.1 e.2 * φ e.1 e.2 := by
    have h : ∀ ls : List (ℝ × List α), (∀ p ∈ ls, ∀ e ∈ loopEdges p.2, e.1 ∈ S ∧ e.2 ∈ S) →
        (ls.map fun p => p.1 * circulation φ p.2).sum =
          ∑ e ∈ S ×ˢ S, flow ls e.1 e.2 * φ e.1 e.2 := by
      intro ls
      induction ls with
      | nil => intro _; simp [flow]
      | cons p ls ih =>
        intro hp
        rw [List.map_cons, List.sum_cons, ih fun q hq => hp q (List.mem_cons_of_mem _ hq), circulation,
          sum_eq_count (fun e : α × α => φ e.1 e.2) (loopEdges p.2) (S := S ×ˢ S)
            fun e he => Finset.mem_product.mpr (hp p List.mem_cons_self e he), Finset.mul_sum,
          ← Finset.sum_add_distrib]
        refine Finset.sum_congr rfl fun e _ => ?_
        obtain ⟨a, b⟩ := e
        simp only [flow, List.map_cons, List.sum_cons]
        ring
    exact h loops hS
  have swap : ∑ e ∈ S ×ˢ S, flow loops e.1 e.2 * φ e.1 e.2 =
      ∑ e ∈ S ×ˢ S, flow loops e.2 e.1 * φ e.2 e.1 := by
    rw [Finset.sum_product, Finset.sum_product_right]
  have neg : ∑ e ∈ S ×ˢ S, flow loops e.2 e.1 * φ e.2 e.1 =
      -∑ e ∈ S ×ˢ S, flow loops e.1 e.2 * φ e.1 e.2 := by
    rw [← Finset.sum_neg_distrib]
    refine Finset.sum_congr rfl fun e _ => ?_
    rw [hc e.2 e.1, hφ e.1 e.2]
    ring
  rw [key]
  linarith [swap.trans neg]

/-! ### What the loops push -/

/-- Corners of a triangle: types and indices. -/
def corners (t : Triangle) : List (Int × Int) := t.pointtype.zip t.pointind

theorem zip_fst_snd {β : Type} : ∀ l : List (α × β), (l.map Prod.fst).zip (l.map Prod.snd) = l
  | [] => rfl
  | _ :: l => by simp [zip_fst_snd l]

/-- The triangles of a polygon. -/
def trisOf (p : Poly) (nextInd centre : Int) : List Triangle :=
  if p.pts.length > 3 then (List.range p.pts.length).map (fanTriangle p centre nextInd)
  else [{ index := nextInd + 1, pointtype := p.pts.map Prod.fst, pointind := p.pts.map Prod.snd,
          parentsurf := p.parent, celltarg := p.celltarg, influence := p.influence }]

/-- The point of a polygon. -/
def pointsOf (p : Poly) (typeMesh centre : Int) : List TriPoint :=
  if p.pts.length > 3 then [{ index := centre, parentsurf := p.parent, parentType := typeMesh }] else []

theorem triangulate_eq {p : Poly} (h : 3 ≤ p.pts.length) (ty nx v : Int) :
    triangulate p ty nx v = .ok (trisOf p nx (v + 1), pointsOf p ty (v + 1)) := by
  unfold triangulate trisOf pointsOf
  rw [if_neg (by omega)]
  split_ifs <;> rfl

theorem triangulate_ok {p : Poly} {ty nx v : Int} {r} (h : triangulate p ty nx v = .ok r) :
    3 ≤ p.pts.length := by
  unfold triangulate at h
  split_ifs at h <;> omega

theorem trisOf_index (p : Poly) (nx c : Int) :
    (trisOf p nx c).map Triangle.index =
      (List.range (trisOf p nx c).length).map fun k : Nat => nx + 1 + k := by
  unfold trisOf
  split_ifs
  · simp [fanTriangle, Function.comp_def]
  · simp

theorem trisOf_parent {p : Poly} {nx c : Int} {t : Triangle} (h : t ∈ trisOf p nx c) :
    t.parentsurf = p.parent ∧ t.celltarg = p.celltarg ∧ t.influence = p.influence := by
  unfold trisOf at h
  split_ifs at h
  · obtain ⟨k, -, rfl⟩ := List.mem_map.mp h
    exact ⟨rfl, rfl, rfl⟩
  · rw [List.mem_singleton] at h
    subst h
    exact ⟨rfl, rfl, rfl⟩

theorem trisOf_fan {p : Poly} (h : 3 ≤ p.pts.length) (nx c : Int) :
    FanOf p.pts ((trisOf p nx c).map corners) (3, c) := by
  unfold trisOf
  split_ifs with h3
  · right
    refine ⟨h3, ?_⟩
    rw [loopEdges_eq _ (0, 0)]
    simp [corners, fanTriangle]
  · left
    refine ⟨by omega, ?_⟩
    simp only [corners, List.map_cons, List.map_nil, List.cons.injEq, and_true]
    exact zip_fst_snd p.pts

/-- Everything that is pushed for a list of polygons. -/
def madeTris (maxV : Int) : Int → Nat → List Poly → List (List Triangle)
  | _, _, [] => []
  | nx, i, p :: ps => let r := trisOf p nx (maxV + i + 2)
      r :: madeTris maxV (nx + r.length) (i + 1) ps

/-- The points that are pushed for a list of polygons. -/
def madePoints (ty maxV : Int) : Nat → List Poly → List TriPoint
  | _, [] => []
  | i, p :: ps => pointsOf p ty (maxV + i + 2) ++ madePoints ty maxV (i + 1) ps


theorem maxIdx_attained {β : Type} (ix : β → Int) (l : List β) :
    maxIdx ix l = 0 ∨ ∃ t ∈ l, ix t = maxIdx ix l := by
  induction l with
  | nil => exact Or.inl rfl
  | cons b l ih =>
    have : maxIdx ix (b :: l) = if maxIdx ix l < ix b then ix b else maxIdx ix l := rfl
    rw [this]
    split
    · exact Or.inr ⟨b, List.mem_cons_self, rfl⟩
    · rcases ih with h | ⟨t, ht, h⟩
      · exact Or.inl h
      · exact Or.inr ⟨t, List.mem_cons_of_mem _ ht, h⟩

theorem maxIdx_eq {β : Type} {ix : β → Int} {l : List β} {a : Int} (h0 : 0 ≤ a)
    (hle : ∀ t ∈ l, ix t ≤ a) (hat : a = 0 ∨ ∃ t ∈ l, ix t = a) : maxIdx ix l = a := by
  obtain ⟨g0, gle⟩ := maxIdx_spec ix l
  have h1 : maxIdx ix l ≤ a := by
    rcases maxIdx_attained ix l with h | ⟨t, ht, h⟩
    · omega
    · rw [← h]; exact hle t ht
  have h2 : a ≤ maxIdx ix l := by
    rcases hat with h | ⟨t, ht, h⟩
    · omega
    · rw [← h]; exact gle t ht
  omega

theorem maxIdx_append (l : List Triangle) {r : List Triangle}
    (hr : r.map Triangle.index =
      (List.range r.length).map fun k : Nat => maxIdx Triangle.index l + 1 + k) :
    maxIdx Triangle.index (l ++ r) = maxIdx Triangle.index l + r.length := by
  obtain ⟨h0, hl⟩ := maxIdx_spec Triangle.index l
  apply maxIdx_eq (by omega)
  · intro t ht
    rcases List.mem_append.mp ht with ht | ht
    · have := hl t ht; omega
    · have : t.index ∈ r.map Triangle.index := List.mem_map_of_mem ht
      rw [hr] at this
      obtain ⟨k, hk, e⟩ := List.mem_map.mp this
      have := List.mem_range.mp hk
      omega
  · rcases Nat.eq_zero_or_pos r.length with h | h
    · rcases maxIdx_attained Triangle.index l with g | ⟨t, ht, g⟩
      · left; omega
      · right; exact ⟨t, List.mem_append_left _ ht, by omega⟩
    · right
      have : maxIdx Triangle.index l + (r.length : Int) ∈ r.map Triangle.index := by
        rw [hr]
        exact List.mem_map.mpr ⟨r.length - 1, List.mem_range.mpr (by omega), by omega⟩
      obtain ⟨t, ht, e⟩ := List.mem_map.mp this
      exact ⟨t, List.mem_append_right _ ht, e⟩

theorem loop_eq (ty maxV : Int) : ∀ (ps : List Poly) (i : Nat) (st : List Triangle × List TriPoint),
    (∀ p ∈ ps, 3 ≤ p.pts.length) →
    triangulateLoop ty maxV i (ps.map .ok) st =
      .ok (st.1 ++ (madeTris maxV (maxIdx Triangle.index st.1) i ps).flatten,
        st.2 ++ madePoints ty maxV i ps)
  | [], i, st, _ => by simp [triangulateLoop, madeTris, madePoints]
  | p :: ps, i, st, h => by
    have h3 := h p List.mem_cons_self
    have ih := loop_eq ty maxV ps (i + 1)
      (st.1 ++ trisOf p (maxIdx Triangle.index st.1) (maxV + i + 2),
        st.2 ++ pointsOf p ty (maxV + i + 2)) fun q hq => h q (List.mem_cons_of_mem _ hq)
    have e : maxV + (i : Int) + 1 + 1 = maxV + i + 2 := by ring
    rw [List.map_cons, triangulateLoop]
    simp only [Except.bind, triangulate_eq h3, e]
    rw [ih, maxIdx_append _ (trisOf_index _ _ _)]
    simp [madeTris, madePoints]

theorem made_index (maxV : Int) : ∀ (ps : List Poly) (nx : Int) (i : Nat),
    (madeTris maxV nx i ps).flatten.map Triangle.index =
      (List.range (madeTris maxV nx i ps).flatten.length).map fun k : Nat => nx + 1 + k
  | [], nx, i => by simp [madeTris]
  | p :: ps, nx, i => by
    rw [madeTris, List.flatten_cons, List.map_append, trisOf_index, made_index, List.length_append,
      List.range_add, List.map_append, List.map_map]
    congr 1
    apply List.map_congr_left
    intro k _
    simp only [Function.comp]
    push_cast
    ring

theorem reindex_eq {l r : List Triangle} {a : Int}
    (hr : r.map Triangle.index = (List.range r.length).map fun k : Nat => a + 1 + k) :
    reindex l.length a (l ++ r) = l ++ r := by
  unfold reindex
  rw [List.take_left, List.drop_left]
  congr 1
  apply List.ext_getElem
  · simp
  · intro k h1 h2
    have : (r.map Triangle.index)[k]'(by simpa using h2) = a + 1 + k := by
      simp [hr]
    rw [List.getElem_map] at this
    rw [List.getElem_mapIdx]
    rw [show (k : Int) + a + 1 = r[k].index by omega]

theorem container_eq (ty : Int) {ps : List Poly} (h : ∀ p ∈ ps, 3 ≤ p.pts.length)
    (st : List Triangle × List TriPoint) :
    triangulateContainer ty (ps.map .ok) st =
      .ok (st.1 ++ (madeTris (maxIdx TriPoint.index st.2) (maxIdx Triangle.index st.1) 0 ps).flatten,
        st.2 ++ madePoints ty (maxIdx TriPoint.index st.2) 0 ps) := by
  unfold triangulateContainer
  rw [loop_eq _ _ _ _ _ h]
  simp only [Except.map]
  rw [reindex_eq (made_index _ _ _ _)]

theorem loop_ok (ty maxV : Int) : ∀ (qs : List (Res Poly)) (i : Nat) (st r),
    triangulateLoop ty maxV i qs st = .ok r →
    ∃ ps : List Poly, qs = ps.map .ok ∧ ∀ p ∈ ps, 3 ≤ p.pts.length
  | [], _, _, _, _ => ⟨[], rfl, by simp⟩
  | q :: qs, i, st, r, h => by
    rw [triangulateLoop] at h
    obtain ⟨p, hp, h⟩ := bind_ok_iff.mp h
    obtain ⟨x, hx, h⟩ := bind_ok_iff.mp h
    obtain ⟨ps, e, g⟩ := loop_ok ty maxV qs _ _ _ h
    refine ⟨p :: ps, by rw [hp, e]; rfl, ?_⟩
    intro y hy
    rcases List.mem_cons.mp hy with rfl | hy
    · exact triangulate_ok hx
    · exact g y hy

theorem container_ok {ty : Int} {qs : List (Res Poly)} {st r}
    (h : triangulateContainer ty qs st = .ok r) :
    ∃ ps : List Poly, qs = ps.map .ok ∧ (∀ p ∈ ps, 3 ≤ p.pts.length) ∧
      r = (st.1 ++ (madeTris (maxIdx TriPoint.index st.2) (maxIdx Triangle.index st.1) 0 ps).flatten,
        st.2 ++ madePoints ty (maxIdx TriPoint.index st.2) 0 ps) := by
  unfold triangulateContainer at h
  cases hl : triangulateLoop ty (maxIdx TriPoint.index st.2) 0 qs st with
  | error e => rw [hl] at h; simp [Except.map] at h
  | ok x =>
    obtain ⟨ps, rfl, g⟩ := loop_ok _ _ _ _ _ _ hl
    refine ⟨ps, rfl, g, ?_⟩
    have := container_eq ty g st
    unfold triangulateContainer at this
    rw [h] at this
    simpa using this

theorem made_fans (ty maxV : Int) : ∀ (ps : List Poly) (nx : Int) (i : Nat),
    (∀ p ∈ ps, 3 ≤ p.pts.length) →
    List.Forall₂ (fun p fan => (∀ t ∈ fan, t.parentsurf = p.parent ∧ t.celltarg = p.celltarg ∧
        t.influence = p.influence) ∧
      ∃ c, FanOf p.pts (fan.map corners) (3, c) ∧ (3 < p.pts.length →
        (⟨c, p.parent, ty⟩ : TriPoint) ∈ madePoints ty maxV i ps)) ps (madeTris maxV nx i ps)
  | [], _, _, _ => List.Forall₂.nil
  | p :: ps, nx, i, h => by
    refine List.Forall₂.cons ⟨fun t ht => trisOf_parent ht, maxV + i + 2,
      trisOf_fan (h p List.mem_cons_self) _ _, fun h3 => ?_⟩ ?_
    · simp [madePoints, pointsOf, h3]
    · refine (made_fans ty maxV ps _ (i + 1) fun q hq => h q (List.mem_cons_of_mem _ hq)).imp ?_
      rintro q fan ⟨h1, c, h2, h3⟩
      exact ⟨h1, c, h2, fun h4 => List.mem_append_right _ (h3 h4)⟩

theorem made_points (ty maxV : Int) : ∀ (ps : List Poly) (i : Nat),
    ((madePoints ty maxV i ps).map TriPoint.index).Nodup ∧
    ∀ q ∈ madePoints ty maxV i ps, maxV + i + 2 ≤ q.index ∧ q.parentType = ty ∧
      ∃ p ∈ ps, 3 < p.pts.length ∧ q.parentsurf = p.parent
  | [], _ => by simp [madePoints]
  | p :: ps, i => by
    obtain ⟨h1, h2⟩ := made_points ty maxV ps (i + 1)
    rw [madePoints]
    unfold pointsOf
    split_ifs with h3
    · rw [List.singleton_append]
      refine ⟨?_, ?_⟩
      · rw [List.map_cons, List.nodup_cons]
        refine ⟨?_, h1⟩
        intro hm
        obtain ⟨q, hq, e⟩ := List.mem_map.mp hm
        have := (h2 q hq).1
        push_cast at this
        simp only at e
        omega
      · intro q hq
        rcases List.mem_cons.mp hq with rfl | hq
        · exact ⟨le_refl _, rfl, p, List.mem_cons_self, h3, rfl⟩
        · obtain ⟨g1, g2, x, hx, g3⟩ := h2 q hq
          push_cast at g1
          exact ⟨by omega, g2, x, List.mem_cons_of_mem _ hx, g3⟩
    · rw [List.nil_append]
      refine ⟨h1, fun q hq => ?_⟩
      obtain ⟨g1, g2, x, hx, g3⟩ := h2 q hq
      push_cast at g1
      exact ⟨by omega, g2, x, List.mem_cons_of_mem _ hx, g3⟩

/-- Moving a triangle changes the volume of its cone by its boundary only. -/
theorem volume_move (x p q r : Fin 3 → ℝ) :
    coneVolume (p + x) (q + x) (r + x) = coneVolume p q r +
      (triple x p q + (triple x q r + triple x r p)) / 6 := by
  simp [coneVolume, triple, crossProduct, dotProduct, Fin.sum_univ_three]
  ring

theorem triple_alternating (x : Fin 3 → ℝ) (pos : α → Fin 3 → ℝ) :
    Alternating fun a b => triple x (pos a) (pos b) := by
  intro a b
  simp [triple, crossProduct, dotProduct, Fin.sum_univ_three]
  ring

theorem listVolume_move (x : Fin 3 → ℝ) (pos : α → Fin 3 → ℝ) {l : List α} (hl : l.length = 3) :
    listVolume (l.map fun a => pos a + x) = listVolume (l.map pos) +
      circulation (fun a b => triple x (pos a) (pos b)) l / 6 := by
  match l, hl with
  | [a, b, c], _ =>
    rw [circulation_three]
    exact volume_move x (pos a) (pos b) (pos c)

theorem fan_three {pts : List α} {tris : List (List α)} {c : α} (h : FanOf pts tris c) :
    ∀ t ∈ tris, t.length = 3 := by
  rintro t ht
  rcases h with ⟨h3, rfl⟩ | ⟨_, rfl⟩
  · rw [List.mem_singleton] at ht; rw [ht, h3]
  · obtain ⟨e, -, rfl⟩ := List.mem_map.mp ht; rfl

theorem fan_boundary {φ : α → α → ℝ} (hφ : Alternating φ) {pts : List α} {tris : List (List α)} {c : α}
    (h : FanOf pts tris c) : (tris.map (circulation φ)).sum = circulation φ pts := by
  rcases h with ⟨_, rfl⟩ | ⟨_, rfl⟩
  · simp
  · rw [List.map_map]; exact fan_circulation hφ pts c

theorem fan_move (x : Fin 3 → ℝ) (pos : α → Fin 3 → ℝ) {pts : List α} {tris : List (List α)} {c : α}
    (h : FanOf pts tris c) :
    (tris.map fun t => listVolume (t.map fun a => pos a + x)).sum =
      (tris.map fun t => listVolume (t.map pos)).sum +
        circulation (fun a b => triple x (pos a) (pos b)) pts / 6 := by
  rw [← fan_boundary (triple_alternating x pos) h]
  have h3 := fan_three h
  clear h
  induction tris with
  | nil => simp
  | cons t ts ih =>
    simp only [List.map_cons, List.sum_cons]
    rw [ih fun u hu => h3 u (List.mem_cons_of_mem _ hu), listVolume_move x pos (h3 t List.mem_cons_self)]
    ring

end RSVS.Triang
