import Mathlib.Tactic.Ring
import Mathlib.Tactic.IntervalCases
import Verif.Lemmas.Coarsen
import Verif.Spec.TetMesh

/-!
# Lemmas about the mesh of a tetrahedral mesher
-/

namespace RSVS.TetMesh

open RSVS.Spec

theorem foldlM_state {σ β : Type} (f : σ → β → Res σ) (S : List β → σ) : ∀ (l pre : List β),
    (∀ p b q, pre ++ l = p ++ b :: q → f (S p) b = .ok (S (p ++ [b]))) → l.foldlM (m := Except Fault) f (S pre) = .ok (S (pre ++ l))
  | [], pre, _ => by rw [List.append_nil]; rfl
  | b :: l, pre, h => by
    rw [List.foldlM_cons, h pre b l rfl]
    have := foldlM_state f S l (pre ++ [b]) (by intro p c q e; exact h p c q (by rw [← e]; simp))
    simp only [List.append_assoc, List.singleton_append] at this
    exact this

theorem foldlM_mem {σ β : Type} (f : σ → β → Res σ) (S : List β → σ) (l : List β)
    (h : ∀ p, ∀ b ∈ l, f (S p) b = .ok (S (p ++ [b]))) : l.foldlM (m := Except Fault) f (S []) = .ok (S l) :=
  foldlM_state f S l [] fun p b q e => h p b (by rw [List.nil_append] at e; rw [e]; simp)

theorem modAt_range {α : Type} {n : Nat} {g : Nat → α} {f : α → α} {p : Int} {q : Nat} (hp : p = q) (hq : q < n) :
    modAt ((List.range n).map g) p f = .ok ((List.range n).map fun k => if k = q then f (g k) else g k) := by
  subst hp
  unfold modAt
  rw [if_neg (by omega), Int.toNat_natCast, if_pos (by simpa using hq)]
  congr 1
  apply List.ext_getElem
  · simp
  · intro i h1 h2
    rw [List.getElem_modify]
    simp only [List.getElem_map, List.getElem_range]
    by_cases e : q = i
    · subst e; simp
    · rw [if_neg e, if_neg (fun k => e k.symm)]

theorem vecGet_getD {α : Type} {l : List α} {i : Nat} (d : α) (h : i < l.length) : vecGet l (i : Int) = .ok (l.getD i d) := by
  unfold vecGet
  rw [if_neg (by omega), Int.toNat_natCast, List.getElem?_eq_getElem h]
  simp [List.getElem?_eq_getElem h]

theorem mem_slots {n c : Nat} {s : Nat × Nat} : s ∈ slots n c ↔ s.1 < n ∧ s.2 < c := by
  unfold slots
  simp only [List.mem_flatMap, List.mem_range, List.mem_map]
  constructor
  · rintro ⟨i, hi, j, hj, rfl⟩; exact ⟨hi, hj⟩
  · rintro ⟨h1, h2⟩; exact ⟨s.1, h1, s.2, h2, rfl⟩

variable (t : TetOut) (l : List Int)

/-- The entries for a turn. -/
def ev (s : Nat × Nat) : Int := t.edgelist.getD (s.1 * 2 + s.2) 0
def fe (s : Nat × Nat) : Int := t.face2edgelist.getD (s.1 * 3 + s.2) 0
def tf (s : Nat × Nat) : Int := l.getD (s.1 * 4 + s.2) 0

/-- The element with the given position in the list that the turn names. -/
abbrev names (f : Nat × Nat → Int) (k : Nat) (s : Nat × Nat) : Bool := f s + deincr t.firstnumber = k

/-- A vertex after the turns `cs` and the edges `es`. -/
def vertAt (cs es : List (Nat × Nat)) (k : Nat) : Vert where
  index := (k : Int) + 1
  edgeind := (es.filter (names t (ev t) k)).map fun s => (s.1 : Int) + 1
  coord := (List.range 3).map fun j => if (k, j) ∈ cs then t.pointlist.getD (k * 3 + j) 0 else 0

/-- An edge after the edges `is` and the faces `fs`. -/
def edgeAt (is : List Nat) (fs : List (Nat × Nat)) (k : Nat) : Edge where
  index := (k : Int) + 1
  vertind := if k ∈ is then [ev t (k, 0) + incr t.firstnumber, ev t (k, 1) + incr t.firstnumber] else []
  surfind := (fs.filter (names t (fe t) k)).map fun s => (s.1 : Int) + 1

/-- A face after the tetrahedra `ts`. -/
def triAt (ts : List (Nat × Nat)) (k : Nat) : Surf where
  index := (k : Int) + 1
  edgeind := []
  voluind := (ts.filter (names t (tf l) k)).map fun s => (s.1 : Int) + 1

/-- A face at the end, after the faces `fs`. -/
def surfAt (ts fs : List (Nat × Nat)) (k : Nat) : Surf where
  index := (k : Int) + 1
  edgeind := (fs.filter fun s => s.1 = k).map fun s => fe t s + incr t.firstnumber
  voluind := (ts.filter (names t (tf l) k)).map (fun s => (s.1 : Int) + 1) ++ if (ts.filter (names t (tf l) k)).length = 1 then [0] else []

def voluAt (ts : List (Nat × Nat)) (k : Nat) : Volu where
  index := (k : Int) + 1
  surfind := (ts.filter fun s => s.1 = k).map fun s => tf l s + incr t.firstnumber

variable {t l}

theorem coords_ok (h : TetValid t l) : (slots t.numberofpoints 3).foldlM (m := Except Fault) (coordStep t) (start t) =
    .ok { start t with verts := (List.range t.numberofpoints).map (vertAt t (slots t.numberofpoints 3) []) } := by
  have h0 : start t = { start t with verts := (List.range t.numberofpoints).map (vertAt t [] []) } := by
    have : (start t).verts = (List.range t.numberofpoints).map (vertAt t [] []) := by
      unfold start
      apply List.map_congr_left
      intro k _
      simp [vertAt, List.range_succ]
    rw [← this]
  rw [h0]
  refine foldlM_mem (coordStep t) (fun p => { start t with verts := (List.range t.numberofpoints).map (vertAt t p []) }) _ fun p s hs => ?_
  obtain ⟨h1, h2⟩ := mem_slots.mp hs
  have := h.points
  unfold coordStep
  rw [vecGet_getD 0 (by omega : s.1 * 3 + s.2 < t.pointlist.length)]
  simp only [Except.bind]
  rw [modAt_range rfl h1]
  simp only [Except.map]
  congr 2
  apply List.map_congr_left
  intro k _
  by_cases e : k = s.1
  · rw [if_pos e]
    subst e
    simp only [vertAt, Vert.mk.injEq, true_and, and_true]
    apply List.ext_getElem
    · simp
    · intro j hj1 hj2
      rw [List.getElem_set]
      simp only [List.getElem_map, List.getElem_range, List.mem_append, List.mem_singleton]
      by_cases ej : s.2 = j
      · rw [if_pos ej, if_pos (Or.inr (by rw [← ej]))]
        rw [ej]
      · rw [if_neg ej]
        have : (s.1, j) ≠ s := fun q => ej (by rw [← q])
        simp [this]
  · rw [if_neg e]
    have : ∀ j, (k, j) ≠ s := fun j q => e (by rw [← q])
    simp [vertAt, this]

theorem deincr_eq (h : TetValid t l) (x : Int) : x + deincr t.firstnumber = x - t.firstnumber := by
  unfold deincr
  rcases h.first with e | e <;> simp [e]
  rfl

theorem incr_eq (h : TetValid t l) (x : Int) : x + incr t.firstnumber = x - t.firstnumber + 1 := by
  unfold incr
  rcases h.first with e | e <;> simp [e]

/-- A number in range is that of a position. -/
theorem range_pos (h : TetValid t l) {n c : Nat} {a : List Int} (ha : InRange t.firstnumber n a c) {k : Nat} (hk : k < c) :
    ∃ q : Nat, a.getD k 0 + deincr t.firstnumber = q ∧ q < n := by
  obtain ⟨h1, h2⟩ := ha.2 k hk
  refine ⟨(a.getD k 0 - t.firstnumber).toNat, ?_, by omega⟩
  rw [deincr_eq h]
  omega

/-- The mesh after the coordinates and the edges `is`. -/
def midEdges (t : TetOut) (is : List Nat) : Mesh :=
  { start t with verts := (List.range t.numberofpoints).map (vertAt t (slots t.numberofpoints 3) (is.flatMap fun i => [(i, 0), (i, 1)])),
                 edges := (List.range t.numberofedges).map (edgeAt t is []) }

theorem vertStep_ok (h : TetValid t l) (m : Mesh) (cs es : List (Nat × Nat)) (s : Nat × Nat) (h1 : s.1 < t.numberofedges) (h2 : s.2 < 2)
    (hm : m.verts = (List.range t.numberofpoints).map (vertAt t cs es)) :
    vertStep t m s = .ok { m with verts := (List.range t.numberofpoints).map (vertAt t cs (es ++ [s])) } := by
  have hl := h.edges.1
  obtain ⟨q, hq, hqn⟩ := range_pos h h.edges (k := s.1 * 2 + s.2) (by omega)
  unfold vertStep
  rw [vecGet_getD 0 (by omega : s.1 * 2 + s.2 < t.edgelist.length)]
  simp only [Except.bind]
  rw [hm, modAt_range hq hqn]
  simp only [Except.map]
  congr 2
  apply List.map_congr_left
  intro k _
  have hev : ev t s + deincr t.firstnumber = q := hq
  by_cases e : k = q
  · rw [if_pos e]
    subst e
    simp [vertAt, List.filter_append, names, hev]
  · rw [if_neg e]
    have : ¬ (q : Int) = k := by omega
    simp [vertAt, List.filter_append, names, hev, this]

theorem edges_ok (h : TetValid t l) : (List.range t.numberofedges).foldlM (m := Except Fault) (edgeStep t)
    { start t with verts := (List.range t.numberofpoints).map (vertAt t (slots t.numberofpoints 3) []) } = .ok (midEdges t (List.range t.numberofedges)) := by
  have h0 : { start t with verts := (List.range t.numberofpoints).map (vertAt t (slots t.numberofpoints 3) []) } = midEdges t [] := by
    unfold midEdges start
    simp only [Mesh.mk.injEq, List.flatMap_nil, true_and, and_true]
    apply List.map_congr_left
    intro k _
    simp [edgeAt]
  rw [h0]
  refine foldlM_mem (edgeStep t) (midEdges t) _ fun p i hi => ?_
  have hi := List.mem_range.mp hi
  have hl := h.edges.1
  unfold edgeStep endStep
  rw [vecGet_getD 0 (by omega : i * 2 < t.edgelist.length), vecGet_getD 0 (by omega : i * 2 + 1 < t.edgelist.length)]
  simp only [Except.bind]
  have he : (midEdges t p).edges = (List.range t.numberofedges).map (edgeAt t p []) := rfl
  rw [he, modAt_range rfl hi]
  simp only [Except.map, List.foldlM_cons, List.foldlM_nil]
  rw [vertStep_ok h _ (slots t.numberofpoints 3) (p.flatMap fun i => [(i, 0), (i, 1)]) (i, 0) hi (by simp) rfl]
  simp only [bind, Except.bind]
  rw [vertStep_ok h _ (slots t.numberofpoints 3) ((p.flatMap fun i => [(i, 0), (i, 1)]) ++ [(i, 0)]) (i, 1) hi (by simp) rfl]
  simp only [pure, Except.pure, midEdges]
  congr 1
  simp only [Mesh.mk.injEq, List.flatMap_append, List.flatMap_cons, List.flatMap_nil, List.append_nil, List.append_assoc, List.cons_append, List.nil_append,
    true_and, and_true]
  apply List.map_congr_left
  intro k _
  by_cases e : k = i
  · rw [if_pos e]
    subst e
    simp [edgeAt, ev]
  · rw [if_neg e]
    simp [edgeAt, e]

/-- The mesh after the edges and the tetrahedra `ts`. -/
def midVolus (t : TetOut) (l : List Int) (ts : List (Nat × Nat)) : Mesh :=
  { midEdges t (List.range t.numberofedges) with
    surfs := (List.range t.numberoftrifaces).map (triAt t l ts), volus := (List.range t.numberoftetrahedra).map (voluAt t l ts) }

theorem volus_ok (h : TetValid t l) : (slots t.numberoftetrahedra 4).foldlM (m := Except Fault) (voluStep t l) (midEdges t (List.range t.numberofedges)) =
    .ok (midVolus t l (slots t.numberoftetrahedra 4)) := by
  have h0 : midEdges t (List.range t.numberofedges) = midVolus t l [] := by
    unfold midVolus midEdges start
    simp only [Mesh.mk.injEq, true_and, and_true]
    constructor <;> (apply List.map_congr_left; intro k _; simp [triAt, voluAt])
  rw [h0]
  refine foldlM_mem (voluStep t l) (midVolus t l) _ fun p s hs => ?_
  obtain ⟨h1, h2⟩ := mem_slots.mp hs
  have hl := h.tets.1
  obtain ⟨q, hq, hqn⟩ := range_pos h h.tets (k := s.1 * 4 + s.2) (by omega)
  unfold voluStep
  rw [vecGet_getD 0 (by omega : s.1 * 4 + s.2 < l.length)]
  simp only [Except.bind]
  have e1 : (midVolus t l p).volus = (List.range t.numberoftetrahedra).map (voluAt t l p) := rfl
  have e2 : (midVolus t l p).surfs = (List.range t.numberoftrifaces).map (triAt t l p) := rfl
  rw [e1, modAt_range rfl h1]
  simp only
  rw [e2, modAt_range hq hqn]
  simp only [Except.map, midVolus]
  congr 2
  · apply List.map_congr_left
    intro k _
    have hev : tf l s + deincr t.firstnumber = q := hq
    by_cases e : k = q
    · rw [if_pos e]
      subst e
      simp [triAt, List.filter_append, names, hev]
    · rw [if_neg e]
      have : ¬ (q : Int) = k := by omega
      simp [triAt, List.filter_append, names, hev, this]
  · apply List.map_congr_left
    intro k _
    by_cases e : k = s.1
    · rw [if_pos e]
      subst e
      simp [voluAt, List.filter_append, tf]
    · rw [if_neg e]
      have : ¬ s.1 = k := fun q => e q.symm
      simp [voluAt, List.filter_append, this]

/-- The mesh after the tetrahedra and the faces `fs`. -/
def midSurfs (t : TetOut) (l : List Int) (fs : List (Nat × Nat)) : Mesh :=
  { midVolus t l (slots t.numberoftetrahedra 4) with
    surfs := (List.range t.numberoftrifaces).map (surfAt t l (slots t.numberoftetrahedra 4) fs),
    edges := (List.range t.numberofedges).map (edgeAt t (List.range t.numberofedges) fs) }

theorem surfs_ok (h : TetValid t l) : (slots t.numberoftrifaces 3).foldlM (m := Except Fault) (surfStep t)
    (outside (midVolus t l (slots t.numberoftetrahedra 4))) = .ok (midSurfs t l (slots t.numberoftrifaces 3)) := by
  have h0 : outside (midVolus t l (slots t.numberoftetrahedra 4)) = midSurfs t l [] := by
    unfold outside midSurfs
    simp only [Mesh.mk.injEq, true_and, and_true]
    refine ⟨rfl, ?_⟩
    show List.map _ (List.map _ _) = _
    rw [List.map_map]
    apply List.map_congr_left
    intro k _
    simp only [Function.comp, triAt, surfAt, List.length_map, List.filter_nil, List.map_nil]
    split_ifs <;> simp
  rw [h0]
  refine foldlM_mem (surfStep t) (midSurfs t l) _ fun p s hs => ?_
  obtain ⟨h1, h2⟩ := mem_slots.mp hs
  have hl := h.tris.1
  obtain ⟨q, hq, hqn⟩ := range_pos h h.tris (k := s.1 * 3 + s.2) (by omega)
  unfold surfStep
  rw [vecGet_getD 0 (by omega : s.1 * 3 + s.2 < t.face2edgelist.length)]
  simp only [Except.bind]
  have e1 : (midSurfs t l p).surfs = (List.range t.numberoftrifaces).map (surfAt t l (slots t.numberoftetrahedra 4) p) := rfl
  have e2 : (midSurfs t l p).edges = (List.range t.numberofedges).map (edgeAt t (List.range t.numberofedges) p) := rfl
  rw [e1, modAt_range rfl h1]
  simp only
  rw [e2, modAt_range hq hqn]
  simp only [Except.map, midSurfs]
  congr 2
  · apply List.map_congr_left
    intro k _
    have hev : fe t s + deincr t.firstnumber = q := hq
    by_cases e : k = q
    · rw [if_pos e]
      subst e
      simp [edgeAt, List.filter_append, names, hev]
    · rw [if_neg e]
      have : ¬ (q : Int) = k := by omega
      simp [edgeAt, List.filter_append, names, hev, this]
  · apply List.map_congr_left
    intro k _
    by_cases e : k = s.1
    · rw [if_pos e]
      subst e
      simp [surfAt, List.filter_append, fe]
    · rw [if_neg e]
      have : ¬ s.1 = k := fun q => e q.symm
      simp [surfAt, List.filter_append, this]

theorem loops_ok (h : TetValid t l) (rand : Nat → ℚ) : loops t l rand = .ok (fills rand (midSurfs t l (slots t.numberoftrifaces 3))) := by
  unfold loops
  rw [coords_ok h]
  simp only [Except.bind]
  rw [edges_ok h]
  simp only
  rw [volus_ok h]
  simp only
  rw [surfs_ok h]
  rfl

end RSVS.TetMesh
