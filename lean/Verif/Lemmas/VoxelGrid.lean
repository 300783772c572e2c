import Verif.Lemmas.Voxel
import Verif.Spec.Mesh

/-!
# Lemmas on block grids: incidence
-/

namespace RSVS.Voxel

open RSVS.Spec

/-! ### The elements by family and position -/

def surfVolus (d : Dims) (i : Fin 3) (p : Pos) : List Int :=
  [if (p 0 ≥ d 0 ∨ p 1 ≥ d 1 ∨ p 2 ≥ d 2) then 0 else voluNum d p,
   if (subProp p i 0 < 0 ∨ subProp p i 1 < 0 ∨ subProp p i 2 < 0) then 0
   else voluNum d (subProp p i)]

def surfEdges (d : Dims) (i : Fin 3) (p : Pos) : List Int :=
  [edgeNum d (currDim i).1 p, edgeNum d (currDim i).2 (fun j => p j + unit (currDim i).1 j),
   edgeNum d (currDim i).1 (fun j => p j + unit (currDim i).2 j), edgeNum d (currDim i).2 p]

def voluSurfs (d : Dims) (p : Pos) : List Int :=
  [surfNum d 0 p, surfNum d 1 p, surfNum d 2 p,
   surfNum d 0 (addProp p 0), surfNum d 1 (addProp p 1), surfNum d 2 (addProp p 2)]

def edgeVerts (d : Dims) (k : Fin 3) (p : Pos) : List Int :=
  [vertNum d p, vertNum d (fun j => p j + 1 - edgeProp k j)]

def edgeSurfs (d : Dims) (k : Fin 3) (p : Pos) : List Int :=
  (edgeSurfRows d k p).map (fun r => surfNum d r.1 r.2) ++
    List.replicate (2 - ((edgeSurfRows d k p).map (fun r => surfNum d r.1 r.2)).length) 0

def vertRows (p : Pos) : List (Fin 3 × Pos) :=
  [(0, p), (1, p), (2, p), (0, fun j => p j - unit 0 j), (1, fun j => p j - unit 1 j),
   (2, fun j => p j - unit 2 j)]

def vertEdges (d : Dims) (p : Pos) : List Int :=
  ((vertRows p).filter (fun r => inRange (matEdge d r.1) r.2)).map (fun r => edgeNum d r.1 r.2)

def vertCoord (d : Dims) (p : Pos) : List ℚ :=
  [(p 0 : ℚ) / (max (d 0) 1 : Nat), (p 1 : ℚ) / (max (d 1) 1 : Nat), (p 2 : ℚ) / (max (d 2) 1 : Nat)]

def voluOf (d : Dims) (p : Pos) : Volu := { index := voluNum d p, surfind := voluSurfs d p }
def surfOf (d : Dims) (i : Fin 3) (p : Pos) : Surf :=
  { index := surfNum d i p, voluind := surfVolus d i p, edgeind := surfEdges d i p }
def edgeOf (d : Dims) (k : Fin 3) (p : Pos) : Edge :=
  { index := edgeNum d k p, vertind := edgeVerts d k p, surfind := edgeSurfs d k p }
def vertOf (d : Dims) (p : Pos) : Vert :=
  { index := vertNum d p, coord := vertCoord d p, edgeind := vertEdges d p }

theorem mem_of_bound {n : Nat} {x : Int} (h0 : 0 < x) (h1 : x ≤ n) :
    ∃ ii : Nat, ii < n ∧ (ii : Int) + 1 = x := ⟨(x - 1).toNat, by omega, by omega⟩

theorem mem_volus {d : Dims} (h : Small d) {x : Volu} :
    x ∈ (blockGrid d).volus ↔ ∃ p, Box d p ∧ x = voluOf d p := by
  constructor
  · intro hx
    obtain ⟨ii, hii, rfl⟩ := List.mem_map.mp hx
    obtain ⟨hb, hn⟩ := volu_pos h (List.mem_range.mp hii)
    refine ⟨_, hb, ?_⟩
    show _ = (⟨_, _, _, _, _, _⟩ : Volu)
    rw [hn]; rfl
  · rintro ⟨p, hb, rfl⟩
    have h0 : 0 < voluNum d p := by have := lin_nonneg hb; unfold voluNum; omega
    have h1 : voluNum d p ≤ nVolu d := by have := lin_lt hb; unfold voluNum nVolu; omega
    obtain ⟨ii, hii, he⟩ := mem_of_bound h0 h1
    obtain ⟨hb', hn⟩ := volu_pos h hii
    have hp : posAt 24 d ii = p := lin_inj hb' hb (by unfold voluNum at hn he; omega)
    refine List.mem_map.mpr ⟨ii, List.mem_range.mpr hii, ?_⟩
    show (⟨_, _, _, _, _, _⟩ : Volu) = _
    rw [he]
    simp only [hp]; rfl

theorem mem_verts {d : Dims} (h : Small d) {x : Vert} :
    x ∈ (blockGrid d).verts ↔ ∃ p, Box (vDims d) p ∧ x = vertOf d p := by
  constructor
  · intro hx
    obtain ⟨ii, hii, rfl⟩ := List.mem_map.mp hx
    obtain ⟨hb, hn⟩ := vert_pos h (List.mem_range.mp hii)
    refine ⟨_, hb, ?_⟩
    show _ = (⟨_, _, _, _⟩ : Vert)
    rw [hn]; rfl
  · rintro ⟨p, hb, rfl⟩
    have h0 : 0 < vertNum d p := by have := lin_nonneg hb; unfold vertNum; omega
    have h1 : vertNum d p ≤ nVert d := by have := lin_lt hb; unfold vertNum nVert; omega
    obtain ⟨ii, hii, he⟩ := mem_of_bound h0 h1
    obtain ⟨hb', hn⟩ := vert_pos h hii
    have hp : posAt 24 (vDims d) ii = p := lin_inj hb' hb (by unfold vertNum at hn he; omega)
    refine List.mem_map.mpr ⟨ii, List.mem_range.mpr hii, ?_⟩
    show (⟨_, _, _, _⟩ : Vert) = _
    rw [he]
    simp only [hp]; rfl

theorem mem_surfs {d : Dims} (h : Small d) {x : Surf} :
    x ∈ (blockGrid d).surfs ↔ ∃ i p, Box (matSurf d i) p ∧ x = surfOf d i p := by
  constructor
  · intro hx
    obtain ⟨ii, hii, rfl⟩ := List.mem_map.mp hx
    obtain ⟨hb, hn⟩ := surf_pos h (List.mem_range.mp hii)
    refine ⟨_, _, hb, ?_⟩
    unfold surfOf
    rw [hn]; rfl
  · rintro ⟨i, p, hb, rfl⟩
    have h0 : 0 < surfNum d i p := num_pos hb
    have h1 : surfNum d i p ≤ nSurf d := num_le hb
    obtain ⟨ii, hii, he⟩ := mem_of_bound h0 h1
    obtain ⟨hb', hn⟩ := surf_pos h hii
    obtain ⟨e1, e2⟩ := num_inj (mat := matSurf d) hb' hb (hn.trans he)
    refine List.mem_map.mpr ⟨ii, List.mem_range.mpr hii, ?_⟩
    unfold surfOf
    rw [← he]
    unfold blockSurf
    simp only [e2]
    rw [e1]
    rfl

theorem mem_edges {d : Dims} (h : Small d) {x : Edge} :
    x ∈ (blockGrid d).edges ↔ ∃ i p, Box (matEdge d i) p ∧ x = edgeOf d i p := by
  constructor
  · intro hx
    obtain ⟨ii, hii, rfl⟩ := List.mem_map.mp hx
    obtain ⟨hb, hn⟩ := edge_pos h (List.mem_range.mp hii)
    refine ⟨_, _, hb, ?_⟩
    unfold edgeOf
    rw [hn]; rfl
  · rintro ⟨i, p, hb, rfl⟩
    have h0 : 0 < edgeNum d i p := num_pos hb
    have h1 : edgeNum d i p ≤ nEdge d := num_le hb
    obtain ⟨ii, hii, he⟩ := mem_of_bound h0 h1
    obtain ⟨hb', hn⟩ := edge_pos h hii
    obtain ⟨e1, e2⟩ := num_inj (mat := matEdge d) hb' hb (hn.trans he)
    refine List.mem_map.mpr ⟨ii, List.mem_range.mpr hii, ?_⟩
    unfold edgeOf
    rw [← he]
    unfold blockEdge
    simp only [e2]
    rw [e1]
    rfl

/-! ### Incidence by position -/

/-- The direction which is neither of the two. -/
def third (a b : Fin 3) : Fin 3 := 
  if a ≠ 0 ∧ b ≠ 0 then 0 else if a ≠ 1 ∧ b ≠ 1 then 1 else 2

/-- The normal of a family of surfaces. -/
def normal (i : Fin 3) : Fin 3 := if i = 0 then 2 else if i = 1 then 1 else 0

theorem box_iff {m : Dims} {p : Pos} : Box m p ↔
    (0 ≤ p 0 ∧ p 0 < m 0) ∧ (0 ≤ p 1 ∧ p 1 < m 1) ∧ (0 ≤ p 2 ∧ p 2 < m 2) := by
  constructor
  · intro h; exact ⟨h 0, h 1, h 2⟩
  · rintro ⟨h0, h1, h2⟩ j
    fin_cases j
    · exact h0
    · exact h1
    · exact h2

theorem pos_ext {p q : Pos} : p = q ↔ p 0 = q 0 ∧ p 1 = q 1 ∧ p 2 = q 2 := by
  constructor
  · rintro rfl; exact ⟨rfl, rfl, rfl⟩
  · rintro ⟨h0, h1, h2⟩
    funext j
    fin_cases j
    · exact h0
    · exact h1
    · exact h2

theorem inRange_iff {m : Dims} {p : Pos} : inRange m p = true ↔ Box m p := by
  rw [box_iff]
  unfold inRange
  rw [decide_eq_true_iff]
  omega

theorem unit_self (k : Fin 3) : unit k k = 1 := by simp [unit]

/-- Surfaces around a cell. -/
def SurfAtVolu (i : Fin 3) (p q : Pos) : Prop := p = q ∨ p = addProp q i

/-- Edges around a surface. -/
def EdgeAtSurf (k : Fin 3) (r : Pos) (i : Fin 3) (p : Pos) : Prop :=
  k ≠ normal i ∧ (r = p ∨ r = fun j => p j + unit (third k (normal i)) j)

/-- Vertices of an edge. -/
def VertAtEdge (q : Pos) (k : Fin 3) (r : Pos) : Prop := q = r ∨ q = fun j => r j + unit k j

theorem box_volu_surf {d : Dims} {q : Pos} (h : Box d q) (i : Fin 3) :
    Box (matSurf d i) q ∧ Box (matSurf d i) (addProp q i) := by
  simp only [box_iff] at *
  fin_cases i <;> simp [matSurf, surfProp, addProp] at * <;> omega

theorem mem_voluSurfs {d : Dims} {q : Pos} (h : Box d q) {i : Fin 3} {p : Pos}
    (hp : Box (matSurf d i) p) : surfNum d i p ∈ voluSurfs d q ↔ SurfAtVolu i p q := by
  unfold voluSurfs
  simp only [List.mem_cons, List.not_mem_nil, or_false, surfNum_eq]
  rw [num_iff hp (box_volu_surf h 0).1, num_iff hp (box_volu_surf h 1).1,
    num_iff hp (box_volu_surf h 2).1, num_iff hp (box_volu_surf h 0).2,
    num_iff hp (box_volu_surf h 1).2, num_iff hp (box_volu_surf h 2).2]
  unfold SurfAtVolu
  fin_cases i <;> simp

theorem voluNum_pos {d : Dims} {p : Pos} (h : Box d p) : 0 < voluNum d p := by
  have := lin_nonneg h; unfold voluNum; omega

theorem vertNum_pos {d : Dims} {p : Pos} (h : Box (vDims d) p) : 0 < vertNum d p := by
  have := lin_nonneg h; unfold vertNum; omega

theorem voluNum_iff {d : Dims} {p q : Pos} (hp : Box d p) (hq : Box d q) :
    voluNum d p = voluNum d q ↔ p = q :=
  ⟨fun h => lin_inj hp hq (by unfold voluNum at h; omega), fun h => by rw [h]⟩

theorem vertNum_iff {d : Dims} {p q : Pos} (hp : Box (vDims d) p) (hq : Box (vDims d) q) :
    vertNum d p = vertNum d q ↔ p = q :=
  ⟨fun h => lin_inj hp hq (by unfold vertNum at h; omega), fun h => by rw [h]⟩

/-- The cell in front of a surface, if there is one. -/
theorem front {d : Dims} {i : Fin 3} {p : Pos} (hp : Box (matSurf d i) p) :
    ¬ (p 0 ≥ d 0 ∨ p 1 ≥ d 1 ∨ p 2 ≥ d 2) ↔ Box d p := by
  simp only [box_iff] at *
  omega

/-- The cell behind a surface, if there is one. -/
theorem behind {d : Dims} {i : Fin 3} {p : Pos} (hp : Box (matSurf d i) p) :
    ¬ (subProp p i 0 < 0 ∨ subProp p i 1 < 0 ∨ subProp p i 2 < 0) ↔ Box d (subProp p i) := by
  simp only [box_iff] at *
  fin_cases i <;> simp [matSurf, surfProp, subProp] at * <;> omega

theorem mem_surfVolus {d : Dims} {i : Fin 3} {p : Pos} (hp : Box (matSurf d i) p) {c : Int} :
    c ∈ surfVolus d i p ↔ (Box d p ∧ c = voluNum d p) ∨ (Box d (subProp p i) ∧ c = voluNum d (subProp p i)) ∨
      (c = 0 ∧ (¬ Box d p ∨ ¬ Box d (subProp p i))) := by
  unfold surfVolus
  rw [← front hp, ← behind hp]
  by_cases h1 : (p 0 ≥ d 0 ∨ p 1 ≥ d 1 ∨ p 2 ≥ d 2) <;>
  by_cases h2 : (subProp p i 0 < 0 ∨ subProp p i 1 < 0 ∨ subProp p i 2 < 0)
  · rw [if_pos h1, if_pos h2]; simp [h1, h2]
  · rw [if_pos h1, if_neg h2]; simp only [List.mem_cons, List.not_mem_nil, or_false]; tauto
  · rw [if_neg h1, if_pos h2]; simp only [List.mem_cons, List.not_mem_nil, or_false]; tauto
  · rw [if_neg h1, if_neg h2]; simp only [List.mem_cons, List.not_mem_nil, or_false]; tauto

theorem surfVolu_pos {d : Dims} {i : Fin 3} {p q : Pos} (hp : Box (matSurf d i) p) (hq : Box d q) :
    voluNum d q ∈ surfVolus d i p ↔ SurfAtVolu i p q := by
  rw [mem_surfVolus hp]
  have h0 := voluNum_pos hq
  have e1 : (Box d p ∧ voluNum d q = voluNum d p) ↔ p = q := by
    constructor
    · rintro ⟨hb, he⟩; exact ((voluNum_iff hq hb).1 he).symm
    · rintro rfl; exact ⟨hq, rfl⟩
  have e2 : (Box d (subProp p i) ∧ voluNum d q = voluNum d (subProp p i)) ↔ p = addProp q i := by
    have e3 : p = addProp q i ↔ subProp p i = q := by
      simp only [pos_ext, addProp, subProp]; omega
    rw [e3]
    constructor
    · rintro ⟨hb, he⟩; exact ((voluNum_iff hq hb).1 he).symm
    · intro h; rw [h]; exact ⟨hq, rfl⟩
  rw [e1, e2]
  unfold SurfAtVolu
  constructor
  · rintro (h | h | ⟨h, -⟩)
    · exact Or.inl h
    · exact Or.inr h
    · omega
  · rintro (h | h)
    · exact Or.inl h
    · exact Or.inr (Or.inl h)

/-- The four edges of a surface are in the grid. -/
theorem box_surf_edge {d : Dims} {i : Fin 3} {p : Pos} (h : Box (matSurf d i) p) :
    Box (matEdge d (currDim i).1) p ∧
    Box (matEdge d (currDim i).2) (fun j => p j + unit (currDim i).1 j) ∧
    Box (matEdge d (currDim i).1) (fun j => p j + unit (currDim i).2 j) ∧
    Box (matEdge d (currDim i).2) p := by
  simp only [box_iff] at *
  fin_cases i <;> simp [matSurf, surfProp, matEdge, edgeProp, unit, currDim, List.finRange] at * <;> omega

theorem mem_surfEdges {d : Dims} {i k : Fin 3} {p r : Pos} (hp : Box (matSurf d i) p)
    (hr : Box (matEdge d k) r) : edgeNum d k r ∈ surfEdges d i p ↔ EdgeAtSurf k r i p := by
  obtain ⟨h1, h2, h3, h4⟩ := box_surf_edge hp
  unfold surfEdges
  simp only [List.mem_cons, List.not_mem_nil, or_false, edgeNum_eq]
  rw [num_iff hr h1, num_iff hr h2, num_iff hr h3, num_iff hr h4]
  unfold EdgeAtSurf
  fin_cases i <;> fin_cases k <;> simp [currDim, List.finRange, normal, third] <;> tauto

theorem mem_edgeSurfRows {d : Dims} {i k : Fin 3} {p r : Pos} (hp : Box (matSurf d i) p) :
    (i, p) ∈ edgeSurfRows d k r ↔ EdgeAtSurf k r i p := by
  have hb : inRange (matSurf d i) p = true := inRange_iff.2 hp
  unfold edgeSurfRows EdgeAtSurf
  rw [List.mem_filter]
  simp only [hb, Bool.true_and, decide_eq_true_iff, List.mem_cons, List.not_mem_nil, or_false,
    Prod.mk.injEq, pos_ext]
  fin_cases i <;> fin_cases k <;>
    simp [edgeMask, indTemp2, currDim, List.finRange, normal, third, unit] <;> omega

theorem mem_edgeSurfs {d : Dims} {i k : Fin 3} {p r : Pos} (hp : Box (matSurf d i) p) :
    surfNum d i p ∈ edgeSurfs d k r ↔ EdgeAtSurf k r i p := by
  have h0 : 0 < surfNum d i p := num_pos hp
  rw [← mem_edgeSurfRows hp]
  unfold edgeSurfs
  rw [List.mem_append, List.mem_map]
  constructor
  · rintro (⟨x, hx, he⟩ | h)
    · have hb : Box (matSurf d x.1) x.2 := by
        unfold edgeSurfRows at hx
        have := (List.mem_filter.mp hx).2
        rw [Bool.and_eq_true] at this
        exact inRange_iff.1 this.1
      obtain ⟨e1, e2⟩ := num_inj (mat := matSurf d) hb hp he
      rw [← e1, ← e2]; exact hx
    · have := (List.mem_replicate.mp h).2
      omega
  · intro h; exact Or.inl ⟨(i, p), h, rfl⟩

theorem mem_edgeSurfs_from {d : Dims} {k : Fin 3} {r : Pos} {s : Int} (h : s ∈ edgeSurfs d k r) :
    s = 0 ∨ ∃ i p, Box (matSurf d i) p ∧ s = surfNum d i p := by
  unfold edgeSurfs at h
  rcases List.mem_append.mp h with h | h
  · obtain ⟨x, hx, he⟩ := List.mem_map.mp h
    right
    unfold edgeSurfRows at hx
    have := (List.mem_filter.mp hx).2
    rw [Bool.and_eq_true] at this
    exact ⟨x.1, x.2, inRange_iff.1 this.1, he.symm⟩
  · exact Or.inl (List.mem_replicate.mp h).2

theorem box_edge_vert {d : Dims} {k : Fin 3} {p : Pos} (h : Box (matEdge d k) p) :
    Box (vDims d) p ∧ Box (vDims d) (fun j => p j + 1 - edgeProp k j) := by
  simp only [box_iff] at *
  fin_cases k <;> simp [matEdge, edgeProp, vDims] at * <;> omega

theorem mem_edgeVerts {d : Dims} {k : Fin 3} {r q : Pos} (hr : Box (matEdge d k) r)
    (hq : Box (vDims d) q) : vertNum d q ∈ edgeVerts d k r ↔ VertAtEdge q k r := by
  obtain ⟨h1, h2⟩ := box_edge_vert hr
  unfold edgeVerts
  simp only [List.mem_cons, List.not_mem_nil, or_false]
  rw [vertNum_iff hq h1, vertNum_iff hq h2]
  unfold VertAtEdge
  simp only [pos_ext]
  fin_cases k <;> simp [edgeProp, unit]

theorem mem_vertEdges {d : Dims} {k : Fin 3} {r q : Pos} (hr : Box (matEdge d k) r) :
    edgeNum d k r ∈ vertEdges d q ↔ VertAtEdge q k r := by
  have key : (k, r) ∈ (vertRows q).filter (fun x => inRange (matEdge d x.1) x.2) ↔ VertAtEdge q k r := by
    have hb : inRange (matEdge d k) r = true := inRange_iff.2 hr
    unfold VertAtEdge vertRows
    rw [List.mem_filter]
    simp only [hb, and_true, List.mem_cons, List.not_mem_nil, or_false, Prod.mk.injEq, pos_ext]
    fin_cases k <;> simp [unit] <;> omega
  rw [← key]
  unfold vertEdges
  rw [List.mem_map]
  constructor
  · rintro ⟨x, hx, he⟩
    obtain ⟨e1, e2⟩ := num_inj (mat := matEdge d) (inRange_iff.1 (List.mem_filter.mp hx).2) hr he
    rw [← e1, ← e2]; exact hx
  · intro h; exact ⟨(k, r), h, rfl⟩

theorem mem_vertEdges_from {d : Dims} {q : Pos} {e : Int} (h : e ∈ vertEdges d q) :
    ∃ k r, Box (matEdge d k) r ∧ e = edgeNum d k r := by
  obtain ⟨x, hx, he⟩ := List.mem_map.mp h
  exact ⟨x.1, x.2, inRange_iff.1 (List.mem_filter.mp hx).2, he.symm⟩

end RSVS.Voxel
