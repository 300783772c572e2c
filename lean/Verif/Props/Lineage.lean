import Verif.Lemmas.Lineage

/-!
# C57 Lineage maps follow parent assignment
# C86 No mesh of the family refers to a destroyed mesh
-/

namespace RSVS.Props

open RSVS.Lineage RSVS.Spec RSVS.Mesh

/-- What the operations make of no meshes at all. -/
def runOps (ops : List Op) : Res Fam := ops.foldlM (m := Except Fault) step fun _ => none

/-- Two meshes of two cells and one of three cells. -/
def threeMeshes : List Op :=
  [.create 1 [1, 2] [{ index := 1, volume := 2 }, { index := 2 }],
   .create 2 [5, 6] [{ index := 5 }, { index := 6, target := 3 }],
   .create 3 [1, 2, 3] [{ index := 1 }, { index := 2 }, { index := 3 }]]

/-- **C57, what holds.**  In a program that gives parents with `AddParent` and a map of all its cells, or with `AddChild` to a mesh
that has a parent already, and that only destroys meshes which are nobody's parent, the parent map of a mesh reports
the given cells: its cases are the cells of the parents, one parent after the other, its values are volume times
target of these cells, and each cell has per generation the position of the case of the cell given for it.

Missing: parents that are destroyed or added without a map, maps that name missing cells, and `AddChild` for a mesh
without parents (below). -/
theorem C57_map_partial {f : Fam} {G : Given} {c : Nat} {n : Node} (h : Careful f G) (hc : f c = some n)
    (he : CellsExist f (G c)) : ∃ r, returnParentMap f c = .ok r ∧ Reports f n.elems (G c) r :=
  ⟨_, careful_map h hc he, careful_reports h hc he⟩

/-- **C57, the sums.**  In such a program with parents that are all different, what the cells of the mesh contribute
is added up, with the map, for each cell of each parent: it is filled with the contributions of the cells it was given
for, and no other mesh changes.  There are as many constraints as cases. -/
theorem C57_sum_partial {f : Fam} {G : Given} {c : Nat} {n : Node} (h : Careful f G) (hc : f c = some n)
    (he : CellsExist f (G c)) (hd : ((G c).map Prod.fst).Nodup) (w : List (Int × ℚ)) :
    ∃ r v f', returnParentMap f c = .ok r ∧ countVoluParent f n = .ok r.cases.length ∧
      accumulate r.pairs w (List.replicate r.cases.length 0) = .ok v ∧ mapToParents n r.cases v f = .ok f' ∧
      (∀ g ∈ G c, ∀ m, f g.1 = some m → f' g.1 = some { m with volus := m.volus.map fun v =>
        { v with fill := Share n.elems g.2 w v.index } }) ∧
      ∀ p, p ∉ (G c).map Prod.fst → f' p = f p :=
  careful_sum h hc he hd w

/-- A family with two generations of parents. -/
theorem careful_example : ∃ f G n, Careful f G ∧ f 3 = some n ∧ G 3 = [(1, [1, 1, 2]), (2, [6, 5, 5])] ∧
    CellsExist f (G 3) ∧ n.elems = [1, 2, 3] := by
  have h1 := Careful.create (x := 1) (elems := [1, 2]) (volus := [{ index := 1, volume := 2 }, { index := 2 }]) .start rfl rfl
  have h2 := Careful.create (x := 2) (elems := [5, 6]) (volus := [{ index := 5 }, { index := 6, target := 3 }]) h1 rfl rfl
  have h3 := Careful.create (x := 3) (elems := [1, 2, 3]) (volus := [{ index := 1 }, { index := 2 }, { index := 3 }]) h2 rfl rfl
  have h4 := Careful.add (c := 3) (p := 1) (ind := [1, 1, 2]) h3 (by simp [put]) (by simp [put]) rfl
  have h5 := Careful.child (c := 3) (p := 2) (ind := [6, 5, 5]) h4 rfl rfl (by simp [put]) rfl
  refine ⟨_, _, _, h5, rfl, rfl, ?_, rfl⟩
  intro g hg
  have : g = (1, [1, 1, 2]) ∨ g = (2, [6, 5, 5]) := by simpa using hg
  rcases this with rfl | rfl
  · exact ⟨_, rfl, by decide +kernel, by decide +kernel⟩
  · exact ⟨_, rfl, by decide +kernel, by decide +kernel⟩

example : ∃ f G n, Careful f G ∧ f 3 = some n ∧ CellsExist f (G 3) ∧ ((G 3).map Prod.fst).Nodup ∧
    Share n.elems [1, 1, 2] [(1, 10), (2, 5), (3, 1), (1, 7)] 1 = 22 := by
  obtain ⟨f, G, n, h1, h2, h3, h4, h5⟩ := careful_example
  exact ⟨f, G, n, h1, h2, h4, by rw [h3]; decide, by rw [h5]; decide +kernel⟩

/-- The map of that mesh. -/
example : ∃ f r, runOps (threeMeshes ++ [.add 3 1 [1, 1, 2], .child 2 3 [6, 5, 5]]) = .ok f ∧
    returnParentMap f 3 = .ok r ∧ r =
    { pairs := [(1, 0), (2, 0), (3, 1), (1, 3), (2, 2), (3, 2)],
      cases := [(0, 1), (0, 2), (1, 5), (1, 6)],
      vals := [2, 1, 1, 3] } := ⟨_, _, rfl, rfl, by decide +kernel⟩

/-- **C57, violated by destroyed parents.**  When a parent is destroyed its map stays (mesh.cpp:906-917): cell 1 was
given cell 6 of mesh 2, but once mesh 1 is gone nothing is found for it, since its map is now the one to mesh 1. -/
theorem C57_remove_violated : ∃ f r, runOps (threeMeshes ++ [.add 3 1 [1, 1, 2], .add 3 2 [6, 5, 5], .destroy 1]) = .ok f ∧
    returnParentMap f 3 = .ok r ∧ r.cases = [(0, 5), (0, 6)] ∧ r.pairs = [(1, -1), (2, -1), (3, -1)] :=
  ⟨_, _, rfl, rfl, rfl, rfl⟩

/-- **C57, violated by replaced parents.**  A parent that is added after one was destroyed is reported with the map of
the destroyed one: cell 1 was given cell 2 of mesh 4, and cell 1 is reported. -/
theorem C57_replace_violated : ∃ f r, runOps (threeMeshes ++ [.add 3 1 [1, 1, 2], .destroy 1,
      .create 4 [1, 2] [{ index := 1 }, { index := 2 }], .add 3 4 [2, 2, 1]]) = .ok f ∧
    returnParentMap f 3 = .ok r ∧ r.cases = [(0, 1), (0, 2)] ∧ r.pairs = [(1, 0), (2, 0), (3, 1)] :=
  ⟨_, _, rfl, rfl, rfl, rfl⟩

/-- **C57, violated by parents without a map.**  `AddParent` without a map leaves an empty one: the parent map then is
empty, and throws once a parent is added with a map. -/
theorem C57_plain_violated :
    ((runOps (threeMeshes ++ [.plain 3 1])).bind (returnParentMap · 3)) = .ok {} ∧
    ((runOps (threeMeshes ++ [.plain 3 1, .add 3 2 [6, 5, 5]])).bind (returnParentMap · 3)) = .error .throws :=
  ⟨rfl, rfl⟩

/-- **C57, violated by missing cells.**  A cell that the parent does not have is reported as the last cell of the
parent before: mesh 2 has no cell 7, and cell 1 of mesh 3 is given cell 2 of mesh 1 in its place. -/
theorem C57_missing_violated : ∃ f r, runOps (threeMeshes ++ [.add 3 1 [1, 1, 1], .add 3 2 [7, 5, 5]]) = .ok f ∧
    returnParentMap f 3 = .ok r ∧ (1, 1) ∈ r.pairs ∧ r.cases[1]? = some (0, 2) :=
  ⟨_, _, rfl, rfl, by decide +kernel, rfl⟩

/-- **C57, violated by `AddChild`.**  It sets the elements of the parent instead of those of the child
(mesh.cpp:970-978), so that it throws for every child which has none set. -/
theorem C57_child_violated {f : Fam} {p c : Nat} {n : Node} {ind : List Int} (hc : f c = some n) (hp : f p ≠ none)
    (hne : c ≠ p) (hn : n.elemind = []) (hi : ind ≠ []) : step f (.child p c ind) = .error .throws := by
  show addChild f p c ind = _
  rw [child_eq ind hc hp, if_neg hne, if_neg]
  simp only [id, hn]
  intro h
  exact hi (List.length_eq_zero_iff.mp h)

example : ∃ f, runOps threeMeshes = .ok f ∧ (∃ n, f 3 = some n ∧ n.elemind = []) ∧
    step f (.child 1 3 [1, 1, 2]) = .error .throws :=
  ⟨_, rfl, ⟨_, rfl, rfl⟩, C57_child_violated rfl (by simp [put]) (by decide) rfl (by decide)⟩

/-- **C86, what holds.**  As long as no mesh is copied, however meshes are created, given parents and children and
destroyed, every parent and every child of a mesh exists, there are as many links one way as the other, and no operation
reads a destroyed mesh. -/
theorem C86_family_partial {f : Fam} (h : Family f) : NoneGone f ∧ Agree f ∧
    ∀ op, Legal f op → (∀ x y, op ≠ .copy x y) → step f op ≠ .error .ub := by
  obtain ⟨h1, h2⟩ := family_inv h
  refine ⟨h1, h2, fun op hl hn h3 => ?_⟩
  rcases step_inv hl hn h1 h2 with h | ⟨f', h, -⟩ <;> rw [h3] at h <;> cases h

/-- A family with links both ways, one of them twice. -/
example : ∃ f n m, Family f ∧ f 3 = some n ∧ f 2 = some m ∧ n.parentmesh = [2, 2] ∧ m.childmesh = [3, 3] := by
  have h1 := Family.step (op := .create 1 [1, 2] [{ index := 1 }, { index := 2 }]) .start rfl (by simp) rfl
  have h2 := Family.step (op := .create 2 [5, 6] [{ index := 5 }, { index := 6 }]) h1 rfl (by simp) rfl
  have h3 := Family.step (op := .create 3 [1] [{ index := 1 }]) h2 rfl (by simp) rfl
  have h4 := Family.step (op := .add 3 1 [1]) h3 (by simp [Legal, put]) (by simp) rfl
  have h5 := Family.step (op := .add 3 2 [5]) h4 (by simp [Legal, put]) (by simp) rfl
  have h6 := Family.step (op := .plain 3 2) h5 (by simp [Legal, put]) (by simp) rfl
  have h7 := Family.step (op := .destroy 1) h6 (by simp [Legal, put]) (by simp) rfl
  exact ⟨_, _, _, h7, rfl, rfl, rfl, rfl⟩

/-- **C86, violated by copies.**  A copied mesh keeps its parents without being one of their children: once a parent is
destroyed the copy refers to it, and reporting its parent map or destroying it reads the destroyed mesh. -/
theorem C86_copy_violated : ∃ f, runOps (threeMeshes ++ [.add 3 1 [1, 1, 2], .copy 3 4, .destroy 1]) = .ok f ∧
    ¬ NoneGone f ∧ returnParentMap f 4 = .error .ub ∧ step f (.destroy 4) = .error .ub := by
  refine ⟨_, rfl, ?_, rfl, rfl⟩
  intro h
  obtain ⟨m, hm⟩ := h 4 _ rfl 1 (.inl (by simp [setElems]))
  cases hm

end RSVS.Props
