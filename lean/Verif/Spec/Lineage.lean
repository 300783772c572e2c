import Verif.Model.Lineage

/-!
# What the family of a mesh should say
-/

namespace RSVS.Spec

open RSVS.Lineage

/-- The operation is only given meshes that exist, and new meshes are new. -/
def Legal (f : Fam) : Op → Prop
  | .create x _ _ => f x = none
  | .plain c p => f c ≠ none ∧ f p ≠ none
  | .add c p _ => f c ≠ none ∧ f p ≠ none
  | .child p c _ => f c ≠ none ∧ f p ≠ none
  | .destroy x => f x ≠ none
  | .copy x y => f x ≠ none ∧ f y = none

/-- The families a program can reach without copies of meshes. -/
inductive Family : Fam → Prop
  | start : Family fun _ => none
  | step {f f' op} : Family f → Legal f op → (∀ x y, op ≠ .copy x y) → step f op = .ok f' → Family f'

/-- Parents and children agree: as many links one way as the other. -/
def Agree (f : Fam) : Prop :=
  ∀ c p n m, f c = some n → f p = some m → n.parentmesh.count p = m.childmesh.count c

/-- No mesh refers to one that is gone. -/
def NoneGone (f : Fam) : Prop :=
  ∀ x n, f x = some n → ∀ y, y ∈ n.parentmesh ∨ y ∈ n.childmesh → ∃ m, f y = some m

/-- Mesh `c` is given parents with maps: what the program asked for, per mesh the parents in order with the cell
of the parent for each of its own cells. -/
abbrev Given := Nat → List (Nat × List Int)

/-- The families reached by `AddParent` with a map, by `AddChild` with a map for a mesh which knows its cells, and
by destroying meshes which are nobody's parent. -/
inductive Careful : Fam → Given → Prop
  | start : Careful (fun _ => none) fun _ => []
  | create {f G f' x elems volus} : Careful f G → f x = none → step f (.create x elems volus) = .ok f' →
      Careful f' fun y => if y = x then [] else G y
  | add {f G f' c p ind} : Careful f G → f c ≠ none → f p ≠ none → step f (.add c p ind) = .ok f' →
      Careful f' fun y => if y = c then G c ++ [(p, ind)] else G y
  | child {f G f' c p ind n} : Careful f G → f c = some n → n.isSet = true → f p ≠ none →
      step f (.child p c ind) = .ok f' → Careful f' fun y => if y = c then G c ++ [(p, ind)] else G y
  | destroy {f G f' x n} : Careful f G → f x = some n → n.childmesh = [] → step f (.destroy x) = .ok f' →
      Careful f' fun y => if y = x then [] else G y

/-- Each cell that is named exists in its parent, where indices are unique. -/
def CellsExist (f : Fam) (gs : List (Nat × List Int)) : Prop :=
  ∀ g ∈ gs, ∃ m, f g.1 = some m ∧ (m.volus.map Cell.index).Nodup ∧ ∀ i ∈ g.2, ∃ v ∈ m.volus, v.index = i

/-- The parent map says what was given: the cases are the cells of all parents, one generation after the
other, and cell `j` has in generation `k` the position of the case of the cell that was given for it. -/
structure Reports (f : Fam) (elems : List Int) (gs : List (Nat × List Int)) (r : ParentMap) : Prop where
  nodup : r.cases.Nodup
  cases : ∀ k i, (k, i) ∈ r.cases ↔
    ∃ (a : Nat) (g : Nat × List Int) (m : Node) (v : Cell), k = a ∧ gs[a]? = some g ∧ f g.1 = some m ∧ v ∈ m.volus ∧ v.index = i
  vals : ∀ (q : Nat) (x : ℚ), r.vals[q]? = some x ↔ ∃ (a : Nat) (g : Nat × List Int) (m : Node) (v : Cell),
    gs[a]? = some g ∧ f g.1 = some m ∧ v ∈ m.volus ∧ r.cases[q]? = some ((a : Int), v.index) ∧ x = v.volume * v.target
  len : r.pairs.length = gs.length * elems.length
  pairs : ∀ (k j : Nat) (g : Nat × List Int) (e i : Int), gs[k]? = some g → elems[j]? = some e → g.2[j]? = some i →
    ∃ q : Nat, r.pairs[k * elems.length + j]? = some (e, (q : Int)) ∧ r.cases[q]? = some ((k : Int), i)

/-- What the contributions `w` of the cells `elems` give to cell `i` of a parent: each as often as `i` was given
for its cell. -/
def Share (elems ind : List Int) (w : List (Int × ℚ)) (i : Int) : ℚ :=
  (w.map fun c => ((elems.zip ind).count (c.1, i) : ℚ) * c.2).sum

end RSVS.Spec
