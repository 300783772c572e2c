import Verif.Model.ParentBound
import Verif.Spec.Flood
import Verif.Spec.Border

/-!
# Specification of the surfaces between cells of the parents
-/

namespace RSVS.Spec

open RSVS.ParentBound

/-- The parents are in step with the mesh: they give every volume a parent cell which exists. -/
structure ParentsFit (m : Mesh) (ps : List Parent) : Prop where
  length : ∀ p ∈ ps, p.conn.length = m.volus.length
  has : ∀ p ∈ ps, ∀ i ∈ p.conn, ∃ y ∈ p.volus, y.index = i
  unique : ∀ p ∈ ps, (p.volus.map Volu.index).Nodup

/-- The cell of parent `p` over volume `c` has the target `t`. -/
def OverTarget (m : Mesh) (p : Parent) (c : Int) (t : ℚ) : Prop :=
  ∃ k : Nat, ∃ x y : Volu, m.volus[k]? = some x ∧ x.index = c ∧ p.conn[k]? = some y.index ∧ y ∈ p.volus ∧ y.target = t

/-- The cell of parent `p` over volume `c` has a target within `eps` of `b`. -/
def AtBound (m : Mesh) (b eps : ℚ) (p : Parent) (c : Int) : Prop := ∃ t, OverTarget m p c t ∧ |t - b| < eps

/-- Volumes `c` and `d` are on the two sides of surface `s`. -/
def Sides (m : Mesh) (s c d : Int) : Prop := ∃ x ∈ m.surfs, x.index = s ∧ (x.voluind = [c, d] ∨ x.voluind = [d, c])

/-- Surface `s` is between two volumes, one of which is in a cell at the bound and the other in a
cell of the same parent which is not. -/
def BetweenCells (m : Mesh) (ps : List Parent) (b eps : ℚ) (s : Int) : Prop :=
  ∃ c d, c ≠ 0 ∧ d ≠ 0 ∧ Sides m s c d ∧ ∃ p ∈ ps, AtBound m b eps p c ∧ ¬ AtBound m b eps p d

/-- Parent `p` is the first one with exactly one of `c` and `d` at the bound. -/
def FirstParent (m : Mesh) (ps : List Parent) (b eps : ℚ) (c d : Int) (p : Parent) : Prop :=
  ∃ pre post, ps = pre ++ p :: post ∧ ∀ q ∈ pre, (AtBound m b eps q c ↔ AtBound m b eps q d)

/-- Volume `c` is on the side at the bound of a surface between cells, for the first parent which
tells the sides apart. -/
def BoundSide (m : Mesh) (ps : List Parent) (b eps : ℚ) (c : Int) : Prop :=
  ∃ s d, c ≠ 0 ∧ d ≠ 0 ∧ Sides m s c d ∧ ∃ p, FirstParent m ps b eps c d p ∧ AtBound m b eps p c ∧ ¬ AtBound m b eps p d

/-- 0 for the outer volume, 1 otherwise. -/
def boundValue (outer : Bool) : ℚ := if outer then 0 else 1

/-- The targets of the cells over `c`, one for each parent in order. -/
def AllTargets (m : Mesh) (ps : List Parent) (c : Int) (vals : List ℚ) : Prop :=
  List.Forall₂ (fun p t => OverTarget m p c t) ps vals

/-- In two dimensions: edge `e` is between surfaces `c` and `d`, in cells of one parent with
different targets. -/
def BetweenCells2 (m : Mesh) (ps : List Parent) (b : ℚ) (e : Int) : Prop :=
  ∃ x ∈ m.edges, x.index = e ∧ ∃ c d, x.surfind = [c, d] ∧ c ≠ 0 ∧ d ≠ 0 ∧ ∃ p ∈ ps, ∃ k l : Nat, ∃ f g f' g' : Surf,
    m.surfs[k]? = some f ∧ f.index = c ∧ m.surfs[l]? = some g ∧ g.index = d ∧
    p.conn[k]? = some f'.index ∧ f' ∈ p.surfs ∧ p.conn[l]? = some g'.index ∧ g' ∈ p.surfs ∧ f'.target = b ∧ g'.target ≠ b

end RSVS.Spec
