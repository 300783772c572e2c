import Verif.Model.Json

/-!
# Specification of configuration trees
-/

namespace RSVS.Spec

open RSVS RSVS.Text RSVS.Json

variable {V : Type}

/-- What stands at a place of a JSON tree. -/
inductive Node (V : Type)
  | leaf (v : Option V)
  | arr
  | obj

/-- What stands at the root. -/
def kind : J V → Node V
  | .leaf v => .leaf v
  | .arr _ => .arr
  | .obj _ => .obj

/-- One step down: `t` is the number of an element of an array, or the name of a member of an
object. -/
def step (t : Str) : J V → Option (J V)
  | .leaf _ => none
  | .arr l => ((List.range l.length).find? (fun i => dec i = t)).bind (fun (i : Nat) => l[i]?)
  | .obj l => (l.find? (fun e => e.1 = t)).map Prod.snd

/-- The part of the tree at a path. -/
def part : Path → J V → Option (J V)
  | [], j => some j
  | t :: p, j => (step t j).bind (part p)

/-- What stands at a path. -/
def look (p : Path) (j : J V) : Option (Node V) := (part p j).map kind

/-- The members of each object have different names. -/
def Proper (j : J V) : Prop := ∀ p l, part p j = some (.obj l) → (l.map Prod.fst).Nodup

/-- No array and no object is empty. -/
def NoEmpty (j : J V) : Prop := ∀ p, part p j ≠ some (.arr []) ∧ part p j ≠ some (.obj [])

/-- No member of an object is named 0. -/
def NoZero (j : J V) : Prop := ∀ p l, part p j = some (.obj l) → ['0'] ∉ l.map Prod.fst

/-- A configuration, like those made from the parameters. -/
structure Configuration (j : J V) : Prop where
  proper : Proper j
  noEmpty : NoEmpty j
  noZero : NoZero j

/-- `new` only mentions values of `fin`. -/
def Partial (new fin : J V) : Prop :=
  ∀ p v, look p new = some (.leaf v) → ∃ w, look p fin = some (.leaf w)

/-- A file which is not a flat configuration: a member is an array or an object, or the name of a
member is no pointer. -/
def Nested : J V → Prop
  | .obj l => ∃ e ∈ l, (∀ v, kind e.2 ≠ .leaf v) ∨ (e.1 ≠ [] ∧ e.1.head? ≠ some '/')
  | _ => True

/-- No element of an array is left out: if an element is mentioned, the elements before it are
too. -/
def Gapless (fin : J V) (m : FlatMap V) : Prop :=
  ∀ q i i' s v, look q fin = some .arr → (toText (q ++ dec i' :: s), v) ∈ m → i < i' →
    ∃ s' v', (toText (q ++ dec i :: s'), v') ∈ m

/-- How a text is read for a parameter which has the value `old`. -/
def readAs (R : Readers) (old : Val) (s : Str) : Res (Option Val) :=
  match old with
  | .str _ => .ok (some (.str s))
  | .int _ => (R.stoi s).map (fun i => some (.int i))
  | .real _ => (R.stod s).map (fun x => some (.real x))
  | .bool _ => R.json s

/-- Two values of the same type. -/
def sameType : Val → Val → Prop
  | .str _, .str _ => True
  | .int _, .int _ => True
  | .real _, .real _ => True
  | .bool _, .bool _ => True
  | _, _ => False

end RSVS.Spec
