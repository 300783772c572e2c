import Verif.Model.Mesh

/-!
# The family of a mesh

Model of `meshdependence` (SRCC/incl/mesh.hpp:528-577) and of the members of `mesh` that use it
(SRCC/src/grid/mesh.cpp:881-1089).  A pointer to a mesh is a number; the memory gives the mesh it points to, or
nothing once the mesh is destroyed.  Of a mesh only its cells are kept: `elems` are the indices of the elements
of its dimension, `volus` are its volumes.  The cells do not change while the family does, and the hash tables of
the containers are up to date.
-/

namespace RSVS.Lineage

open RSVS.Mesh

/-- The fields of `volu` (mesh.hpp:196-228) that are read or written here. -/
structure Cell where
  index : Int
  volume : ℚ := 1
  target : ℚ := 1
  fill : ℚ := 0
  deriving DecidableEq

/-- A mesh with its `meshtree`. -/
structure Node where
  elems : List Int
  volus : List Cell
  isSet : Bool := false
  nParents : Nat := 0
  elemind : List Int := []
  parentmesh : List Nat := []
  childmesh : List Nat := []
  parentconn : List (List Int) := []
  deriving DecidableEq

abbrev Fam := Nat → Option Node

/-- `*p` for a pointer: undefined if the mesh is gone. -/
def deref (f : Fam) (p : Nat) : Res Node :=
  match f p with
  | some n => .ok n
  | none => .error .ub

def put (f : Fam) (p : Nat) (n : Option Node) : Fam := fun q => if q = p then n else f q

/-- A member function applied to `*p`. -/
def modify (f : Fam) (p : Nat) (g : Node → Node) : Res Fam := (deref f p).map fun n => put f p (some (g n))

/-- `mesh::SetMeshDepElm` (mesh.cpp:989-1026), if it was not called before (mesh.cpp:972-975 and 981-984). -/
def setElems (n : Node) : Node := if n.isSet then n else { n with elemind := n.elems, isSet := true }

/-- `meshdependence::AddParent(mesh*)` (mesh.cpp:881-888): `nParents` is not changed. -/
def pushParent (p : Nat) (n : Node) : Node :=
  { n with parentmesh := n.parentmesh ++ [p], parentconn := n.parentconn ++ [[]] }

/-- `meshdependence::AddChild` (mesh.cpp:889-895). -/
def pushChild (c : Nat) (n : Node) : Node := { n with childmesh := n.childmesh ++ [c] }

/-- The loop of `meshdependence::RemoveChild` (mesh.cpp:896-905): after an erased entry the next one is not
looked at. -/
def eraseChild (x : Nat) : List Nat → List Nat
  | [] => []
  | [a] => if a = x then [] else [a]
  | a :: b :: l => if a = x then b :: eraseChild x l else a :: eraseChild x (b :: l)

/-- `meshdependence::RemoveParent` (mesh.cpp:906-917): `parentconn` is not changed. -/
def dropParent (x : Nat) (n : Node) : Node :=
  { n with parentmesh := n.parentmesh.erase x, nParents := (n.parentmesh.erase x).length }

/-- `meshdependence::AddParent(mesh*, vector<int>&)` (mesh.cpp:919-943). -/
def pushParentMap (p : Nat) (ind : List Int) (n : Node) : Res Node :=
  if ind.length ≠ n.elemind.length then .error .throws
  else .ok { n with parentmesh := n.parentmesh ++ [p], parentconn := n.parentconn ++ [ind],
                    nParents := n.parentmesh.length + 1 }

/-- `mesh::AddParent(mesh*)` called for `c` (mesh.cpp:964-968). -/
def addParentPlain (f : Fam) (c p : Nat) : Res Fam :=
  (modify f c (pushParent p)).bind fun f => modify f p (pushChild c)

/-- `mesh::AddParent(mesh*, vector<int>&)` called for `c` (mesh.cpp:979-987). -/
def addParent (f : Fam) (c p : Nat) (ind : List Int) : Res Fam :=
  (modify f c setElems).bind fun f => (deref f c).bind fun n => (pushParentMap p ind n).bind fun n =>
  modify (put f c (some n)) p (pushChild c)

/-- `mesh::AddChild(mesh*, vector<int>&)` called for `p` (mesh.cpp:970-978): the elements that are set are
those of the parent. -/
def addChild (f : Fam) (p c : Nat) (ind : List Int) : Res Fam :=
  (modify f p setElems).bind fun f => (modify f p (pushChild c)).bind fun f =>
  (deref f c).bind fun n => (pushParentMap p ind n).map fun n => put f c (some n)

/-- `mesh::RemoveFromFamily` (mesh.cpp:945-957). -/
def leaveFamily (f : Fam) (x : Nat) : Res Fam :=
  (deref f x).bind fun n =>
  (n.parentmesh.foldlM (fun f p => modify f p fun m => { m with childmesh := eraseChild x m.childmesh }) f).bind
    fun f => (deref f x).bind fun n => n.childmesh.foldlM (fun f c => modify f c (dropParent x)) f

/-- What a program does with its meshes: creates them, gives them parents, copies and destroys them
(`~mesh` mesh.hpp:735-738). -/
inductive Op
  | create (x : Nat) (elems : List Int) (volus : List Cell)
  | plain (c p : Nat)
  | add (c p : Nat) (ind : List Int)
  | child (p c : Nat) (ind : List Int)
  | destroy (x : Nat)
  | copy (x y : Nat)

def step (f : Fam) : Op → Res Fam
  | .create x elems volus => .ok (put f x (some { elems := elems, volus := volus }))
  | .plain c p => addParentPlain f c p
  | .add c p ind => addParent f c p ind
  | .child p c ind => addChild f p c ind
  | .destroy x => (leaveFamily f x).map fun f => put f x none
  | .copy x y => (deref f x).map fun n => put f y (some n)

/-- The inner loops of `ReturnParentMap` (mesh.cpp:1049-1063) for one parent; `off` is `nParCases`. -/
def parentPos (vols : List Cell) (conn : List Int) (off : Nat) : List Int → Nat → Res (List (Int × Int))
  | [], _ => .ok []
  | e :: l, j =>
    match conn[j]? with
    | none => .error .throws
    | some i => (parentPos vols conn off l (j + 1)).map ((e, posOf Cell.index vols i + off) :: ·)

/-- The loop with `parentconn[ii]`, which may be past the end. -/
def connPos (vols : List Cell) (conn : Option (List Int)) (off : Nat) (l : List Int) : Res (List (Int × Int)) :=
  match l, conn with
  | [], _ => .ok []
  | _ :: _, none => .error .ub
  | e :: l, some conn => parentPos vols conn off (e :: l) 0

/-- What `ReturnParentMap` fills: `currind` with `parentpos`, `parentcases` and `voluVals`. -/
structure ParentMap where
  pairs : List (Int × Int) := []
  cases : List (Int × Int) := []
  vals : List ℚ := []
  deriving DecidableEq

/-- The loop over the parents (mesh.cpp:1046-1065). -/
def parentLoop (f : Fam) (n : Node) : Nat → Nat → ParentMap → Res ParentMap
  | 0, _, r => .ok r
  | k + 1, ii, r =>
    (vecGet n.parentmesh (ii : Int)).bind fun p => (deref f p).bind fun m =>
    (connPos m.volus n.parentconn[ii]? r.cases.length n.elemind).bind fun pos =>
    parentLoop f n k (ii + 1)
      { pairs := r.pairs ++ pos,
        cases := r.cases ++ m.volus.map fun v => ((ii : Int), v.index),
        vals := r.vals ++ m.volus.map fun v => v.volume * v.target }

/-- `mesh::ReturnParentMap` (mesh.cpp:1028-1066), with empty vectors. -/
def returnParentMap (f : Fam) (c : Nat) : Res ParentMap :=
  (deref f c).bind fun n => parentLoop f n n.nParents 0 {}

/-- `mesh::MapVolu2Parent` (mesh.cpp:1068-1089) with the member `fill`, called for `n`. -/
def mapToParents (n : Node) : List (Int × Int) → List ℚ → Fam → Res Fam
  | [], _, f => .ok f
  | _ :: _, [], _ => .error .ub
  | (k, i) :: cs, x :: xs, f =>
    (vecGet n.parentmesh k).bind fun p => (deref f p).bind fun m =>
    (modAt m.volus (posOf Cell.index m.volus i) fun v => { v with fill := x }).bind fun vs =>
    mapToParents n cs xs (put f p (some { m with volus := vs }))

/-- `mesh::CountVoluParent` (mesh.cpp:1419-1427): the number of constraints (RSVScalc.cpp:41). -/
def countVoluParent (f : Fam) (n : Node) : Res Nat :=
  n.parentmesh.foldlM (fun k p => (deref f p).map fun m => k + m.volus.length) 0

/-- Adds `x` to constraint `q` (RSVScalc_core.cpp:94-97; `q` past the end is as in `Calc.addConstrs`). -/
def addConstr (x : ℚ) (v : List ℚ) (q : Int) : Res (List ℚ) :=
  if q = -1 then .ok v
  else if q < 0 ∨ (v.length : Int) ≤ q then .error .ub
  else .ok (v.modify q.toNat (· + x))

/-- What the cells of the child contribute is added to the constraints `constrMap.findall` names
(RSVScalc_core.cpp:87-116; `constrMap` as `BuildConstrMap`, RSVScalc.cpp:488-503, gets it from
`ReturnParentMap`).  `w` are the contributions in order, each with its cell. -/
def accumulate (pairs : List (Int × Int)) (w : List (Int × ℚ)) (v : List ℚ) : Res (List ℚ) :=
  w.foldlM (fun v c => (pairs.filter (·.1 = c.1)).foldlM (fun v p => addConstr c.2 v p.2) v) v

end RSVS.Lineage
