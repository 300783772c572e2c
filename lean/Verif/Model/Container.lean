import Verif.Model.Hash

/-!
# Element containers

Model of `ArrayStruct<T>`, `SnakStruct<T>` and `ModiftrackArray<T>`
(SRCC/incl/arraystructures.hpp:113-303, SRCC/incl/arraystructures_incl.cpp:390-697,
SRCC/incl/snakstruct_incl.cpp).
-/

namespace RSVS

/-- What the container needs of its elements (`ArrayStructpart`,
SRCC/incl/arraystructures.hpp:490-505).  `Key()` is `index` for every element
type of the repository (mesh.hpp, snake.hpp, triangulate.hpp), so both are `idx`.
`shift` is `ChangeIndices`, `prep` is `PrepareForUse`, `isReady` is `isready`,
`tighten` is `TightenConnectivity`.  The laws say that preparing and tightening an
element do not touch its index (true of every implementation in the repository). -/
class Part (α : Type) where
  idx : α → Int
  setIdx : α → Int → α
  shift : Int → Int → Int → Int → α → α
  prep : α → α
  tighten : α → α
  isReady : Bool → α → Bool
  idx_setIdx : ∀ a i, idx (setIdx a i) = i
  idx_prep : ∀ a, idx (prep a) = idx a
  idx_tighten : ∀ a, idx (tighten a) = idx a

export Part (idx)

/-- Adds the parent key of snake elements (`snakpart::KeyParent`,
SRCC/incl/arraystructures.hpp:507-511).  `ChangeIndices` of snake elements changes
only the index (snake.cpp:171-182), preparation and tightening do not touch the parent. -/
class SnakPart (α : Type) extends Part α where
  par : α → Int
  par_setIdx : ∀ a i, par (toPart.setIdx a i) = par a
  par_shift : ∀ a b c d e, par (toPart.shift a b c d e) = par e
  par_prep : ∀ a, par (toPart.prep a) = par a
  par_tighten : ∀ a, par (toPart.tighten a) = par a

export SnakPart (par)

/-- `ArrayStruct<T>` (arraystructures.hpp:113-244). -/
structure ArrayStruct (α : Type) where
  elems : List α
  table : Table
  isHash : Bool
  isSetMI : Bool
  ready : Bool
  inMesh : Bool
  maxIndex : Int

namespace ArrayStruct

variable {α : Type}

/-- A newly constructed container (arraystructures.hpp:115-124).  `maxIndex` has no
initialiser in the source, hence the arbitrary `m`. -/
def fresh (m : Int) : ArrayStruct α :=
  { elems := [], table := [], isHash := false, isSetMI := false, ready := false,
    inMesh := false, maxIndex := m }

variable [Part α]

/-- `ArrayStruct::HashArray` (arraystructures_incl.cpp:527-543). -/
def hashArray (s : ArrayStruct α) : ArrayStruct α :=
  { s with table := hashPairs idx 0 s.elems, isHash := true }

/-- The loop of `SetMaxIndex` (arraystructures_incl.cpp:555-568); the source runs from the
last element to the first. -/
def maxLoop (l : List α) : Int :=
  l.foldr (fun a m => if m < idx a then idx a else m) 0

/-- `ArrayStruct::SetMaxIndex` (arraystructures_incl.cpp:555-568). -/
def setMaxIndex (s : ArrayStruct α) : ArrayStruct α :=
  { s with maxIndex := maxLoop s.elems, isSetMI := true }

/-- `ArrayStruct::find` (arraystructures_incl.cpp:405-431), with the `SAFE_ACCESS` check:
a table entry which points to an element with another index throws; an entry which
points past the end reads out of range.  The warning on the console is left out. -/
def find (s : ArrayStruct α) (key : Int) : Res Int :=
  match lookup s.table key with
  | none => .ok (-1)
  | some p =>
    match s.elems[p]? with
    | none => .error .ub
    | some e => if idx e = key then .ok (p : Int) else .error .throws

/-- `ArrayStruct::operator()` (arraystructures.hpp:183-201): throws out of range. -/
def at' (s : ArrayStruct α) (i : Int) : Res α :=
  if i < 0 then .error .throws
  else match s.elems[i.toNat]? with
    | some a => .ok a
    | none => .error .throws

/-- `ArrayStruct::isearch` (arraystructures.hpp:202-222). -/
def isearch (s : ArrayStruct α) (key : Int) : Res α :=
  match s.find key with
  | .error f => .error f
  | .ok p => s.at' p

/-- `ArrayStruct::find_list` (arraystructures_incl.cpp:433-442). -/
def findList (s : ArrayStruct α) (keys : List Int) : Res (List Int) :=
  keys.mapM (fun k => s.find k)

/-- `ArrayStruct::clear` (arraystructures_incl.cpp:690-697): the flags are kept. -/
def clear (s : ArrayStruct α) : ArrayStruct α :=
  { s with elems := [], table := [], maxIndex := 0 }

/-- `ArrayStruct::assign` (arraystructures_incl.cpp:672-678). -/
def assign (s : ArrayStruct α) (n : Nat) (e : α) : ArrayStruct α :=
  { s with elems := List.replicate n e, isHash := false, isSetMI := false, ready := false }

/-- `ArrayStruct::Init` (arraystructures_incl.cpp:519-525); `d` is the default element. -/
def init (s : ArrayStruct α) (n : Nat) (d : α) : ArrayStruct α :=
  s.clear.assign n d

/-- `ArrayStruct::push_back` (arraystructures_incl.cpp:679-685). -/
def pushBack (s : ArrayStruct α) (e : α) : ArrayStruct α :=
  { s with
    elems := s.elems ++ [e]
    maxIndex := if s.maxIndex < idx e then idx e else s.maxIndex
    table := (idx e, s.elems.length) :: s.table }

/-- Writing an element through `operator[]` (arraystructures.hpp:224-243).  Throws out of
range.  Simplification: the reference is used at once and not kept for later. -/
def edit (s : ArrayStruct α) (i : Nat) (f : α → α) : ArrayStruct α :=
  if i < s.elems.length then
    { s with elems := s.elems.modify i f, isHash := false, isSetMI := false, ready := false }
  else s

/-- `ArrayStruct::remove` (arraystructures_incl.cpp:642-660): the list is put in a hashed vector
and `std::remove_if` drops the elements whose key is found there.  `readyforuse` is not reset. -/
def remove (s : ArrayStruct α) (del : List Int) : ArrayStruct α :=
  let delHash : HashedVector := { vec := del, table := hashPairs id 0 del, isHash := true }
  { s with elems := s.elems.filter (fun e => !delHash.isInVec (idx e)),
           isHash := false, isSetMI := false }

/-- `ArrayStruct::Concatenate` (arraystructures_incl.cpp:580-597). -/
def concatenate (s : ArrayStruct α) (other : List α) : ArrayStruct α :=
  { s with elems := s.elems ++ other, isHash := false, isSetMI := false, ready := false }

/-- Index assignment loop of `PopulateIndices` (arraystructures_incl.cpp:603-606). -/
def populateFrom : Nat → List α → List α
  | _, [] => []
  | start, a :: l => Part.setIdx a ((start : Int) + 1) :: populateFrom (start + 1) l

/-- `ArrayStruct::PopulateIndices` (arraystructures_incl.cpp:599-612). -/
def populateIndices (s : ArrayStruct α) : ArrayStruct α :=
  hashArray { s with elems := populateFrom 0 s.elems, maxIndex := s.elems.length,
                     isSetMI := true, isHash := false, ready := false }

/-- `ArrayStruct::ChangeIndices` (arraystructures_incl.cpp:613-624). -/
def changeIndices (s : ArrayStruct α) (nv ne ns nvo : Int) : ArrayStruct α :=
  { s with elems := s.elems.map (Part.shift nv ne ns nvo),
           isHash := false, isSetMI := false, ready := false }

/-- `ArrayStruct::TightenConnectivity` (arraystructures_incl.cpp:545-553). -/
def tightenAll (s : ArrayStruct α) : ArrayStruct α :=
  { s with elems := s.elems.map Part.tighten }

/-- `ArrayStruct::PrepareForUse` (arraystructures_incl.cpp:625-640). -/
def prepareForUse (s : ArrayStruct α) : ArrayStruct α :=
  let s1 : ArrayStruct α := { s with elems := s.elems.map Part.prep }
  let s2 := if s1.isSetMI then s1 else setMaxIndex s1
  let s3 := if s2.isHash then s2 else hashArray s2
  { s3 with ready := true }

/-- `ArrayStruct::checkready` (arraystructures_incl.cpp:465-480). -/
def checkReady (s : ArrayStruct α) : ArrayStruct α :=
  { s with ready := s.isHash && s.isSetMI && s.elems.all (Part.isReady s.inMesh) }

/-- `ArrayStruct::read` (arraystructures_incl.cpp:453-463): `Init(n)` then every element is
overwritten with what the file holds.  `l` are the elements read. -/
def readElems (s : ArrayStruct α) (d : α) (l : List α) (inMesh : Bool) : ArrayStruct α :=
  { (s.init l.length d) with elems := l, inMesh := inMesh }

end ArrayStruct

/-- Public operations on a container. `ForceArrayReady` and `SetLastIndex` are protected
(used by friends) and are not in the list. -/
inductive Op (α : Type)
  | clear
  | assign (n : Nat) (e : α)
  | init (n : Nat) (d : α)
  | pushBack (e : α)
  | edit (i : Nat) (f : α → α)
  | remove (del : List Int)
  | concatenate (other : List α)
  | populate
  | change (nv ne ns nvo : Int)
  | tighten
  | hash
  | setMax
  | prepare
  | checkReady
  | read (d : α) (l : List α) (inMesh : Bool)

namespace Op
variable {α : Type} [Part α]

/-- Effect of one public operation. -/
def run : Op α → ArrayStruct α → ArrayStruct α
  | .clear, s => s.clear
  | .assign n e, s => s.assign n e
  | .init n d, s => s.init n d
  | .pushBack e, s => s.pushBack e
  | .edit i f, s => s.edit i f
  | .remove l, s => s.remove l
  | .concatenate l, s => s.concatenate l
  | .populate, s => s.populateIndices
  | .change a b c d, s => s.changeIndices a b c d
  | .tighten, s => s.tightenAll
  | .hash, s => s.hashArray
  | .setMax, s => s.setMaxIndex
  | .prepare, s => s.prepareForUse
  | .checkReady, s => s.checkReady
  | .read d l m, s => s.readElems d l m

end Op

/-- `s` is reached from a new container by the operations in the list, the hash table
being free to hold its pairs in any order after each of them. -/
inductive Reach {α : Type} [Part α] : List (Op α) → ArrayStruct α → Prop
  | start (m : Int) : Reach [] (ArrayStruct.fresh m)
  | step {h : List (Op α)} {s : ArrayStruct α} (o : Op α) (t : Table) :
      Reach h s → t.Perm (o.run s).table → Reach (h ++ [o]) { o.run s with table := t }

/-! ## Snake containers -/

/-- `SnakStruct<T>` (arraystructures.hpp:246-282). -/
structure SnakStruct (α : Type) where
  base : ArrayStruct α
  ptable : Table
  isHashParent : Bool

namespace SnakStruct
variable {α : Type}

/-- New container (arraystructures.hpp:252-253). -/
def fresh (m : Int) : SnakStruct α :=
  { base := ArrayStruct.fresh m, ptable := [], isHashParent := false }

variable [SnakPart α]

/-- `SnakStruct::HashParent` (snakstruct_incl.cpp:24-40). -/
def hashParent (s : SnakStruct α) : SnakStruct α :=
  { s with ptable := hashPairs par 0 s.base.elems, isHashParent := true }

/-- `SnakStruct::findparent` (snakstruct_incl.cpp:129-151) with the `SAFE_ACCESS` check. -/
def findParent (s : SnakStruct α) (key : Int) : Res Int :=
  match lookup s.ptable key with
  | none => .ok (-1)
  | some p =>
    match s.base.elems[p]? with
    | none => .error .ub
    | some e => if par e = key then .ok (p : Int) else .error .throws

/-- `SnakStruct::findsiblings` (snakstruct_incl.cpp:153-164): the values stored under the key. -/
def findSiblings (s : SnakStruct α) (key : Int) : List Nat :=
  dataEqualRange key s.ptable

/-- `SnakStruct::countparent` (arraystructures.hpp:261-264). -/
def countParent (s : SnakStruct α) (key : Int) : Nat :=
  (s.ptable.filter (fun p => p.1 == key)).length

/-- Overridden and inherited operations.  Overridden in snakstruct_incl.cpp: `clear` 118,
`Init` 124, `push_back` 165, `Concatenate` 101, `remove` 107, `PrepareForUse` 89,
`checkready` 15, and `operator[]` arraystructures.hpp:277-281.  `assign`,
`PopulateIndices`, `ChangeIndices`, `TightenConnectivity`, `HashArray`, `SetMaxIndex` and
`read` are inherited unchanged: they do not touch the parent table nor its flag (and the
inherited `read` calls the base-class `Init`). -/
def run : Op α → SnakStruct α → SnakStruct α
  | .clear, s => { s with base := s.base.clear, ptable := [] }
  | .init n d, s => { s with base := (s.base.clear).init n d, ptable := [] }
  | .pushBack e, s =>
      { s with base := s.base.pushBack e, ptable := (par e, s.base.elems.length) :: s.ptable }
  | .edit i f, s => { s with base := s.base.edit i f, isHashParent := false }
  | .remove l, s => { s with base := s.base.remove l, isHashParent := false }
  | .concatenate l, s => { s with base := s.base.concatenate l, isHashParent := false }
  | .prepare, s =>
      let s1 : SnakStruct α := { s with base := s.base.prepareForUse }
      if s1.isHashParent then s1 else hashParent s1
  | .checkReady, s =>
      let b := s.base.checkReady
      { s with base := { b with ready := b.ready && s.isHashParent } }
  | o, s => { s with base := o.run s.base }

/-- `SnakStruct::DeHashParent` (snakstruct_incl.cpp:42-62): erases the pair (parent, position). -/
def deHashParent (s : SnakStruct α) (pos : Nat) : Res (SnakStruct α) :=
  match s.base.elems[pos]? with
  | none => .error .ub
  | some e =>
    match erasePair s.ptable (par e) pos with
    | .error f => .error f
    | .ok t => .ok { s with ptable := t }

/-- `SnakStruct::memberIsHashParent` (snakstruct_incl.cpp:63-86). -/
def memberIsHashParent (s : SnakStruct α) (pos : Nat) : Res Bool :=
  match s.base.elems[pos]? with
  | none => .error .ub
  | some e => .ok (memberLoop (par e) pos (fromKey s.ptable (par e)))

end SnakStruct

/-- Reachable snake containers; both tables may hold their pairs in any order. -/
inductive SReach {α : Type} [SnakPart α] : List (Op α) → SnakStruct α → Prop
  | start (m : Int) : SReach [] (SnakStruct.fresh m)
  | step {h : List (Op α)} {s : SnakStruct α} (o : Op α) (t pt : Table) :
      SReach h s → t.Perm (SnakStruct.run o s).base.table → pt.Perm (SnakStruct.run o s).ptable →
      SReach (h ++ [o])
        { SnakStruct.run o s with base := { (SnakStruct.run o s).base with table := t }, ptable := pt }

/-! ## Modification tracking -/

/-- Element with a modification mark (`modiftrackpart`, arraystructures.hpp:513-523). -/
structure Tracked where
  index : Int
  isModif : Bool
  deriving DecidableEq, Repr

/-- `ModiftrackArray::SetNoModif` (snakstruct_incl.cpp:174-182). -/
def setNoModif (l : List Tracked) : List Tracked := l.map (fun e => { e with isModif := false })

/-- Access through `ModiftrackArray::operator[]` (arraystructures.hpp:295-302): marks the element
before handing out the reference; the index may then be edited.  Out of range throws and leaves
the container as it was. -/
def trackedEdit (l : List Tracked) (i : Nat) (newIndex : Int) : List Tracked :=
  l.modify i (fun _ => { index := newIndex, isModif := true })

/-- What happens to a tracked container between two triangulations (triangulate.cpp:154-176):
accesses through `[]` and additions of new elements (whose mark starts at `true`,
arraystructures.hpp:516). -/
inductive TrackOp
  | edit (i : Nat) (newIndex : Int)
  | push (index : Int)

def TrackOp.run : TrackOp → List Tracked → List Tracked
  | .edit i n, l => trackedEdit l i n
  | .push n, l => l ++ [{ index := n, isModif := true }]

/-- `ModiftrackArray::ReturnModifInd` (snakstruct_incl.cpp:184-196). -/
def returnModifInd (l : List Tracked) : List Int :=
  (l.filter (fun e => e.isModif)).map (fun e => e.index)

/-- `ModiftrackArray::ReturnModifLog` (snakstruct_incl.cpp:198-207): stores the index converted
to `bool`, not the mark. -/
def returnModifLog (l : List Tracked) : List Bool :=
  l.map (fun e => e.index != 0)

end RSVS
