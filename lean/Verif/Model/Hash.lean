import Verif.Model.Basic

/-!
# Hash tables and hashed vectors

Model of the free functions `HashVector`, `FindSub`, `FindSubList`, `EraseKeyPair`,
`ReturnDataEqualRange` (SRCC/incl/arraystructures_incl.cpp) and of the class templates
`HashedVector`, `HashedVectorSafe` and `HashedVectorPair` (SRCC/incl/arraystructures.hpp:305-486).
The free functions are generic in the key; the hashed vectors are modelled with `int` keys.
-/

namespace RSVS

/-- `std::unordered_multimap<int,int>`: the pairs it holds, in iteration order.  The
order is not specified by C++ (except that equal keys are adjacent); the theorems quantify over
all orders. -/
abbrev TableOf (κ : Type) := List (κ × Nat)

/-- The common case of integer keys. -/
abbrev Table := TableOf Int

variable {α κ : Type} [DecidableEq κ]

/-- `unordered_multimap::find(key)`: some pair with that key, if any.  With the
order of the list arbitrary this is any such pair. -/
def lookup (t : TableOf κ) (key : κ) : Option Nat :=
  (t.find? (fun p => p.1 == key)).map Prod.snd

/-- The pairs inserted by the hashing loops (`HashArray` arraystructures_incl.cpp:536-539,
`HashVector` 835-838): key and position of each element, positions counted from `start`. -/
def hashPairs {α κ : Type} (key : α → κ) : Nat → List α → TableOf κ
  | _, [] => []
  | start, a :: l => (key a, start) :: hashPairs key (start + 1) l

/-- `FindSub` (arraystructures_incl.cpp:755-765). -/
def findSub (key : κ) (t : TableOf κ) : Int :=
  match lookup t key with
  | none => -1
  | some p => (p : Int)

/-- `ReturnDataEqualRange` (arraystructures_incl.cpp:131-154). -/
def dataEqualRange (key : κ) (t : TableOf κ) : List Nat :=
  (t.filter (fun p => p.1 == key)).map Prod.snd

/-- Main loop of both `FindSubList` overloads (arraystructures_incl.cpp:782-795, 811-823), with the
`SAFE_ACCESS` check; `keyList[p]` with `p` past the end is undefined. -/
def findSubLoop (keyList : List κ) (t : TableOf κ) : List κ → Res (List Int)
  | [] => .ok []
  | k :: ks =>
    match lookup t k with
    | none =>
      match findSubLoop keyList t ks with
      | .error f => .error f
      | .ok r => .ok (-1 :: r)
    | some p =>
      match keyList[p]? with
      | none => .error .ub
      | some k' =>
        if k' ≠ k then .error .throws
        else
          match findSubLoop keyList t ks with
          | .error f => .error f
          | .ok r => .ok ((p : Int) :: r)

/-- `FindSubList` with a modifiable table (arraystructures_incl.cpp:767-797): fills the table only
when it is empty. Returns the positions and the table as left to the caller. -/
def findSubList (keyFind keyList : List κ) (t : TableOf κ) : Res (List Int × TableOf κ) :=
  let t' := if t.isEmpty then hashPairs id 0 keyList else t
  match findSubLoop keyList t' keyFind with
  | .error f => .error f
  | .ok r => .ok (r, t')

/-- `FindSubList` with a constant table (arraystructures_incl.cpp:799-825). -/
def findSubListConst (keyFind keyList : List κ) (t : TableOf κ) : Res (List Int) :=
  if t.isEmpty && decide (keyList.length > 0) && decide (keyFind.length > 0) then .error .throws
  else findSubLoop keyList t keyFind

/-- Iterator position `find(key)` as the rest of the table from there on. -/
def fromKey (t : Table) (key : Int) : Table := t.dropWhile (fun p => p.1 != key)

/-- The pairs before the iterator `find(key)`. -/
def beforeKey (t : Table) (key : Int) : Table := t.takeWhile (fun p => p.1 != key)

/-- The walk of `DeHashParent` (snakstruct_incl.cpp:45-54) and of `EraseKeyPair`
(arraystructures_incl.cpp:858-868) from the iterator on: skips pairs with the key and another
value, then erases the pair or throws.  Dereferencing the end iterator is undefined. -/
def eraseLoop (key : Int) (pos : Nat) : Table → Res Table
  | [] => .error .ub
  | (k, p) :: r =>
    if p ≠ pos ∧ k = key then
      match eraseLoop key pos r with
      | .error f => .error f
      | .ok r' => .ok ((k, p) :: r')
    else if p = pos ∧ k = key then .ok r
    else .error .throws

/-- Erase the pair from the table itself (snakstruct_incl.cpp:42-62). -/
def erasePair (t : Table) (key : Int) (pos : Nat) : Res Table :=
  match eraseLoop key pos (fromKey t key) with
  | .error f => .error f
  | .ok r => .ok (beforeKey t key ++ r)

/-- `EraseKeyPair` (arraystructures_incl.cpp:855-876): the table is passed by value, so the caller's
table, which is what is returned here, never changes. -/
def eraseKeyPair (t : Table) (key : Int) (pos : Nat) : Res Table :=
  match erasePair t key pos with
  | .error f => .error f
  | .ok _ => .ok t

/-- The walk of `memberIsHashParent` (snakstruct_incl.cpp:66-86) from the iterator on. -/
def memberLoop (key : Int) (pos : Nat) : Table → Bool
  | [] => false
  | (k, p) :: r =>
    if p ≠ pos ∧ k = key then memberLoop key pos r
    else decide (p = pos ∧ k = key)

/-- `HashedVector<int,_,int>` (arraystructures.hpp:305-354).  All three fields are public. -/
structure HashedVector where
  vec : List Int
  table : Table
  isHash : Bool

namespace HashedVector

/-- A new object (arraystructures.hpp:308-310): empty and flagged as hashed. -/
def fresh : HashedVector := { vec := [], table := [], isHash := true }

/-- `GenerateHash` (arraystructures_incl.cpp:700-705). -/
def generate (h : HashedVector) : HashedVector :=
  { h with table := hashPairs id 0 h.vec, isHash := true }

/-- `push_back` (arraystructures.hpp:338-343). -/
def pushBack (h : HashedVector) (x : Int) : HashedVector :=
  { h with vec := h.vec ++ [x], table := (x, h.vec.length) :: h.table }

/-- `assign` (arraystructures.hpp:333-337): the table is kept. -/
def assign (h : HashedVector) (n : Nat) (x : Int) : HashedVector :=
  { h with vec := List.replicate n x, isHash := false }

/-- `clear` (arraystructures.hpp:344-349). -/
def clear (_h : HashedVector) : HashedVector := { vec := [], table := [], isHash := true }

/-- Writing through `operator[]` (arraystructures.hpp:319-322): neither flag nor table change.
Out of range is undefined behaviour. -/
def write (h : HashedVector) (i : Nat) (x : Int) : Res HashedVector :=
  if i < h.vec.length then .ok { h with vec := h.vec.set i x } else .error .ub

/-- Assignment to the public member `vec`. -/
def setVec (h : HashedVector) (l : List Int) : HashedVector := { h with vec := l }

/-- `find` (arraystructures_incl.cpp:706-709). -/
def find (h : HashedVector) (x : Int) : Int := findSub x h.table

/-- `findall` (arraystructures_incl.cpp:710-713). -/
def findAll (h : HashedVector) (x : Int) : List Nat := dataEqualRange x h.table

/-- `count` (arraystructures_incl.cpp:715-718). -/
def count (h : HashedVector) (x : Int) : Nat := (h.table.filter (fun p => p.1 == x)).length

/-- `IsInVec`, `operator()` (arraystructures_incl.cpp:738-746). -/
def isInVec (h : HashedVector) (x : Int) : Bool := findSub x h.table != -1

/-- `find_list` (arraystructures_incl.cpp:732-736). -/
def findList (h : HashedVector) (keys : List Int) : Res (List Int) :=
  findSubListConst keys h.vec h.table

end HashedVector

/-- Operations on a `HashedVector`. -/
inductive HOp
  | generate
  | pushBack (x : Int)
  | assign (n : Nat) (x : Int)
  | clear
  | write (i : Nat) (x : Int)
  | setVec (l : List Int)

/-- Reachable hashed vectors, with any order of the table. -/
inductive HReach : List HOp → HashedVector → Prop
  | start : HReach [] HashedVector.fresh
  | generate {l h} : HReach l h → HReach (l ++ [.generate]) h.generate
  | pushBack {l h} (x : Int) : HReach l h → HReach (l ++ [.pushBack x]) (h.pushBack x)
  | assign {l h} (n : Nat) (x : Int) : HReach l h → HReach (l ++ [.assign n x]) (h.assign n x)
  | clear {l h} : HReach l h → HReach (l ++ [.clear]) h.clear
  | write {l h h'} (i : Nat) (x : Int) : HReach l h → h.write i x = .ok h' →
      HReach (l ++ [.write i x]) h'
  | setVec {l h} (v : List Int) : HReach l h → HReach (l ++ [.setVec v]) (h.setVec v)
  | rehash {l h} (t : Table) : HReach l h → t.Perm h.table → HReach l { h with table := t }

/-- `HashedVectorSafe` (arraystructures.hpp:419-486): the members are hidden, assignment of a
vector and access through `[]` reset the flag.  Reachable objects. -/
inductive SafeReach : HashedVector → Prop
  | start : SafeReach HashedVector.fresh
  | generate {h} : SafeReach h → SafeReach h.generate
  | setVec {h} (v : List Int) : SafeReach h → SafeReach { h.setVec v with isHash := false }
  | write {h h'} (i : Nat) (x : Int) : SafeReach h → h.write i x = .ok h' →
      SafeReach { h' with isHash := false }
  | rehash {h} (t : Table) : SafeReach h → t.Perm h.table → SafeReach { h with table := t }

/-- `HashedVectorPair<int,_,int,S>` (arraystructures.hpp:368-417): keys with values. -/
structure HashedPair (S : Type) where
  hv : HashedVector
  targ : List S

namespace HashedPair
variable {S : Type}

/-- New object. -/
def fresh : HashedPair S := { hv := HashedVector.fresh, targ := [] }

/-- `push_back` (arraystructures.hpp:406-410). -/
def pushBack (h : HashedPair S) (k : Int) (v : S) : HashedPair S :=
  { hv := h.hv.pushBack k, targ := h.targ ++ [v] }

/-- Assignment `h(k) = v` through the non-constant `operator()` (arraystructures.hpp:378-387): a missing
key is first appended with value `S(0)`, then the reference to its value is written. -/
def put (zero : S) (h : HashedPair S) (k : Int) (v : S) : Res (HashedPair S) :=
  match lookup h.hv.table k with
  | none =>
    let h' := h.pushBack k zero
    let p := h'.hv.vec.length - 1
    if p < h'.targ.length then .ok { h' with targ := h'.targ.set p v } else .error .ub
  | some p => if p < h.targ.length then .ok { h with targ := h.targ.set p v } else .error .ub

/-- Reading through the constant `operator()` (arraystructures.hpp:388-396). -/
def get (zero : S) (h : HashedPair S) (k : Int) : Res S :=
  match lookup h.hv.table k with
  | none => .ok zero
  | some p => match h.targ[p]? with
    | some v => .ok v
    | none => .error .ub

/-- `clear` (arraystructures.hpp:411-415). -/
def clear (_h : HashedPair S) : HashedPair S := fresh

end HashedPair

end RSVS
