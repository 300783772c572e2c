import Verif.Model.Text
import Mathlib.Data.List.Lex
import Mathlib.Data.Char

/-!
# Model of the JSON configuration and of its updates

SRCC/src/interfaces/rsvsjson.cpp, SRCC/src/parameters.cpp.

The library nlohmann/json is not part of the repository.  Its `flatten`, `update`, `unflatten`,
and JSON pointers are modelled here as they are documented; they are part of the trusted base.
-/

namespace RSVS.Json

open RSVS RSVS.Text

variable {V : Type}

/-- A JSON value.  A leaf is null (`none`) or a string, number or boolean (`some`). -/
inductive J (V : Type)
  | leaf (v : Option V)
  | arr (l : List (J V))
  | obj (l : List (Str × J V))

/-- The reference tokens of a JSON pointer. -/
abbrev Path := List Str

/-- The null value. -/
abbrev J.null : J V := .leaf none

/-- `~` and `/` are escaped in the text of a pointer. -/
def escape : Str → Str
  | [] => []
  | c :: s =>
    if c = '~' then '~' :: '0' :: escape s
    else if c = '/' then '~' :: '1' :: escape s
    else c :: escape s

/-- The text of a pointer. -/
def toText (p : Path) : Str := p.flatMap (fun t => '/' :: escape t)

/-- The inverse of `escape`; throws for a `~` which is not followed by 0 or 1. -/
def unescape : Str → Res Str
  | [] => .ok []
  | c :: s =>
    if c = '~' then
      match s with
      | '0' :: s => (unescape s).map ('~' :: ·)
      | '1' :: s => (unescape s).map ('/' :: ·)
      | _ => .error .throws
    else (unescape s).map (c :: ·)

/-- The pieces between the slashes. -/
def splitSlash : Str → List Str
  | [] => [[]]
  | c :: s =>
    if c = '/' then [] :: splitSlash s
    else match splitSlash s with
      | [] => [[c]]
      | t :: ts => (c :: t) :: ts

/-- All pieces without their escapes. -/
def unescapeAll : List Str → Res (List Str)
  | [] => .ok []
  | t :: ts => (unescape t).bind fun t => (unescapeAll ts).map (t :: ·)

/-- The pointer of a text: empty, or starting with a slash. -/
def parsePtr : Str → Res Path
  | [] => .ok []
  | c :: s => if c = '/' then unescapeAll (splitSlash s) else .error .throws

/-- The index in an array named by a token: a decimal number without leading zeros.  The limit
of the size of the number is not modelled. -/
def idx (t : Str) : Option Nat := if dec (digitsVal 10 t) = t then some (digitsVal 10 t) else none

/-- The child named by a token. -/
def child (t : Str) : J V → Option (J V)
  | .leaf _ => none
  | .arr l => (idx t).bind (fun (i : Nat) => l[i]?)
  | .obj l => l.lookup t

/-- `operator[]` of an object followed by an assignment. -/
def put (t : Str) (x : J V) : List (Str × J V) → List (Str × J V)
  | [] => [(t, x)]
  | e :: l => if e.1 = t then (t, x) :: l else e :: put t x l

/-- `operator[]` of an array: the array is filled with nulls up to the index. -/
def pad (n : Nat) (l : List (J V)) : List (J V) := l ++ List.replicate (n - l.length) .null

/-- One step of `json_pointer::get_and_create`: null becomes an array if the token is 0 and an
object otherwise; other leaves throw. -/
def setChild (t : Str) (x : J V) : J V → Res (J V)
  | .leaf none => if t = ['0'] then .ok (.arr [x]) else .ok (.obj [(t, x)])
  | .leaf (some _) => .error .throws
  | .arr l => match idx t with
    | none => .error .throws
    | some i => .ok (.arr ((pad (i + 1) l).set i x))
  | .obj l => .ok (.obj (put t x l))

/-- `json_pointer::get_and_create` and the assignment of `v` there. -/
def setAt : Path → Option V → J V → Res (J V)
  | [], v, _ => .ok (.leaf v)
  | t :: ts, v, j => (setAt ts v ((child t j).getD .null)).bind (fun x => setChild t x j)

mutual
/-- The leaves with their paths; an empty array or object gives null (`flatten`). -/
def flat : J V → List (Path × Option V)
  | .leaf v => [([], v)]
  | .arr l => if l.isEmpty then [([], none)] else flatArr 0 l
  | .obj l => if l.isEmpty then [([], none)] else flatObj l
/-- The leaves of the elements of an array. -/
def flatArr : Nat → List (J V) → List (Path × Option V)
  | _, [] => []
  | i, x :: l => (flat x).map (fun e => (dec i :: e.1, e.2)) ++ flatArr (i + 1) l
/-- The leaves of the members of an object. -/
def flatObj : List (Str × J V) → List (Path × Option V)
  | [] => []
  | e :: l => flatPair e ++ flatObj l
/-- The leaves of a member of an object. -/
def flatPair : Str × J V → List (Path × Option V)
  | (k, x) => (flat x).map (fun e => (k :: e.1, e.2))
end

/-- A flat JSON object: a `std::map` from the text of pointers, in the order of the texts. -/
abbrev FlatMap (V : Type) := List (Str × Option V)

/-- `operator[]` of the map followed by an assignment. -/
def assign (k : Str) (v : Option V) : FlatMap V → FlatMap V
  | [] => [(k, v)]
  | e :: m =>
    if k = e.1 then (k, v) :: m
    else if k < e.1 then (k, v) :: e :: m
    else e :: assign k v m

/-- `json::flatten`. -/
def flatten (j : J V) : FlatMap V :=
  (flat j).foldl (fun m e => assign (toText e.1) e.2 m) []

/-- `json::update`. -/
def update (m n : FlatMap V) : FlatMap V := n.foldl (fun m e => assign e.1 e.2 m) m

/-- One step of `json::unflatten`. -/
def place (r : J V) (e : Str × Option V) : Res (J V) :=
  (parsePtr e.1).bind fun p => setAt p e.2 r

/-- `json::unflatten` of a flat object. -/
def unflatten (m : FlatMap V) : Res (J V) := m.foldlM place .null

/-- `rsvsjson::flatupdate` of two trees (SRCC/src/interfaces/rsvsjson.cpp:4-41): the value left
in `jfin`. -/
def flatupdate (fin new : J V) : Res (J V) :=
  (unflatten (flatten new)).bind fun _ => unflatten (update (flatten fin) (flatten new))

/-- The leaves of the members of an object, if all members are leaves. -/
def leaves : List (Str × J V) → Option (FlatMap V)
  | [] => some []
  | (k, .leaf v) :: l => (leaves l).map ((k, v) :: ·)
  | _ :: _ => none

/-- `json::unflatten` of any value: throws unless it is an object of leaves. -/
def unflattenJ : J V → Res (J V)
  | .obj l => match leaves l with
    | some m => unflatten m
    | none => .error .throws
  | _ => .error .throws

/-- `param::io::read` (parameters.cpp:546-572): `p` are the parameters as JSON, `j` the content
of the file; returns the JSON which is made into parameters. -/
def read (p j : J V) : Res (J V) :=
  flatupdate p (match unflattenJ j with
    | .ok x => x
    | .error _ => j)

/-- `param::io::readflat` (parameters.cpp:588-605): the file is a flat configuration. -/
def readflat (p : J V) (m : FlatMap V) : Res (J V) :=
  (unflatten m).bind fun _ => unflatten (update (flatten p) m)

/-! ## Parameter strings -/

/-- The leaves of the parameters. -/
inductive Val
  | str (s : Str)
  | int (i : Int)
  | real (x : ℚ)
  | bool (b : Bool)
  deriving DecidableEq, Repr

/-- The functions used to read the text of a value. -/
structure Readers where
  /-- `std::stoi` -/
  stoi : Str → Res Int
  /-- `std::stod` -/
  stod : Str → Res ℚ
  /-- `operator>>` of JSON; a value which is not a leaf is counted as an exception, which
  `unflatten` throws later -/
  json : Str → Res (Option Val)

/-- The text before the first separator and the text after it. -/
def splitSep (sep : Char) : Str → Option (Str × Str)
  | [] => none
  | c :: s => if c = sep then some ([], s) else (splitSep sep s).map (fun e => (c :: e.1, e.2))

/-- A step of `param::io::updatefromstring` (parameters.cpp:633-692): the number of failures
and the flat parameters.  Asking for an unknown key inserts null. -/
def updateOne (R : Readers) (st : Nat × FlatMap Val) (kv : Str) : Res (Nat × FlatMap Val) :=
  match splitSep ':' kv with
  | none => .ok (st.1 + 1, st.2)
  | some (key, val) =>
    match st.2.lookup key with
    | none => .ok (st.1 + 1, assign key none st.2)
    | some none => .ok (st.1 + 1, st.2)
    | some (some (.str _)) => .ok (st.1, assign key (some (.str val)) st.2)
    | some (some (.int _)) => (R.stoi val).map (fun i => (st.1, assign key (some (.int i)) st.2))
    | some (some (.real _)) => (R.stod val).map (fun x => (st.1, assign key (some (.real x)) st.2))
    | some (some (.bool _)) => (R.json val).map (fun v => (st.1, assign key v st.2))

/-- `param::io::updatefromstring` (parameters.cpp:633-697): the number of failures and the JSON
which is made into parameters. -/
def updatefromstring (R : Readers) (p : J Val) (kvs : List Str) : Res (Nat × J Val) :=
  (kvs.foldlM (updateOne R) (0, flatten p)).bind fun st =>
    (unflatten st.2).map (fun j => (st.1, j))

end RSVS.Json
