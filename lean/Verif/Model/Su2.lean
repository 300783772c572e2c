import Mathlib.Data.Fin.VecNotation
import Verif.Model.Basic
import Verif.Model.Geometry

/-!
# Output of a tetrahedral mesh

`tetgen::output::SU2` (SRCC/src/interfaces/tetgenrsvs.cpp:413-512).

Simplifications: the file is the list of its lines, with numbers as values; the digits of numbers are left out.  The file can be
opened.  The arrays of `tetgenio` are lists; reading beyond the end is undefined.
-/

namespace RSVS.Su2

open RSVS.Geo

variable {K : Type}

/-- A line of the file; the first token of the line says which one it is. -/
inductive Line (K : Type) where
  | ndime (n : Int)
  | npoin (n : Int)
  | point (x y z : K)
  | nelem (n : Int)
  | tet (a b c d : Int)
  | nmark (n : Int)
  | tag (m : Int)
  | elems (n : Int)
  | tri (a b c : Int)
  deriving DecidableEq

/-- What is read of `tetgenio`. -/
structure Out (K : Type) where
  firstnumber : Int
  numberofpoints : Nat
  pointlist : List K
  numberoftetrahedra : Nat
  numberofcorners : Nat
  tetrahedronlist : List Int
  numberoftrifaces : Nat
  trifacelist : List Int
  trifacemarkerlist : List Int

/-- `DEINCR` (tetgenrsvs.cpp:422). -/
def deincr (t : Out K) : Int := if t.firstnumber ≠ 0 then -1 else 0

/-- A line of a point (tetgenrsvs.cpp:436-443). -/
def pointLine (t : Out K) (i : Nat) : Res (Line K) :=
  (vecGet t.pointlist ((i * 3 + 0 : Nat) : Int)).bind fun x => (vecGet t.pointlist ((i * 3 + 1 : Nat) : Int)).bind fun y =>
    (vecGet t.pointlist ((i * 3 + 2 : Nat) : Int)).map fun z => .point x y z

/-- A line of a tetrahedron (tetgenrsvs.cpp:448-456). -/
def tetLine (t : Out K) (i : Nat) : Res (Line K) :=
  (vecGet t.tetrahedronlist ((i * t.numberofcorners + 0 : Nat) : Int)).bind fun a =>
  (vecGet t.tetrahedronlist ((i * t.numberofcorners + 1 : Nat) : Int)).bind fun b =>
  (vecGet t.tetrahedronlist ((i * t.numberofcorners + 2 : Nat) : Int)).bind fun c =>
  (vecGet t.tetrahedronlist ((i * t.numberofcorners + 3 : Nat) : Int)).map fun d =>
    .tet (a + deincr t) (b + deincr t) (c + deincr t) (d + deincr t)

/-- The search for a marker (tetgenrsvs.cpp:468-474): `flagSame` and `j` at the end. -/
def scan (m : Int) : List Int → Nat → Bool × Nat
  | [], j => (false, j)
  | x :: r, j => if x = m then (true, j + 1) else scan m r (j + 1)

/-- One face (tetgenrsvs.cpp:468-482): `diffBounds` and `numBounds`. -/
def boundStep (s : List Int × List Nat) (m : Int) : List Int × List Nat :=
  let r := scan m s.1 0
  if r.1 then (s.1, s.2.modify (r.2 - 1) (· + 1)) else (s.1 ++ [m], (s.2 ++ [0]).modify (r.2 + 1 - 1) (· + 1))

/-- The markers and the numbers of faces (tetgenrsvs.cpp:459-483). -/
def bounds (t : Out K) : Res (List Int × List Nat) :=
  (List.range t.numberoftrifaces).foldlM (m := Except Fault) (fun s (i : Nat) => (vecGet t.trifacemarkerlist (i : Int)).map fun m => boundStep s m) ([0], [0])

/-- A face in the list of a marker (tetgenrsvs.cpp:494-502): no line where the marker is another. -/
def triLine (t : Out K) (tag : Int) (i : Nat) : Res (List (Line K)) :=
  (vecGet t.trifacemarkerlist (i : Int)).bind fun m =>
  if m = tag then
    (vecGet t.trifacelist ((i * 3 + 0 : Nat) : Int)).bind fun a => (vecGet t.trifacelist ((i * 3 + 1 : Nat) : Int)).bind fun b =>
      (vecGet t.trifacelist ((i * 3 + 2 : Nat) : Int)).map fun c => [.tri (a + deincr t) (b + deincr t) (c + deincr t)]
  else .ok []

/-- The lines of a marker (tetgenrsvs.cpp:488-504). -/
def markLines (t : Out K) (s : List Int × List Nat) (k : Nat) : Res (List (Line K)) :=
  (vecGet s.1 (k : Int)).bind fun tag => (vecGet s.2 (k : Int)).bind fun n =>
  ((List.range t.numberoftrifaces).mapM (m := Except Fault) (triLine t tag)).map fun l => .tag tag :: .elems n :: l.flatten

/-- `tetgen::output::SU2` (tetgenrsvs.cpp:413-512). -/
def write (t : Out K) : Res (List (Line K)) :=
  ((List.range t.numberofpoints).mapM (m := Except Fault) (pointLine t)).bind fun points =>
  ((List.range t.numberoftetrahedra).mapM (m := Except Fault) (tetLine t)).bind fun tets =>
  (bounds t).bind fun s =>
  ((List.range (s.1.length - 1)).mapM (m := Except Fault) fun k => markLines t s (k + 1)).map fun marks =>
    [.ndime 3, .npoin t.numberofpoints] ++ points ++ [.nelem t.numberoftetrahedra] ++ tets ++ [.nmark ((s.1.length : Int) - 1)] ++ marks.flatten

end RSVS.Su2
