import Verif.Model.MeshIO
import Mathlib.Data.Nat.Digits.Defs
import Mathlib.Data.List.Forall2

/-!
# Specification of the text files

Written without the model's printing and scanning functions.
-/

namespace RSVS.Spec

open RSVS RSVS.MeshIO

/-- The finite values of the C++ type `double` (IEEE binary64). -/
def IsDouble (x : ℚ) : Prop :=
  ∃ m e : Int, |m| < 2 ^ 53 ∧ -1074 ≤ e ∧ e ≤ 971 ∧ x = (m : ℚ) * 2 ^ e

/-- The conversion of a decimal number gives a nearest `double`. -/
def ToDouble (rd : ℚ → ℚ) : Prop :=
  ∀ x, IsDouble (rd x) ∧ ∀ y, IsDouble y → |rd x - x| ≤ |y - x|

/-- A multiple of `10^-p`. -/
def Decimal (p : Nat) (x : ℚ) : Prop := ∃ k : Int, x = (k : ℚ) / 10 ^ p

/-- Two vertices with the same stored fields, coordinates up to `eps`. -/
def CloseVert (eps : ℚ) (a b : Vert) : Prop :=
  a.index = b.index ∧ a.edgeind = b.edgeind ∧ a.isBorder = b.isBorder ∧
    List.Forall₂ (fun x y => |y - x| ≤ eps) a.coord b.coord

/-- Two edges with the same stored fields. -/
def SameEdge (a b : Edge) : Prop :=
  a.index = b.index ∧ a.vertind = b.vertind ∧ a.surfind = b.surfind ∧ a.isBorder = b.isBorder

/-- Two surfaces with the same stored fields, values up to `eps`.  `isordered` is not stored
in the file. -/
def CloseSurf (eps : ℚ) (a b : Surf) : Prop :=
  a.index = b.index ∧ a.edgeind = b.edgeind ∧ a.voluind = b.voluind ∧
    a.isBorder = b.isBorder ∧ |b.fill - a.fill| ≤ eps ∧ |b.target - a.target| ≤ eps ∧
    |b.error - a.error| ≤ eps

/-- Two volumes with the same stored fields, values up to `eps`. -/
def CloseVolu (eps : ℚ) (a b : Volu) : Prop :=
  a.index = b.index ∧ a.surfind = b.surfind ∧ a.isBorder = b.isBorder ∧
    |b.fill - a.fill| ≤ eps ∧ |b.target - a.target| ≤ eps ∧ |b.error - a.error| ≤ eps

/-- Two meshes with the same elements in the same order, values up to `eps`. -/
def CloseMesh (eps : ℚ) (a b : Mesh) : Prop :=
  List.Forall₂ (CloseVert eps) a.verts b.verts ∧ List.Forall₂ SameEdge a.edges b.edges ∧
    List.Forall₂ (CloseSurf eps) a.surfs b.surfs ∧ List.Forall₂ (CloseVolu eps) a.volus b.volus

/-- Every value stored in a mesh satisfies `P`. -/
def MeshValues (P : ℚ → Prop) (m : Mesh) : Prop :=
  (∀ v ∈ m.verts, ∀ x ∈ v.coord, P x) ∧
  (∀ s ∈ m.surfs, P s.fill ∧ P s.target ∧ P s.error) ∧
  (∀ v ∈ m.volus, P v.fill ∧ P v.target ∧ P v.error)

/-- Two snaxels with the same edge and vertices, positions and speeds up to `eps`. -/
def CloseSnax (eps : ℚ) (a b : Snax) : Prop :=
  a.index = b.index ∧ a.fromvert = b.fromvert ∧ a.tovert = b.tovert ∧ a.edgeind = b.edgeind ∧
    a.isfreeze = b.isfreeze ∧ a.orderedge = b.orderedge ∧ |b.d - a.d| ≤ eps ∧ |b.v - a.v| ≤ eps

/-- Two snake edges or surfaces, normals up to `eps`. -/
def ClosePart (eps : ℚ) (a b : SnaxPart) : Prop :=
  a.index = b.index ∧ a.parent = b.parent ∧ |b.n0 - a.n0| ≤ eps ∧ |b.n1 - a.n1| ≤ eps ∧
    |b.n2 - a.n2| ≤ eps

/-- Two snakes with the same elements in the same order; `eps` for the snaxels and normals,
`eps'` for the connecting mesh. -/
def CloseSnake (eps eps' : ℚ) (a b : SnakeFile) : Prop :=
  List.Forall₂ (CloseSnax eps) a.snaxs b.snaxs ∧
    List.Forall₂ (ClosePart eps) a.snaxedges b.snaxedges ∧
    List.Forall₂ (ClosePart eps) a.snaxsurfs b.snaxsurfs ∧
    CloseMesh eps' a.snakeconn b.snakeconn

/-- Every value of the snaxels and normals satisfies `P`, every one of the mesh `Q`. -/
def SnakeValues (P Q : ℚ → Prop) (s : SnakeFile) : Prop :=
  (∀ x ∈ s.snaxs, P x.d ∧ P x.v) ∧ (∀ x ∈ s.snaxedges, P x.n0 ∧ P x.n1 ∧ P x.n2) ∧
    (∀ x ∈ s.snaxsurfs, P x.n0 ∧ P x.n1 ∧ P x.n2) ∧ MeshValues Q s.snakeconn

/-- A number as it can stand in a text file: sign, digits, point, digits, exponent. -/
structure Numeral where
  /-- `some true` is a minus, `some false` a plus -/
  sign : Option Bool := none
  whole : List (Fin 10)
  /-- digits after the point, if there is a point -/
  frac : Option (List (Fin 10)) := none
  /-- sign and digits of an exponent -/
  exp : Option (Option Bool × List (Fin 10)) := none

/-- The characters of a sign. -/
def signText : Option Bool → List Char
  | none => []
  | some true => ['-']
  | some false => ['+']

/-- The characters of digits. -/
def digitsText (l : List (Fin 10)) : List Char := l.map (fun d => Char.ofNat (48 + d.val))

/-- The number with the given digits, the most significant first. -/
def digitsNum (l : List (Fin 10)) : Nat := Nat.ofDigits 10 (l.map Fin.val).reverse

/-- The characters of a number. -/
def Numeral.text (n : Numeral) : List Char :=
  signText n.sign ++ digitsText n.whole ++
    (match n.frac with | none => [] | some f => '.' :: digitsText f) ++
    (match n.exp with | none => [] | some (s, e) => 'e' :: (signText s ++ digitsText e))

/-- There are digits, also in an exponent. -/
def Numeral.Valid (n : Numeral) : Prop :=
  (n.whole ≠ [] ∨ n.frac.getD [] ≠ []) ∧ ∀ s e, n.exp = some (s, e) → e ≠ []

/-- The value of a number. -/
def Numeral.value (n : Numeral) : ℚ :=
  (if n.sign = some true then -1 else 1) *
    ((digitsNum n.whole : ℚ) + (digitsNum (n.frac.getD []) : ℚ) / 10 ^ (n.frac.getD []).length) *
    10 ^ (match n.exp with
      | none => (0 : Int)
      | some (s, e) => (if s = some true then -1 else 1) * (digitsNum e : Int))

/-- White space. -/
def Blank (s : List Char) : Prop := ∀ c ∈ s, c ∈ [' ', '\t', '\n', '\x0b', '\x0c', '\r']

/-- `rest'` is `rest` without the white space in front. -/
def AfterBlank (rest rest' : List Char) : Prop :=
  ∃ b, Blank b ∧ rest = b ++ rest' ∧ ∀ c r, rest' = c :: r → ¬ Blank [c]

/-- The text `s` consists of the given numbers separated by white space. -/
inductive Layout : List Numeral → List Char → Prop
  | one {n : Numeral} {b : List Char} : n.Valid → Blank b → Layout [n] (b ++ n.text)
  | more {n n' : Numeral} {l : List Numeral} {b b' s : List Char} :
      n.Valid → Blank b → Blank b' → b' ≠ [] → Layout (n' :: l) s →
      Layout (n :: n' :: l) (b ++ n.text ++ b' ++ s)

/-- The cells whose fill is wanted: volumes in three dimensions, surfaces in two. -/
def cells (m : Mesh) : Nat := if m.meshDim = 3 then m.volus.length else m.surfs.length

/-- The mesh with target `t i` for the cell number `i` and nothing else changed. -/
def withTargets (t : Nat → ℚ) (m : Mesh) : Mesh :=
  if m.meshDim = 3 then
    { m with volus := m.volus.mapIdx (fun i v => { v with target := t i }) }
  else
    { m with surfs := m.surfs.mapIdx (fun i v => { v with target := t i }) }

/-- The values of a list repeated for ever. -/
def repeated (l : List ℚ) (i : Nat) : ℚ := l.getD (i % l.length) 0

end RSVS.Spec
