import Mathlib.Algebra.Order.Field.Basic
import Mathlib.Algebra.Order.Floor.Ring
import Verif.Model.Basic

/-!
# Geometry of meshes

Vectors (`coordvec`, SRCC/src/grid/mesh.cpp:24-281, SRCC/incl/mesh.hpp:113-181), plane normals and
distances (mesh.cpp:283-478), centres of surfaces and volumes (mesh.cpp:553-637, 4872-4942), scaling
(mesh.cpp:5158-5266, SRCC/src/snake/snake.cpp:2734-2746) and the scaling around the exports
(SRCC/src/rsvs/RSVSintegration.cpp:779-832).

Simplification: `double` is an ordered field `K`, arithmetic is exact and nothing overflows; a
division by zero gives a value which is not finite, modelled where the code tests for it.  A vector
of coordinates is a function on `Fin 3` (the code keeps vectors of three entries), except where the
code may use a vector of another length.  The Euclidean norm is a function `len`, given as a
parameter, so that square roots need not exist in `K`.
-/

namespace RSVS.Geo

variable {K : Type} [Field K] [LinearOrder K] [IsStrictOrderedRing K]

/-- A point or vector. -/
abbrev P3 (K : Type) := Fin 3 → K

/-- `coordvec::cross` (mesh.cpp:244-254): `this × vecin`, with the indices of the loop
`ii = 3, 4, 5` reduced. -/
def cross (a b : P3 K) : P3 K := fun i =>
  a (i + 1) * b (i + 2) - a (i + 2) * b (i + 1)

/-- `coordvec::dot` (mesh.cpp:256-265) with a vector of three entries. -/
def dot (a b : P3 K) : K := 0 + a 0 * b 0 + a 1 * b 1 + a 2 * b 2

/-- `DiffPointsFromCentre` (mesh.cpp:313-322): the two differences. -/
def diffPoints (c v1 v2 : P3 K) : P3 K × P3 K := (fun i => v1 i - c i, fun i => v2 i - c i)

/-- `PlaneNormal` (mesh.cpp:333-338). -/
def planeNormal (p1 p2 p3 : P3 K) : P3 K := cross (diffPoints p1 p2 p3).2 (diffPoints p1 p2 p3).1

/-- `coordvec::dot` with any vector: the three entries are read without check. -/
def dotList (a : P3 K) (l : List K) : Res K := do
  let x ← vecGet l 0
  let y ← vecGet l 1
  let z ← vecGet l 2
  pure (0 + a 0 * x + a 1 * y + a 2 * z)

/-- `VertexDistanceToPlane` (mesh.cpp:400-415) with the size test. -/
def vertexDistance (p1 p2 p3 : P3 K) (l : List K) : Res K :=
  if l.length ≠ 3 then .error .throws
  else do
    let d ← dotList (planeNormal p1 p2 p3) l
    pure (d - dot (planeNormal p1 p2 p3) p1)

/-- The loop of `VerticesDistanceToPlane` (mesh.cpp:458-462): `testVertex.assign` with an empty
range. -/
def distanceLoop (n p1 : P3 K) : Nat → Res (List K)
  | 0 => .ok []
  | k + 1 => do
    let d ← dotList n []
    let r ← distanceLoop n p1 k
    pure ((d - dot n p1) :: r)

/-- `VerticesDistanceToPlane` (mesh.cpp:438-465). -/
def verticesDistance (p1 p2 p3 : P3 K) (l : List K) : Res (List K) :=
  if l.length % 3 ≠ 0 then .error .throws
  else if l.length / 3 = 0 then .ok []
  else do
    let d ← vertexDistance p1 p2 p3 (l.take 3)
    let r ← distanceLoop (planeNormal p1 p2 p3) p1 (l.length / 3 - 1)
    pure (d :: r)

/-! ### Centres -/

/-- One edge in the loops of `CalcCentreVolu` (mesh.cpp:4889-4902): the ends are read from the
mesh, which succeeds in a sound mesh; `ret` and `voluLength` are updated. -/
def centreStep (len : P3 K → K) (s : P3 K × K) (e : P3 K × P3 K) : P3 K × K :=
  let diff : P3 K := fun i => 0 + e.1 i - e.2 i
  (fun i => s.1 i + (diff i + e.2 i + e.2 i) * len diff, s.2 + len diff)

/-- `mesh::CalcCentreVolu` (mesh.cpp:4872-4907) on the edges of the surfaces of the volume, in the
order of the loops; an edge comes once for every surface it is part of.  `ret.div(voluLength)` is a
multiplication by `1.0 / voluLength`. -/
def centreVolu (len : P3 K → K) (es : List (P3 K × P3 K)) : P3 K :=
  let s := es.foldl (centreStep len) (fun _ => 0, 0)
  fun i => s.1 i * (1 / s.2)

/-- `edge::GeometricProperties` (mesh.cpp:1456-1468): centre and length. -/
def edgeGeom (len : P3 K → K) (e : P3 K × P3 K) : P3 K × K :=
  let diff : P3 K := fun i => 0 - e.1 i + e.2 i
  (fun i => (diff i + e.1 i + e.1 i) * (1 / 2), len diff)

/-- The loop of `surf::PseudoCentroid` (mesh.cpp:581-587). -/
def surfStep (len : P3 K → K) (s : P3 K × K) (e : P3 K × P3 K) : P3 K × K :=
  (fun i => s.1 i + (edgeGeom len e).1 i * (edgeGeom len e).2, s.2 + (edgeGeom len e).2)

/-- `rsvs3d::utils::IsAproxEqual(x, 0.0)` (SRCC/incl/rsvsutils.hpp:19-22). -/
def nearZero (eps x : K) : Bool := decide (|x - 0| < eps)

/-- `surf::PseudoCentroid` (mesh.cpp:573-601): the coordinates and the perimeter `surfLength`. -/
def surfCentroid (len : P3 K → K) (eps : K) (es : List (P3 K × P3 K)) : P3 K × K :=
  let s := es.foldl (surfStep len) (fun _ => 0, 0)
  if nearZero eps s.2 then
    match es with
    | [] => s
    | e :: _ => ((edgeGeom len e).1, s.2)
  else (fun i => s.1 i * (1 / s.2), s.2)

variable [FloorRing K]

/-- The conversion of a `double` to `int` on `return surfLength` (mesh.cpp:600): towards zero. -/
def toInt (x : K) : Int := if 0 ≤ x then ⌊x⌋ else ⌈x⌉

/-- The loop of `volu::PseudoCentroid` (mesh.cpp:617-623). -/
def voluStep (len : P3 K → K) (eps : K) (s : P3 K × K) (es : List (P3 K × P3 K)) : P3 K × K :=
  let c := surfCentroid len eps es
  (fun i => s.1 i + c.1 i * (toInt c.2 : K), s.2 + (toInt c.2 : K))

/-- `volu::PseudoCentroid` (mesh.cpp:610-637) on the edges of each surface. -/
def voluCentroid (len : P3 K → K) (eps : K) (ss : List (List (P3 K × P3 K))) : P3 K :=
  let s := ss.foldl (voluStep len eps) (fun _ => 0, 0)
  if nearZero eps s.2 then
    match ss with
    | [] => s.1
    | es :: _ => (surfCentroid len eps es).1
  else fun i => s.1 i * (1 / s.2)

omit [FloorRing K]

/-- The loop of `CalcPseudoNormalSurf` (mesh.cpp:4923-4939) for the vertex `jj` of `nj`. -/
def normalTerm (v : Nat → P3 K) (nj jj : Nat) : P3 K :=
  cross (fun i => 0 + v ((jj + 1) % nj) i - v jj i) (fun i => 0 + v ((jj + nj - 1) % nj) i - v jj i)

/-- `mesh::CalcPseudoNormalSurf` (mesh.cpp:4909-4943) on the coordinates of the ordered vertices:
the sum before the division, and the divisor `voluLength`. -/
def normalSums (len : P3 K → K) (v : Nat → P3 K) (nj : Nat) : P3 K × K :=
  (List.range nj).foldl (fun s jj =>
    (fun i => s.1 i + normalTerm v nj jj i, s.2 + len (normalTerm v nj jj))) (fun _ => 0, 0)

/-- `mesh::CalcPseudoNormalSurf` (mesh.cpp:4909-4943). -/
def pseudoNormal (len : P3 K → K) (vs : List (P3 K)) : P3 K :=
  let s := normalSums len (fun k => vs.getD k (fun _ => 0)) vs.length
  fun i => s.1 i * (1 / s.2)

/-! ### Scaling -/

/-- `mesh::BoundingBox` (mesh.cpp:5247-5266), one direction: `none` is the start value
`{inf, -inf}`. -/
def boundStep (b : Option (K × K)) (x : K) : Option (K × K) :=
  match b with
  | none => some (x, x)
  | some (lo, hi) => some (if lo ≤ x then lo else x, if hi ≥ x then hi else x)

def boundingBox (vs : List (P3 K)) (i : Fin 3) : Option (K × K) :=
  (vs.map (· i)).foldl boundStep none

/-- A transformation in one direction: new minimum, old minimum, multiplier
(`grid::transformation`, mesh.hpp:83-85). -/
structure Trans (K : Type) where
  new : K
  old : K
  mult : K
  deriving DecidableEq

/-- `transform[0] + ((x - transform[1]) * transform[2])` (mesh.cpp:5215-5216). -/
def Trans.app (t : Trans K) (x : K) : K := t.new + ((x - t.old) * t.mult)

/-- `mesh::LinearTransform` (mesh.cpp:5207-5219). -/
def linearTransform (t : Fin 3 → Trans K) (vs : List (P3 K)) : List (P3 K) :=
  vs.map (fun v i => (t i).app (v i))

/-- The parameters of `mesh::Scale` in one direction (mesh.cpp:5186-5195): the quotient is not
finite exactly when the box is flat. -/
def scaleTrans (lb ub : K) (b : K × K) : Trans K :=
  { new := lb, old := b.1, mult := if b.2 - b.1 = 0 then 1 else (ub - lb) / (b.2 - b.1) }

/-- `mesh::Scale` (mesh.cpp:5168-5200) for a mesh with vertices: the transformation and the new
coordinates.  (Without vertices nothing is moved and the old minimum is infinite; the model
gives the one of the box `[0, 0]`.) -/
def scale (lb ub : P3 K) (vs : List (P3 K)) : (Fin 3 → Trans K) × List (P3 K) :=
  let t : Fin 3 → Trans K := fun i => scaleTrans (lb i) (ub i) ((boundingBox vs i).getD (0, 0))
  (t, linearTransform t vs)

/-- The meshes of a family: coordinates of each mesh. -/
abbrev Store (K : Type) := Nat → List (P3 K)

def Store.set (s : Store K) (k : Nat) (v : List (P3 K)) : Store K := fun j => if j = k then v else s j

/-- `mesh::_LinearTransformGeneration` (mesh.cpp:5238-5245); `gen` gives the parents (or the
children) of a mesh.  The recursion has no test for a mesh that was visited before: without enough
fuel it does not end. -/
def transformGen (gen : Nat → List Nat) (t : Fin 3 → Trans K) : Nat → Nat → Store K → Res (Store K)
  | 0, _, _ => .error .diverges
  | n + 1, id, s =>
    (gen id).foldlM (fun s f => transformGen gen t n f (s.set f (linearTransform t (s f)))) s

/-- `mesh::LinearTransformFamily` (mesh.cpp:5225-5229). -/
def transformFamily (up down : Nat → List Nat) (t : Fin 3 → Trans K) (n id : Nat) (s : Store K) :
    Res (Store K) := do
  let s' ← transformGen up t n id s
  transformGen down t n id s'

/-- `snake::Scale` (snake.cpp:2734-2746): `id` is the mesh of the snake, `conn` the number of
`snakeconn`. -/
def snakeScale (up down : Nat → List Nat) (n id conn : Nat) (lb ub : P3 K) (s : Store K) :
    Res (Store K) :=
  let r := scale lb ub (s id)
  let s1 := s.set id r.2
  let s2 := s1.set conn (linearTransform r.1 (s1 conn))
  transformFamily up down r.1 n id s2

/-! ### Scaling around the exports -/

/-- The two domains of `paramconf.grid`. -/
inductive Dom | physical | computational
  deriving DecidableEq, Repr

/-- The entries of `exportconfig`. -/
inductive Export | su2 | snake | none | unknown
  deriving DecidableEq, Repr

/-- The loop of `integrate::execute::Exporting` (RSVSintegration.cpp:792-829): the domain the snake
is in, and the export files written (`SU2` and `snakeconn.write`) with the domain at that time.  The
sensitivity file of the `snake` export and the tecplot file written before the loop are left out. -/
def exportLoop (isRsvs : Bool) : Dom → List Export → List (Export × Dom) × Dom
  | d, [] => ([], d)
  | d, .su2 :: l => let r := exportLoop isRsvs d l; ((.su2, d) :: r.1, r.2)
  | _, .snake :: l =>
    let r := exportLoop isRsvs (if isRsvs then .physical else .computational) l
    ((.snake, .computational) :: r.1, r.2)
  | d, _ :: l => exportLoop isRsvs d l

/-- `integrate::execute::Exporting` (RSVSintegration.cpp:779-832). -/
def exporting (isRsvs : Bool) (l : List Export) : List (Export × Dom) × Dom :=
  ((exportLoop isRsvs .physical l).1, .computational)

/-! ### The stored norm -/

/-- A `coordvec`: entries, stored norm and flag (mesh.hpp:113-118). -/
structure CoordVec (K : Type) where
  elems : P3 K
  norm : K
  upToDate : Bool

namespace CoordVec

/-- `coordvec::CalcNorm` (mesh.cpp:137-142). -/
def calcNorm (len : P3 K → K) (c : CoordVec K) : CoordVec K :=
  { c with norm := len c.elems, upToDate := true }

/-- `coordvec::GetNorm` (mesh.cpp:118-126). -/
def getNorm (len : P3 K → K) (c : CoordVec K) : CoordVec K :=
  if c.upToDate then c else c.calcNorm len

/-- `coordvec::assign` (mesh.cpp:149-155). -/
def assign (len : P3 K → K) (v : P3 K) (c : CoordVec K) : CoordVec K :=
  { c with elems := v }.calcNorm len

/-- `operator=` from a vector (mesh.hpp:171-180), `operator[]` used to write (mesh.cpp:24-35), `swap`
with a vector (mesh.cpp:48-57) and the element-wise `max`, `min`, `add`, `substract`,
`substractfrom`, `div`, `mult` (mesh.cpp:165-228): the flag is cleared. -/
def write (f : P3 K → P3 K) (c : CoordVec K) : CoordVec K :=
  { c with elems := f c.elems, upToDate := false }

/-- `coordvec::flipsign` (mesh.cpp:73-79): norm and flag are kept. -/
def flipsign (c : CoordVec K) : CoordVec K := { c with elems := fun i => - c.elems i }

/-- `coordvec::mult(double)` (mesh.cpp:234-242): the norm is multiplied, the flag is kept. -/
def mult (x : K) (c : CoordVec K) : CoordVec K :=
  { c with elems := fun i => c.elems i * x, norm := x * c.norm }

/-- `coordvec::div(double)` (mesh.cpp:230-233). -/
def div (x : K) (c : CoordVec K) : CoordVec K := c.mult (1 / x)

/-- `coordvec::Normalize` (mesh.cpp:87-98); for the zero vector the entries are not finite (0 in
the model). -/
def normalize (len : P3 K → K) (c : CoordVec K) : CoordVec K :=
  { elems := fun i => c.elems i / (c.getNorm len).norm, norm := 1, upToDate := true }

/-- The operations on one `coordvec` which may be called from outside (mesh.hpp:120-159). -/
inductive Op (K : Type)
  | getNorm
  | calcNorm
  | assign (v : P3 K)
  | write (f : P3 K → P3 K)
  | flipsign
  | mult (x : K)
  | div (x : K)
  | normalize

def step (len : P3 K → K) (c : CoordVec K) : Op K → CoordVec K
  | .getNorm => c.getNorm len
  | .calcNorm => c.calcNorm len
  | .assign v => c.assign len v
  | .write f => c.write f
  | .flipsign => c.flipsign
  | .mult x => c.mult x
  | .div x => c.div x
  | .normalize => c.normalize len

/-- The constructor (mesh.hpp:161-170). -/
def init : CoordVec K := { elems := fun _ => 0, norm := 0, upToDate := false }

end CoordVec

end RSVS.Geo
