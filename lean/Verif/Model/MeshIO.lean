import Verif.Model.Text
import Verif.Model.Mesh

/-!
# Model of the text files of meshes and snakes

SRCC/src/grid/mesh.cpp, SRCC/src/snake/snake.cpp and SRCC/incl/arraystructures_incl.cpp.
The text is what `fprintf` writes and `fscanf` reads (Model/Text.lean).  The file itself
(`fopen` may fail, mesh.cpp:3132-3165) is left out.
-/

namespace RSVS.MeshIO

open RSVS.Text

/-- `int(b)`. -/
def boolInt (b : Bool) : Int := if b then 1 else 0

/-- A list of indices: its size and its members (mesh.cpp:1741-1745). -/
def wInts (l : List Int) : Str := wInt l.length ++ (l.map wInt).flatten

/-- A list of coordinates: its size and its members (mesh.cpp:1795-1799). -/
def wReals (l : List ℚ) : Str := wInt l.length ++ (l.map (wReal 16)).flatten

/-- A list of indices read back: size, `assign`, members (mesh.cpp:1809-1814). -/
def rInts : Scan (List Int) := do
  let n ← rInt
  let k ← rSize n
  rMany rInt k

/-- A list of coordinates read back (mesh.cpp:1869-1874). -/
def rReals (rd : ℚ → ℚ) : Scan (List ℚ) := do
  let n ← rInt
  let k ← rSize n
  rMany (rReal rd) k

/-- `volu::write` (mesh.cpp:1736-1747). -/
def wVolu (v : Volu) : Str :=
  wInt v.index ++ (wReal 16 v.fill ++ (wReal 16 v.target ++ (wReal 16 v.error ++
    (wInt (boolInt v.isBorder) ++ (wInts v.surfind ++ ['\n'])))))

/-- `surf::write` (mesh.cpp:1749-1765). -/
def wSurf (s : Surf) : Str :=
  wInt s.index ++ (wReal 16 s.fill ++ (wReal 16 s.target ++ (wReal 16 s.error ++
    (wInt (boolInt s.isBorder) ++ (wInts s.voluind ++ (wInts s.edgeind ++ ['\n']))))))

/-- `edge::write` (mesh.cpp:1767-1783). -/
def wEdge (e : Edge) : Str :=
  wInt e.index ++ (wInt (boolInt e.isBorder) ++ (wInts e.vertind ++ (wInts e.surfind ++ ['\n'])))

/-- `vert::write` (mesh.cpp:1785-1801). -/
def wVert (v : Vert) : Str :=
  wInt v.index ++ (wInt (boolInt v.isBorder) ++ (wInts v.edgeind ++ (wReals v.coord ++ ['\n'])))

/-- `volu::read` (mesh.cpp:1803-1815). -/
def rVolu (rd : ℚ → ℚ) : Scan Volu := do
  let index ← rInt
  let fill ← rReal rd
  let target ← rReal rd
  let error ← rReal rd
  let i ← rInt
  let surfind ← rInts
  pure { index, surfind, fill, target, error, isBorder := i != 0 }

/-- `surf::read` (mesh.cpp:1817-1835); `isordered` keeps the value of a new surface. -/
def rSurf (rd : ℚ → ℚ) : Scan Surf := do
  let index ← rInt
  let fill ← rReal rd
  let target ← rReal rd
  let error ← rReal rd
  let i ← rInt
  let voluind ← rInts
  let edgeind ← rInts
  pure { index, edgeind, voluind, fill, target, error, isBorder := i != 0 }

/-- `edge::read` (mesh.cpp:1837-1855). -/
def rEdge : Scan Edge := do
  let index ← rInt
  let i ← rInt
  let vertind ← rInts
  let surfind ← rInts
  pure { index, vertind, surfind, isBorder := i != 0 }

/-- `vert::read` (mesh.cpp:1857-1875). -/
def rVert (rd : ℚ → ℚ) : Scan Vert := do
  let index ← rInt
  let i ← rInt
  let edgeind ← rInts
  let coord ← rReals rd
  pure { index, edgeind, coord, isBorder := i != 0 }

/-- `ArrayStruct::write` (arraystructures_incl.cpp:444-452). -/
def wArray {α : Type} (w : α → Str) (isInMesh : Bool) (l : List α) : Str :=
  wInt l.length ++ (wInt (boolInt isInMesh) ++ (['\n'] ++ (l.map w).flatten))

/-- `ArrayStruct::read` (arraystructures_incl.cpp:453-463) with `Init`
(arraystructures_incl.cpp:519-525). -/
def rArray {α : Type} (r : Scan α) : Scan (Bool × List α) := do
  let n ← rInt
  let ii ← rInt
  let k ← rSize n
  let l ← rMany r k
  pure (ii != 0, l)

/-- `mesh::write` (mesh.cpp:3124-3131); `fl` are the flags `isInMesh` of the four
containers. -/
def writeMesh (fl : Fin 4 → Bool) (m : Mesh) : Str :=
  wArray wVert (fl 0) m.verts ++ (wArray wEdge (fl 1) m.edges ++
    (wArray wSurf (fl 2) m.surfs ++ wArray wVolu (fl 3) m.volus))

/-- `mesh::read` (mesh.cpp:3112-3123) into a new mesh; the flags read are overwritten. -/
def readMesh (rd : ℚ → ℚ) : Scan Mesh := do
  let verts ← rArray (rVert rd)
  let edges ← rArray rEdge
  let surfs ← rArray (rSurf rd)
  let volus ← rArray (rVolu rd)
  pure { verts := verts.2, edges := edges.2, surfs := surfs.2, volus := volus.2 }

/-- `class snax` (snake.hpp:191-242). -/
structure Snax where
  index : Int
  d : ℚ
  v : ℚ
  fromvert : Int
  tovert : Int
  edgeind : Int
  isfreeze : Int
  orderedge : Int
  deriving DecidableEq, Repr

/-- `class snaxedge` (snake.hpp:244-281) and `class snaxsurf` (snake.hpp:283-318), which
have the same fields; `parent` is `surfind` or `voluind`. -/
structure SnaxPart where
  index : Int
  parent : Int
  n0 : ℚ
  n1 : ℚ
  n2 : ℚ
  deriving DecidableEq, Repr

/-- What `class snake` stores in a file: `snaxs`, `snaxedges`, `snaxsurfs`, `snakeconn`. -/
structure SnakeFile where
  snaxs : List Snax
  snaxedges : List SnaxPart
  snaxsurfs : List SnaxPart
  snakeconn : Mesh
  deriving DecidableEq, Repr

/-- `snax::write` (snake.cpp:47-50). -/
def wSnax (s : Snax) : Str :=
  wInt s.index ++ (wReal 6 s.d ++ (wReal 6 s.v ++ (wInt s.edgeind ++ (wInt s.fromvert ++
    (wInt s.tovert ++ (wInt s.isfreeze ++ (wInt s.orderedge ++ ['\n'])))))))

/-- `snaxedge::write` (snake.cpp:52-55) and `snaxsurf::write` (snake.cpp:57-60). -/
def wPart (s : SnaxPart) : Str :=
  wInt s.index ++ (wInt s.parent ++ (wReal 6 s.n0 ++ (wReal 6 s.n1 ++ (wReal 6 s.n2 ++ ['\n']))))

/-- `snax::read` (snake.cpp:61-64). -/
def rSnax (rd : ℚ → ℚ) : Scan Snax := do
  let index ← rInt
  let d ← rReal rd
  let v ← rReal rd
  let edgeind ← rInt
  let fromvert ← rInt
  let tovert ← rInt
  let isfreeze ← rInt
  let orderedge ← rInt
  pure { index, d, v, fromvert, tovert, edgeind, isfreeze, orderedge }

/-- `snaxedge::read` (snake.cpp:66-69) and `snaxsurf::read` (snake.cpp:71-74). -/
def rPart (rd : ℚ → ℚ) : Scan SnaxPart := do
  let index ← rInt
  let parent ← rInt
  let n0 ← rReal rd
  let n1 ← rReal rd
  let n2 ← rReal rd
  pure { index, parent, n0, n1, n2 }

/-- `snake::write` (snake.cpp:263-271); `fs` and `fl` are the flags `isInMesh`. -/
def writeSnake (fs : Fin 3 → Bool) (fl : Fin 4 → Bool) (s : SnakeFile) : Str :=
  wArray wSnax (fs 0) s.snaxs ++ (wArray wPart (fs 1) s.snaxedges ++
    (wArray wPart (fs 2) s.snaxsurfs ++ writeMesh fl s.snakeconn))

/-- `snake::read` (snake.cpp:255-262) into a new snake. -/
def readSnake (rd : ℚ → ℚ) : Scan SnakeFile := do
  let snaxs ← rArray (rSnax rd)
  let snaxedges ← rArray (rPart rd)
  let snaxsurfs ← rArray (rPart rd)
  let snakeconn ← readMesh rd
  pure { snaxs := snaxs.2, snaxedges := snaxedges.2, snaxsurfs := snaxsurfs.2, snakeconn }

/-- One reading `file >> ft` of the loop of `LoadTargetFill` (mesh.cpp:5303).  `ft` is the
value of the variable before (`none`: uninitialised).  Returns the value after and the state
of the stream: the text left, and whether the stream has reached its end (`eof`).  At the
end of the text `ft` is unchanged.  A text which is no number is out of the model (`ub`); a
number read up to the end of the text sets `eof`. -/
def streamReal (rd : ℚ → ℚ) (ft : Option ℚ) (s : Str) : Res (Option ℚ × Str × Bool) :=
  if dropSpace s = [] then .ok (ft, [], true)
  else do
    let (x, r) ← scanReal rd s
    .ok (some x, r, r == [])

/-- The loop of `LoadTargetFill` (mesh.cpp:5299-5306); `n` values are still wanted.  Pushing
back an uninitialised value is undefined behaviour. -/
def fillLoop (rd : ℚ → ℚ) : Nat → Option ℚ → Str → Bool → Res (List ℚ)
  | 0, _, _, _ => .ok []
  | _ + 1, _, _, true => .ok []
  | n + 1, ft, s, false => do
    let (ft', r, eof) ← streamReal rd ft s
    match ft' with
    | none => .error .ub
    | some x => do
      let l ← fillLoop rd n (some x) r eof
      .ok (x :: l)

/-- `fillVals[i % count]` for the cells `0 … n - 1` (mesh.cpp:5310-5325). -/
def spread (n : Nat) (vals : List ℚ) : Res (List ℚ) :=
  (List.range n).mapM (m := Except Fault) (fun i =>
    if vals.length = 0 then .error .ub else vecGet vals ((i % vals.length : Nat) : Int))

/-- The targets given to `n` cells by `LoadTargetFill` (mesh.cpp:5278-5327) from the text of
the file, in a mesh of dimension 2 or 3. -/
def targetVals (rd : ℚ → ℚ) (n : Nat) (s : Str) : Res (List ℚ) := do
  let vals ← fillLoop rd n none s false
  spread n vals

/-- `mesh::LoadTargetFill` (mesh.cpp:5278-5327): the cells are the volumes in three
dimensions and the surfaces in two; `PrepareForUse` at the end is left out. -/
def loadTargetFill (rd : ℚ → ℚ) (m : Mesh) (s : Str) : Res Mesh :=
  if m.meshDim = 3 then do
    let t ← targetVals rd m.volus.length s
    .ok { m with volus := List.zipWith (fun v x => { v with target := x }) m.volus t }
  else if m.meshDim = 2 then do
    let t ← targetVals rd m.surfs.length s
    .ok { m with surfs := List.zipWith (fun v x => { v with target := x }) m.surfs t }
  else .error .throws

end RSVS.MeshIO
