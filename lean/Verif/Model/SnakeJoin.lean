import Verif.Model.Mesh
import Verif.Model.SnakeMotion

/-!
# Joining snakes and merging snaxels

Model of `snake::Concatenate` and `MakeCompatible` (SRCC/src/snake/snake.cpp:486-600), of
`SnaxImpactDetection` (snake.cpp:2367-2414) and of `MergeAllContactVertices`
(SRCC/src/snake/snakeengine.cpp:220-276).  `double` is an element of a linear ordered field.  The hash tables of the
containers are up to date; which vectors the containers keep besides their elements is not modelled.
-/

namespace RSVS

/-- `snaxedge` (SRCC/incl/snake.hpp:244-281), without its normal. -/
structure SnaxEdge where
  index : Int
  surfind : Int
  deriving DecidableEq, Repr

/-- `snaxsurf` (snake.hpp:283-319), without its normal. -/
structure SnaxSurf where
  index : Int
  voluind : Int
  deriving DecidableEq, Repr

/-- Members of `snake` (snake.hpp:82-110) that are used here; `base` is the address of the mesh the snake is on. -/
structure Snake (K : Type) where
  snaxs : List (Snax K)
  snaxedges : List SnaxEdge
  snaxsurfs : List SnaxSurf
  conn : Mesh
  base : Nat
  vertIn : List Bool
  flipped : Bool
  deriving DecidableEq

section
variable {K : Type}

namespace Snake

/-- `CompareSnakeInternalStatus` (snake.cpp:486-511); the second vector is only read where the first condition
holds. -/
def compareInternal (tf of_ : Bool) : List Bool → List Bool → Res Bool
  | [], _ => .ok true
  | a :: l, b :: r => if (a ^^ tf) && (b ^^ of_) then .ok false else compareInternal tf of_ l r
  | a :: l, [] => if a ^^ tf then .error .ub else compareInternal tf of_ l []

/-- The loop for independent snakes (snake.cpp:542-546). -/
def joinOr (tf of_ : Bool) : List Bool → List Bool → Res (List Bool)
  | [], _ => .ok []
  | a :: l, b :: r => (joinOr tf of_ l r).map ((((a ^^ tf) || (b ^^ of_)) ^^ tf) :: ·)
  | a :: l, [] => if a ^^ tf then (joinOr tf of_ l []).map ((true ^^ tf) :: ·) else .error .ub

/-- The loop for other snakes (snake.cpp:550-554). -/
def joinAnd (tf of_ : Bool) : List Bool → List Bool → Res (List Bool)
  | [], _ => .ok []
  | a :: l, b :: r => (joinAnd tf of_ l r).map ((((a ^^ tf) && (b ^^ of_)) ^^ tf) :: ·)
  | a :: l, [] => if a ^^ tf then .error .ub else (joinAnd tf of_ l []).map ((false ^^ tf) :: ·)

/-- `snake::Concatenate` (snake.cpp:512-579). -/
def concatenate (s other : Snake K) (isInternal : Int) : Res (Snake K) :=
  if s.base = other.base then
    (if isInternal = 0 then compareInternal s.flipped other.flipped s.vertIn other.vertIn
      else .ok (decide (isInternal ≤ 0))).bind fun isIndep =>
    ((if isIndep then joinOr else joinAnd) s.flipped other.flipped s.vertIn other.vertIn).map fun v =>
    { s with
      snaxs := s.snaxs ++ other.snaxs
      snaxedges := s.snaxedges ++ other.snaxedges
      snaxsurfs := s.snaxsurfs ++ other.snaxsurfs
      conn := s.conn.concatenate other.conn
      vertIn := v }
  else .error .throws

/-- `snake::ChangeIndices` (snake.cpp:457-463 with 171-182). -/
def changeIndices (nVert nEdge nSurf nVolu : Int) (s : Snake K) : Snake K :=
  { s with
    snaxs := s.snaxs.map fun x => { x with index := x.index + nVert }
    snaxedges := s.snaxedges.map fun x => { x with index := x.index + nEdge }
    snaxsurfs := s.snaxsurfs.map fun x => { x with index := x.index + nSurf }
    conn := s.conn.changeIndices nVert nEdge nSurf nVolu }

/-- `snake::MakeCompatible_inplace` (snake.cpp:581-595); the maximum indices are those of `snakeconn`. -/
def makeCompatible (s other : Snake K) : Snake K :=
  let r := other.changeIndices (Mesh.maxIdx Vert.index s.conn.verts) (Mesh.maxIdx Edge.index s.conn.edges)
    (Mesh.maxIdx Surf.index s.conn.surfs) (Mesh.maxIdx Volu.index s.conn.volus)
  { r with snaxs := r.snaxs.map fun x => { x with orderedge := -1 } }

end Snake

section
variable [Field K] [LinearOrder K]

/-- A snaxel alone on its edge (snake.cpp:2390-2399). -/
def impactAlone (eps : K) (a : Snax K) : Impacts :=
  if approxEq eps a.d 0 = true ∧ a.v ≤ 0 then [(a.index, -1)]
  else if approxEq eps a.d 1 = true ∧ a.v ≥ 0 then [(a.index, -2)]
  else []

/-- The loop of `snake::SnaxImpactDetection` (snake.cpp:2383-2413); `subs e` are the positions of the snaxels of edge
`e`, as listed by the hash table. -/
def impactLoop (eps : K) (l : List (Snax K)) (subs : Int → List Nat) :
    List Nat → (Nat → Bool) → Res Impacts
  | [], _ => .ok []
  | i :: r, done =>
    if done i then impactLoop eps l subs r done
    else match l[i]? with
      | none => .error .throws
      | some a =>
        let p := subs a.edgeind
        if p.length = 1 then
          (impactLoop eps l subs r fun x => if x = i then true else done x).map (impactAlone eps a ++ ·)
        else if p.length > 1 then
          (impactLoop eps l subs r fun x => if x ∈ p then true else done x).map
            (detectImpactOnEdge eps (p.filterMap (l[·]?)) ++ ·)
        else .error .throws

/-- `snake::SnaxImpactDetection` (snake.cpp:2367-2414). -/
def snaxImpactDetection (eps : K) (l : List (Snax K)) (subs : Int → List Nat) : Res Impacts :=
  impactLoop eps l subs (List.range l.length) fun _ => false

end

/-- What the loop of `MergeAllContactVertices` changes: `snakeconn`, the snaxels it stops and those it removes. -/
structure MergeState where
  conn : Mesh
  stop : List Int := []
  remove : List Int := []

/-- The loop of `MergeAllContactVertices` (snakeengine.cpp:245-269) over the impacts from position `ii`; `done` is
`isImpactDone`. -/
def mergeLoop (all : Impacts) : Impacts → Nat → (Nat → Bool) → MergeState → Res MergeState
  | [], _, _, s => .ok s
  | (a, b) :: r, ii, done, s =>
    if done ii then mergeLoop all r (ii + 1) done s
    else
      let done := fun j => if j = ii then true else done j
      if b > 0 then
        (s.conn.switchVert a b).bind fun conn =>
        mergeLoop all r (ii + 1)
          (fun j => done j || (all[j]?.any fun p => p.1 == b || p.2 == b))
          { conn := conn, stop := s.stop ++ [b], remove := s.remove ++ [a] }
      else mergeLoop all r (ii + 1) done s

/-- `fullsnake.snaxs[sub].v = 0.0` for the positions of `stop` (snakeengine.cpp:253 and 270-273). -/
def stopSnax [Zero K] : List Int → List (Snax K) → Res (List (Snax K))
  | [], l => .ok l
  | b :: r, l => (modAt l (posOf Snax.index l b) fun s => { s with v := 0 }).bind (stopSnax r)

/-- `MergeAllContactVertices` (snakeengine.cpp:220-276). -/
def mergeAllContactVertices [Zero K] (s : Snake K) (impacts : Impacts) : Res (Snake K) :=
  (mergeLoop impacts impacts 0 (fun _ => false) { conn := s.conn }).bind fun m =>
  (stopSnax m.stop s.snaxs).map fun snaxs =>
  { s with
    snaxs := removeIdx Snax.index snaxs m.remove
    conn := { m.conn with verts := removeIdx Vert.index m.conn.verts m.remove } }

end

end RSVS
