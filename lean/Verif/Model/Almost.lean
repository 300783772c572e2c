import Verif.Model.Mesh
import Verif.Model.SnakeMotion

/-!
# Snaxels about to reach a vertex

`snake::SnaxAlmostImpactDetection` (SRCC/src/snake/snake.cpp:2415-2486).
-/

namespace RSVS.Almost

variable {K : Type} [Field K] [LinearOrder K]

/-- The entries of `vertSnaxCloseCnt`, `vertSnaxMinInd` and `vertSnaxMinD` of one vertex (snake.cpp:2430-2432).  Simplification: the three vectors, which
have the same length and are read and written at the same positions, are one. -/
structure Nearest (K : Type) where
  cnt : Nat
  ind : Nat
  d : K
  deriving DecidableEq, Repr

/-- The vertex a snaxel is about to reach and the distance left (snake.cpp:2438-2451); `eps` stands for `DBL_EPSILON`. -/
def closing (eps lim : K) (s : Snax K) : Option (Int × K) :=
  if s.d < lim ∧ s.v ≤ 0 ∧ approxEq eps s.d 0 = false then some (s.fromvert, s.d)
  else if 1 - s.d < lim ∧ 0 ≤ s.v ∧ approxEq eps s.d 1 = false then some (s.tovert, 1 - s.d)
  else none

/-- The update of the entries of a vertex (snake.cpp:2455-2461). -/
def Nearest.add (i : Nat) (d : K) (c : Nearest K) : Nearest K :=
  if d ≤ c.d then ⟨c.cnt + 1, i, d⟩ else { c with cnt := c.cnt + 1 }

/-- One snaxel (snake.cpp:2436-2463); `vs` are the indices of the vertices of the snake mesh, a vertex not among them is looked up at position -1. -/
def scanStep (eps lim : K) (vs : List Int) (cells : List (Nearest K)) (si : Snax K × Nat) : Res (List (Nearest K)) :=
  match closing eps lim si.1 with
  | none => .ok cells
  | some (v, d) =>
    let p := posOf id vs v
    if p < 0 then .error .ub else .ok (cells.modify p.toNat (Nearest.add si.2 d))

/-- The first loop (snake.cpp:2430-2463). -/
def scan (eps lim : K) (vs : List Int) (snaxs : List (Snax K)) : Res (List (Nearest K)) :=
  snaxs.zipIdx.foldlM (m := Except Fault) (scanStep eps lim vs) (vs.map fun _ => ⟨0, 0, 1⟩)

/-- One vertex (snake.cpp:2468-2483). -/
def collapseStep (lim : K) (st : List (Snax K) × Impacts) (c : Nearest K) : Res (List (Snax K) × Impacts) :=
  if 2 ≤ c.cnt then
    (elemAt st.1 c.ind).bind fun s =>
      if s.d < lim then .ok (st.1.modify c.ind (fun s => { s with d := 0 }), st.2 ++ [(s.index, -1)])
      else .ok (st.1.modify c.ind (fun s => { s with d := 1 }), st.2 ++ [(s.index, -2)])
  else .ok st

/-- `snake::SnaxAlmostImpactDetection` (snake.cpp:2415-2486).  Simplification: `snaxs.PrepareForUse`, which rebuilds the hash tables, is left out; the pairs appended
to `isImpact` are a list of pairs. -/
def almostImpact (eps lim : K) (vs : List Int) (snaxs : List (Snax K)) (imp : Impacts) : Res (List (Snax K) × Impacts) :=
  (scan eps lim vs snaxs).bind fun cells => cells.foldlM (m := Except Fault) (collapseStep lim) (snaxs, imp)

end RSVS.Almost
