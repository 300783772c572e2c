import Mathlib.Data.Fin.VecNotation
import Mathlib.Data.List.Rotate
import Verif.Model.Geometry
import Verif.Spec.FaceFan
import Verif.Spec.Mesh
import Verif.Spec.Order
import Verif.Spec.Orient

/-!
# Specification of the normal at a vertex
-/

namespace RSVS.Spec

open RSVS.Geo

variable {K : Type} [Field K] [LinearOrder K]

/-- The triangles around `c`: each point with the next. -/
def fanPairs (pts : List (P3 K)) : List (P3 K × P3 K) := pts.zip (pts.rotate 1)

/-- The normal of a triangle at `c`, of twice its area: the points go round it against the clock from behind. -/
def cornerNormal (c p q : P3 K) : P3 K := ![
  (q 1 - c 1) * (p 2 - c 2) - (q 2 - c 2) * (p 1 - c 1),
  (q 2 - c 2) * (p 0 - c 0) - (q 0 - c 0) * (p 2 - c 2),
  (q 0 - c 0) * (p 1 - c 1) - (q 1 - c 1) * (p 0 - c 0)]

/-- The triangles which are not too small. -/
def wideFaces (len : P3 K → K) (eps : K) (c : P3 K) (pts : List (P3 K)) : List (P3 K × P3 K) :=
  (fanPairs pts).filter fun q => decide (eps ≤ |len (cornerNormal c q.1 q.2)|)

/-- The angle of a triangle at `c`. -/
def cornerAngle (ang : P3 K → P3 K → K) (c : P3 K) (q : P3 K × P3 K) : K := ang (fun i => q.2 i - c i) (fun i => q.1 i - c i)

/-- The unit normal of a triangle. -/
def cornerUnit (len : P3 K → K) (c : P3 K) (q : P3 K × P3 K) : P3 K := fun i =>
  cornerNormal c q.1 q.2 i / len (cornerNormal c q.1 q.2)

/-- The mean of the unit normals, weighted with the angles. -/
def angleMean (len : P3 K → K) (ang : P3 K → P3 K → K) (c : P3 K) (fs : List (P3 K × P3 K)) : P3 K := fun i =>
  (fs.map fun q => cornerUnit len c q i * cornerAngle ang c q).sum / (fs.map (cornerAngle ang c)).sum

/-- The sum of the angles between each unit normal and the one before it, all the way round. -/
def turning (len : P3 K → K) (ang : P3 K → P3 K → K) (c : P3 K) (fs : List (P3 K × P3 K)) : K :=
  ((fs.rotate 1).zip fs |>.map fun x => ang (cornerUnit len c x.1) (cornerUnit len c x.2)).sum

/-- Vectors which are not parallel have a positive angle. -/
def IsAngle (ang : P3 K → P3 K → K) : Prop := ∀ a b, cornerNormal 0 b a ≠ 0 → 0 < ang a b

/-- The normal at the corner after edge `k` of a surface between a volume and the outside, out of the volume: the ring of corners
`w` goes round the normal which points out of the first volume. -/
def outCorner (co : Int → P3 K) (f : Surf) (w : Nat → Int) (k : Nat) : P3 K := fun i =>
  (if f.voluind.head? = some 0 then -1 else 1) *
    cornerNormal (co (w (k + 1))) (co (w k)) (co (w ((k + 2) % f.edgeind.length))) i

/-- A vertex of the boundary of a volume `c`: the edges of the vertex, three or more, can be put in a ring `es`, each between two
surfaces, where the surfaces have the volume `c` on one side and the outside on the other. -/
structure BoundaryVert (m : Mesh) (v : Vert) (c : Int) : Prop where
  ring : ∃ es, 3 ≤ es.length ∧ es.Nodup ∧ (∀ e, e ∈ es ↔ e ∈ v.edgeind) ∧ IsLoop (EdgeParts m) es
  side : ∀ f ∈ m.surfs, (∃ e ∈ v.edgeind, e ∈ f.edgeind) → c ∈ f.voluind ∧ 0 ∈ f.voluind ∧ f.isordered = true

end RSVS.Spec
