import Verif.Spec.Flood
import Verif.Spec.FaceFan

/-!
# Specification of the new containers of a mesh
-/

namespace RSVS.Spec

/-- The edges of each surface are joined. -/
def SurfJoined (m : Mesh) : Prop :=
  ∀ s e e' v v', SurfEdge m s e → SurfEdge m s e' → EdgeVert m e v → EdgeVert m e' v' →
    VertJoined m (fun _ => True) (HasVert m) v v'

/-- `lab` numbers the connected parts of the mesh, with the numbers in `P`. -/
structure Parts (m : Mesh) (P : Int → Prop) (lab : Int → Int) : Prop where
  into : ∀ v, HasVert m v → P (lab v)
  onto : ∀ c, P c → ∃ v, HasVert m v ∧ lab v = c
  same : ∀ v w, HasVert m v → HasVert m w → (lab v = lab w ↔ VertJoined m (fun _ => True) (HasVert m) v w)

/-- In `r` the connected parts of `m` have one volume each; nothing else is changed.  Each surface is between the volume of its part and
the outside. -/
structure VoluPerPart (m r : Mesh) (lab : Int → Int) : Prop where
  parts : Parts m (HasVolu r) lab
  verts : r.verts = m.verts
  edges : r.edges = m.edges
  surfs : List.Forall₂ (fun f g => ∃ c, g = { f with voluind := [c, 0] } ∧
    ∀ e v, e ∈ f.edgeind → EdgeVert m e v → c = lab v) m.surfs r.surfs

/-- In `r` the connected parts of `m` have one surface each; the vertices are not changed.  Each edge is between the surface of its part
and the outside. -/
structure SurfPerPart (m r : Mesh) (lab : Int → Int) : Prop where
  parts : Parts m (HasSurf r) lab
  verts : r.verts = m.verts
  volus : r.volus = m.volus
  edges : List.Forall₂ (fun x y => ∃ c, y = { x with surfind := [c, 0] } ∧ ∀ v ∈ x.vertind, c = lab v) m.edges r.edges

end RSVS.Spec
