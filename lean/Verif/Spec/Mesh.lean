import Verif.Model.Mesh

/-!
# Specification of mesh connectivity

The incidence relations of a mesh and what it means for them to be sound.  Only the data of
the mesh is mentioned, none of the functions of the model.
-/

namespace RSVS.Spec

/-- Vertex `v` lists edge `e`. -/
def VertEdge (m : Mesh) (v e : Int) : Prop := ∃ x ∈ m.verts, x.index = v ∧ e ∈ x.edgeind
/-- Edge `e` lists vertex `v`. -/
def EdgeVert (m : Mesh) (e v : Int) : Prop := ∃ x ∈ m.edges, x.index = e ∧ v ∈ x.vertind
/-- Edge `e` lists surface `s`. -/
def EdgeSurf (m : Mesh) (e s : Int) : Prop := ∃ x ∈ m.edges, x.index = e ∧ s ∈ x.surfind
/-- Surface `s` lists edge `e`. -/
def SurfEdge (m : Mesh) (s e : Int) : Prop := ∃ x ∈ m.surfs, x.index = s ∧ e ∈ x.edgeind
/-- Surface `s` lists volume `c`. -/
def SurfVolu (m : Mesh) (s c : Int) : Prop := ∃ x ∈ m.surfs, x.index = s ∧ c ∈ x.voluind
/-- Volume `c` lists surface `s`. -/
def VoluSurf (m : Mesh) (c s : Int) : Prop := ∃ x ∈ m.volus, x.index = c ∧ s ∈ x.surfind

def HasVert (m : Mesh) (i : Int) : Prop := ∃ x ∈ m.verts, x.index = i
def HasEdge (m : Mesh) (i : Int) : Prop := ∃ x ∈ m.edges, x.index = i
def HasSurf (m : Mesh) (i : Int) : Prop := ∃ x ∈ m.surfs, x.index = i
def HasVolu (m : Mesh) (i : Int) : Prop := ∃ x ∈ m.volus, x.index = i

/-- No index is used twice for the same type. -/
structure UniqueIndices (m : Mesh) : Prop where
  verts : (m.verts.map Vert.index).Nodup
  edges : (m.edges.map Edge.index).Nodup
  surfs : (m.surfs.map Surf.index).Nodup
  volus : (m.volus.map Volu.index).Nodup

/-- Indices start from 1; 0 stands for 'no element'. -/
structure PosIndices (m : Mesh) : Prop where
  verts : ∀ i, HasVert m i → 0 < i
  edges : ∀ i, HasEdge m i → 0 < i
  surfs : ∀ i, HasSurf m i → 0 < i
  volus : ∀ i, HasVolu m i → 0 < i

/-- No dangling reference: everything listed exists; 0 is allowed, except as an edge of a
surface. -/
structure NoDangling (m : Mesh) : Prop where
  vertEdge : ∀ v e, VertEdge m v e → e ≠ 0 → HasEdge m e
  edgeVert : ∀ e v, EdgeVert m e v → v ≠ 0 → HasVert m v
  edgeSurf : ∀ e s, EdgeSurf m e s → s ≠ 0 → HasSurf m s
  surfEdge : ∀ s e, SurfEdge m s e → HasEdge m e
  surfVolu : ∀ s c, SurfVolu m s c → c ≠ 0 → HasVolu m c
  voluSurf : ∀ c s, VoluSurf m c s → s ≠ 0 → HasSurf m s

/-- 0 appears only where it stands for the outside: among the volumes of a surface and the
surfaces of an edge. -/
structure ZeroOutside (m : Mesh) : Prop where
  vertEdge : ∀ v, ¬ VertEdge m v 0
  edgeVert : ∀ e, ¬ EdgeVert m e 0
  surfEdge : ∀ s, ¬ SurfEdge m s 0
  voluSurf : ∀ c, ¬ VoluSurf m c 0

/-- Incidence is symmetric: `a` lists `b` exactly when `b` lists `a`. -/
structure Symmetric (m : Mesh) : Prop where
  vertEdge : ∀ v e, HasVert m v → HasEdge m e → (VertEdge m v e ↔ EdgeVert m e v)
  edgeSurf : ∀ e s, HasEdge m e → HasSurf m s → (EdgeSurf m e s ↔ SurfEdge m s e)
  surfVolu : ∀ s c, HasSurf m s → HasVolu m c → (SurfVolu m s c ↔ VoluSurf m c s)

/-- A sound mesh. -/
structure Sound (m : Mesh) : Prop where
  unique : UniqueIndices m
  pos : PosIndices m
  noDangling : NoDangling m
  zeroOutside : ZeroOutside m
  sym : Symmetric m

/-- Both meshes have the same elements (by index). -/
structure SameElements (m m' : Mesh) : Prop where
  verts : ∀ i, HasVert m' i ↔ HasVert m i
  edges : ∀ i, HasEdge m' i ↔ HasEdge m i
  surfs : ∀ i, HasSurf m' i ↔ HasSurf m i
  volus : ∀ i, HasVolu m' i ↔ HasVolu m i

/-- `m'` is `m` with edge `i` detached from its neighbours. -/
structure EdgeDetached (m m' : Mesh) (i : Int) : Prop where
  same : SameElements m m'
  vertEdge : ∀ v e, VertEdge m' v e ↔ (VertEdge m v e ∧ e ≠ i)
  surfEdge : ∀ s e, SurfEdge m' s e ↔ (SurfEdge m s e ∧ e ≠ i)
  edgeVert : ∀ e v, EdgeVert m' e v ↔ (EdgeVert m e v ∧ e ≠ i)
  edgeSurf : ∀ e s, EdgeSurf m' e s ↔ (EdgeSurf m e s ∧ e ≠ i)
  surfVolu : ∀ s c, SurfVolu m' s c ↔ SurfVolu m s c
  voluSurf : ∀ c s, VoluSurf m' c s ↔ VoluSurf m c s

/-- `m'` is `m` with surface `i` detached from its neighbours. -/
structure SurfDetached (m m' : Mesh) (i : Int) : Prop where
  same : SameElements m m'
  vertEdge : ∀ v e, VertEdge m' v e ↔ VertEdge m v e
  edgeVert : ∀ e v, EdgeVert m' e v ↔ EdgeVert m e v
  edgeSurf : ∀ e s, EdgeSurf m' e s ↔ (EdgeSurf m e s ∧ s ≠ i)
  surfEdge : ∀ s e, SurfEdge m' s e ↔ (SurfEdge m s e ∧ s ≠ i)
  surfVolu : ∀ s c, SurfVolu m' s c ↔ (SurfVolu m s c ∧ s ≠ i)
  voluSurf : ∀ c s, VoluSurf m' c s ↔ (VoluSurf m c s ∧ s ≠ i)

/-- `m'` is `m` with volume `i` detached from its neighbours; its surfaces may get the marker
0 in its place. -/
structure VoluDetached (m m' : Mesh) (i : Int) : Prop where
  same : SameElements m m'
  vertEdge : ∀ v e, VertEdge m' v e ↔ VertEdge m v e
  edgeVert : ∀ e v, EdgeVert m' e v ↔ EdgeVert m e v
  edgeSurf : ∀ e s, EdgeSurf m' e s ↔ EdgeSurf m e s
  surfEdge : ∀ s e, SurfEdge m' s e ↔ SurfEdge m s e
  surfVolu : ∀ s c, c ≠ 0 → (SurfVolu m' s c ↔ (SurfVolu m s c ∧ c ≠ i))
  voluSurf : ∀ c s, VoluSurf m' c s ↔ (VoluSurf m c s ∧ c ≠ i)
  /-- the number of entries is kept at two when it was two -/
  two : ∀ x ∈ m'.surfs, ∀ y ∈ m.surfs, x.index = y.index → y.voluind.length = 2 →
    x.voluind.length = 2

end RSVS.Spec

namespace RSVS.Spec

/-- `m'` is `m` with vertex `new` in the place of vertex `old` everywhere. -/
structure VertMerged (m m' : Mesh) (old new : Int) : Prop where
  same : SameElements m m'
  edgeVert : ∀ e v, EdgeVert m' e v ↔ (EdgeVert m e v ∧ v ≠ old) ∨ (v = new ∧ EdgeVert m e old)
  vertEdge : ∀ v e, VertEdge m' v e ↔ (VertEdge m v e ∧ v ≠ old) ∨ (v = new ∧ VertEdge m old e)
  edgeSurf : ∀ e s, EdgeSurf m' e s ↔ EdgeSurf m e s
  surfEdge : ∀ s e, SurfEdge m' s e ↔ SurfEdge m s e
  surfVolu : ∀ s c, SurfVolu m' s c ↔ SurfVolu m s c
  voluSurf : ∀ c s, VoluSurf m' c s ↔ VoluSurf m c s

/-- Every edge has two vertices. -/
def TwoVerts (m : Mesh) : Prop := ∀ x ∈ m.edges, x.vertind.length = 2

end RSVS.Spec

namespace RSVS.Spec

/-- Volume `c` (0 for the outside) is reached by the crop list: for volumes it is in the list,
for surfaces it is next to one of them, for edges and vertices next to one of the surfaces
around them. -/
def Reached (m : Mesh) (l : List Int) (t : Nat) (c : Int) : Prop :=
  match t with
  | 1 => ∃ v ∈ l, ∃ e, VertEdge m v e ∧ ∃ s, EdgeSurf m e s ∧ SurfVolu m s c
  | 2 => ∃ e ∈ l, ∃ s, EdgeSurf m e s ∧ SurfVolu m s c
  | 3 => ∃ s ∈ l, SurfVolu m s c
  | _ => c ∈ l

/-- Element `i` of the type given by the number (1 vertex to 4 volume) exists. -/
def HasElem (m : Mesh) (i : Int) : Nat → Prop
  | 1 => HasVert m i
  | 2 => HasEdge m i
  | 3 => HasSurf m i
  | _ => HasVolu m i

end RSVS.Spec

namespace RSVS.Spec

/-- `m'` is `m` with the indices of the four types moved up by the four numbers.  The marker 0
in a list of surfaces or of volumes is not an index and stays. -/
structure Shifted (nV nE nS nC : Int) (m m' : Mesh) : Prop where
  verts : ∀ i, HasVert m' i ↔ HasVert m (i - nV)
  edges : ∀ i, HasEdge m' i ↔ HasEdge m (i - nE)
  surfs : ∀ i, HasSurf m' i ↔ HasSurf m (i - nS)
  volus : ∀ i, HasVolu m' i ↔ HasVolu m (i - nC)
  vertEdge : ∀ v e, VertEdge m' v e ↔ VertEdge m (v - nV) (e - nE)
  edgeVert : ∀ e v, EdgeVert m' e v ↔ EdgeVert m (e - nE) (v - nV)
  surfEdge : ∀ s e, SurfEdge m' s e ↔ SurfEdge m (s - nS) (e - nE)
  edgeSurf : ∀ e s, 0 < s → (EdgeSurf m' (e + nE) (s + nS) ↔ EdgeSurf m e s)
  surfVolu : ∀ s c, 0 < c → (SurfVolu m' (s + nS) (c + nC) ↔ SurfVolu m s c)
  voluSurf : ∀ c s, 0 < s → (VoluSurf m' (c + nC) (s + nS) ↔ VoluSurf m c s)
  edgeSurf0 : ∀ e, EdgeSurf m' (e + nE) 0 ↔ EdgeSurf m e 0
  surfVolu0 : ∀ s, SurfVolu m' (s + nS) 0 ↔ SurfVolu m s 0
  voluSurf0 : ∀ c, VoluSurf m' (c + nC) 0 ↔ VoluSurf m c 0
  /-- nothing else is listed -/
  edgeSurfFrom : ∀ e s, EdgeSurf m' e s → s ≤ 0 ∨ nS < s
  surfVoluFrom : ∀ s c, SurfVolu m' s c → c ≤ 0 ∨ nC < c
  voluSurfFrom : ∀ c s, VoluSurf m' c s → s ≤ 0 ∨ nS < s
  /-- what is not connectivity stays -/
  coords : m'.verts.map Vert.coord = m.verts.map Vert.coord
  surfVals : m'.surfs.map (fun s => (s.fill, s.target, s.error)) =
    m.surfs.map (fun s => (s.fill, s.target, s.error))
  voluVals : m'.volus.map (fun s => (s.fill, s.target, s.error)) =
    m.volus.map (fun s => (s.fill, s.target, s.error))

/-- `r` is the disjoint union of `a` and `b`, where the numbers are the offsets given to `b`. -/
structure DisjointUnion (nV nE nS nC : Int) (a b r : Mesh) : Prop where
  verts : ∀ i, HasVert r i ↔ HasVert a i ∨ HasVert b (i - nV)
  edges : ∀ i, HasEdge r i ↔ HasEdge a i ∨ HasEdge b (i - nE)
  surfs : ∀ i, HasSurf r i ↔ HasSurf a i ∨ HasSurf b (i - nS)
  volus : ∀ i, HasVolu r i ↔ HasVolu a i ∨ HasVolu b (i - nC)
  /-- the elements of the two do not meet -/
  vertsApart : ∀ i, ¬ (HasVert a i ∧ HasVert b (i - nV))
  edgesApart : ∀ i, ¬ (HasEdge a i ∧ HasEdge b (i - nE))
  surfsApart : ∀ i, ¬ (HasSurf a i ∧ HasSurf b (i - nS))
  volusApart : ∀ i, ¬ (HasVolu a i ∧ HasVolu b (i - nC))
  vertEdge : ∀ v e, VertEdge r v e ↔ VertEdge a v e ∨ VertEdge b (v - nV) (e - nE)
  edgeVert : ∀ e v, EdgeVert r e v ↔ EdgeVert a e v ∨ EdgeVert b (e - nE) (v - nV)
  surfEdge : ∀ s e, SurfEdge r s e ↔ SurfEdge a s e ∨ SurfEdge b (s - nS) (e - nE)
  edgeSurf : ∀ e s, s ≠ 0 → (EdgeSurf r e s ↔
    EdgeSurf a e s ∨ (s ≠ nS ∧ EdgeSurf b (e - nE) (s - nS)))
  surfVolu : ∀ s c, c ≠ 0 → (SurfVolu r s c ↔
    SurfVolu a s c ∨ (c ≠ nC ∧ SurfVolu b (s - nS) (c - nC)))
  voluSurf : ∀ c s, s ≠ 0 → (VoluSurf r c s ↔
    VoluSurf a c s ∨ (s ≠ nS ∧ VoluSurf b (c - nC) (s - nS)))
  edgeSurf0 : ∀ e, EdgeSurf r e 0 ↔ EdgeSurf a e 0 ∨ EdgeSurf b (e - nE) 0
  surfVolu0 : ∀ s, SurfVolu r s 0 ↔ SurfVolu a s 0 ∨ SurfVolu b (s - nS) 0
  voluSurf0 : ∀ c, VoluSurf r c 0 ↔ VoluSurf a c 0 ∨ VoluSurf b (c - nC) 0

/-- No element of `a` refers to one of the rest of `r` and conversely: what an element of `a`
lists in `r` is in `a`, what another element lists is not; 0 apart. -/
structure NoCross (a r : Mesh) : Prop where
  vertEdge : ∀ v e, VertEdge r v e → e ≠ 0 → (HasVert a v ↔ HasEdge a e)
  edgeVert : ∀ e v, EdgeVert r e v → v ≠ 0 → (HasEdge a e ↔ HasVert a v)
  edgeSurf : ∀ e s, EdgeSurf r e s → s ≠ 0 → (HasEdge a e ↔ HasSurf a s)
  surfEdge : ∀ s e, SurfEdge r s e → e ≠ 0 → (HasSurf a s ↔ HasEdge a e)
  surfVolu : ∀ s c, SurfVolu r s c → c ≠ 0 → (HasSurf a s ↔ HasVolu a c)
  voluSurf : ∀ c s, VoluSurf r c s → s ≠ 0 → (HasVolu a c ↔ HasSurf a s)

/-- No reference is negative. -/
structure NonNegRefs (m : Mesh) : Prop where
  edgeSurf : ∀ e s, EdgeSurf m e s → 0 ≤ s
  surfVolu : ∀ s c, SurfVolu m s c → 0 ≤ c
  voluSurf : ∀ c s, VoluSurf m c s → 0 ≤ s

end RSVS.Spec

namespace RSVS.Spec

/-- No vertex and no surface has an empty list of edges. -/
structure NoLoose (m : Mesh) : Prop where
  verts : ∀ x ∈ m.verts, x.edgeind ≠ []
  surfs : ∀ x ∈ m.surfs, x.edgeind ≠ []

/-- No one-way reference: an existing element that is listed lists back. -/
structure NoOneWay (m : Mesh) : Prop where
  vertEdge : ∀ v e, VertEdge m v e → e ≠ 0 → HasEdge m e → EdgeVert m e v
  edgeVert : ∀ e v, EdgeVert m e v → v ≠ 0 → HasVert m v → VertEdge m v e
  edgeSurf : ∀ e s, EdgeSurf m e s → s ≠ 0 → HasSurf m s → SurfEdge m s e
  surfEdge : ∀ s e, SurfEdge m s e → e ≠ 0 → HasEdge m e → EdgeSurf m e s
  surfVolu : ∀ s c, SurfVolu m s c → c ≠ 0 → HasVolu m c → VoluSurf m c s
  voluSurf : ∀ c s, VoluSurf m c s → s ≠ 0 → HasSurf m s → SurfVolu m s c

end RSVS.Spec

namespace RSVS.Spec

/-- No element is short of neighbours: every surface has edges and, if `emptyIsErr` is set,
every vertex has edges, every edge two vertices and in 3D every surface two volumes. -/
structure Complete (m : Mesh) (emptyIsErr : Bool) : Prop where
  surfs : ∀ x ∈ m.surfs, x.edgeind ≠ []
  verts : emptyIsErr = true → ∀ x ∈ m.verts, x.edgeind ≠ []
  edges : emptyIsErr = true → ∀ x ∈ m.edges, x.vertind.length = 2
  volus : emptyIsErr = true → m.meshDim > 2 → ∀ x ∈ m.surfs, x.voluind.length = 2

/-- `f` numbers the `n` indices given by `has` from 1 to `n` and keeps 0. -/
structure Numbering (has : Int → Prop) (n : Nat) (f : Int → Int) : Prop where
  zero : f 0 = 0
  inj : ∀ a b, has a → has b → f a = f b → a = b
  range : ∀ a, has a → 1 ≤ f a ∧ f a ≤ n

/-- `m'` is `m` under new numbers, one function for each type: elements are numbered in order
from 1, and every element of `m` is found in `m'` with its index and its connectivity renamed,
all other data (but the border mark of edges) being the same. -/
structure Renamed (m m' : Mesh) (fv fe fs fc : Int → Int) : Prop where
  numVerts : Numbering (HasVert m) m.verts.length fv
  numEdges : Numbering (HasEdge m) m.edges.length fe
  numSurfs : Numbering (HasSurf m) m.surfs.length fs
  numVolus : Numbering (HasVolu m) m.volus.length fc
  orderVerts : m'.verts.map Vert.index = (List.range m.verts.length).map (fun i : Nat => (i : Int) + 1)
  orderEdges : m'.edges.map Edge.index = (List.range m.edges.length).map (fun i : Nat => (i : Int) + 1)
  orderSurfs : m'.surfs.map Surf.index = (List.range m.surfs.length).map (fun i : Nat => (i : Int) + 1)
  orderVolus : m'.volus.map Volu.index = (List.range m.volus.length).map (fun i : Nat => (i : Int) + 1)
  verts : ∀ x ∈ m.verts, { x with index := fv x.index, edgeind := x.edgeind.map fe } ∈ m'.verts
  edges : ∀ x ∈ m.edges, ∃ b, { x with index := fe x.index, vertind := x.vertind.map fv,
                                       surfind := x.surfind.map fs, isBorder := b } ∈ m'.edges
  surfs : ∀ x ∈ m.surfs, { x with index := fs x.index, edgeind := x.edgeind.map fe,
                                  voluind := x.voluind.map fc } ∈ m'.surfs
  volus : ∀ x ∈ m.volus, { x with index := fc x.index, surfind := x.surfind.map fs } ∈ m'.volus

end RSVS.Spec

namespace RSVS.Spec

/-- `l'` is strictly increasing with the members of `l`. -/
def TightList (l l' : List Int) : Prop := l'.Pairwise (· < ·) ∧ ∀ x, x ∈ l' ↔ x ∈ l

/-- `m'` is `m` with all lists of neighbours but the two vertices of an edge tightened. -/
structure Tightened (m m' : Mesh) : Prop where
  verts : List.Forall₂ (fun x y => y = { x with edgeind := y.edgeind } ∧
    TightList x.edgeind y.edgeind) m.verts m'.verts
  edges : List.Forall₂ (fun x y => y = { x with surfind := y.surfind } ∧
    TightList x.surfind y.surfind) m.edges m'.edges
  surfs : List.Forall₂ (fun x y => y = { x with edgeind := y.edgeind, voluind := y.voluind,
                                                isordered := false } ∧
    TightList x.edgeind y.edgeind ∧ TightList x.voluind y.voluind) m.surfs m'.surfs
  volus : List.Forall₂ (fun x y => y = { x with surfind := y.surfind } ∧
    TightList x.surfind y.surfind) m.volus m'.volus
  dim : m'.meshDim = m.meshDim

end RSVS.Spec
