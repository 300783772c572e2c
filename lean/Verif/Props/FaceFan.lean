import Verif.Lemmas.FaceFanMade
import Verif.Props.Mesh

/-!
# The mesh of a triangulation
-/

namespace RSVS.Props

open RSVS RSVS.Mesh RSVS.Spec RSVS.Triang RSVS.FaceFan

/-- C123: for a sound mesh, if each triangle with points of different types is on a surface which is a simple loop of edges in order
and has a point with coordinates, `MeshTriangulation` succeeds.  The mesh it makes is sound, each surface with such a triangle is
replaced by triangles around a new vertex at a point of its triangles, and everything else is there as before. -/
theorem C123_fan_partial {m : Mesh} (hm : Sound m) {tris : List Triangle} {sibs : Int → List Nat} {coordOf : Int → Res (List ℚ)}
    (hs : ∀ t ∈ tris, AllPos Triangle.parentsurf tris t.parentsurf (sibs t.parentsurf))
    (hg : ∀ t ∈ tris, Mixed t → GoodTri m coordOf t) :
    ∃ r, meshTriangulation m tris sibs coordOf = .ok r ∧ Sound r ∧ KeptBut m r (Split tris) ∧
      (∀ f ∈ m.surfs, Split tris f.index → ∃ x, PointOf coordOf tris f.index x ∧ FanOver m r f x) ∧
      (∀ s ∈ r.surfs, (s ∈ m.surfs ∧ ¬ Split tris s.index) ∨ s.edgeind.length = 3) ∧ euler r = euler m := by
  obtain ⟨st, h1, h2⟩ := meshTriangulation_ok hm hs hg
  refine ⟨st.mesh, h1, h2.sound, ⟨h2.verts, h2.edges, h2.surfs, ?_⟩, h2.fans, h2.three, h2.euler⟩
  unfold St.mesh Mesh.concatenate
  simp only [h2.tmpC, List.append_nil]
  exact h2.idx.volus

/-- C123: for a sound mesh of which each surface is a simple loop of edges in order, `TriangulateAllFaces` makes a sound mesh of
triangles with the same vertices, edges and volumes and the same Euler characteristic: surfaces of three edges stay as they are, any
other is replaced by triangles around a new vertex at its centroid. -/
theorem C123_all_partial {m : Mesh} (hm : Sound m) (hr : ∀ f ∈ m.surfs, ∃ w, RingFace m f w) {place : Int → Res (List ℚ)}
    (hp : ∀ f ∈ m.surfs, ∃ x, place f.index = .ok x) {sibs : List Triangle → Int → List Nat}
    (hs : ∀ tris : List Triangle, ∀ t ∈ tris, AllPos Triangle.parentsurf tris t.parentsurf (sibs tris t.parentsurf)) :
    ∃ r, triangulateFaces m place sibs = .ok r ∧ Sound r ∧ (∀ s ∈ r.surfs, s.edgeind.length = 3) ∧ euler r = euler m ∧
      KeptBut m r (fun s => ∃ f ∈ m.surfs, f.index = s ∧ 3 < f.edgeind.length) ∧
      ∀ f ∈ m.surfs, 3 < f.edgeind.length → ∃ x, place f.index = .ok x ∧ FanOver m r f x := by
  obtain ⟨st, tris, coordOf, h1, h2, h3, h4⟩ := triangulateFaces_ok hm hr hp hs
  refine ⟨st.mesh, h1, h2.sound, fun s hs => ?_, h2.euler, ⟨h2.verts, h2.edges, fun f hf hn => ?_, ?_⟩, fun f hf hl => ?_⟩
  · rcases h2.three s hs with ⟨g1, g2⟩ | g1
    · rw [h3 s g1] at g2
      obtain ⟨w, hw⟩ := hr s g1
      have := hw.1
      omega
    · exact g1
  · refine h2.surfs f hf fun h => hn ⟨f, hf, rfl, (h3 f hf).1 h⟩
  · unfold St.mesh Mesh.concatenate
    simp only [h2.tmpC, List.append_nil]
    exact h2.idx.volus
  · obtain ⟨x, g1, g2⟩ := h2.fans f hf ((h3 f hf).2 hl)
    exact ⟨x, h4 f hf x g1, g2⟩

/-- A pyramid on a square. -/
def spire : Mesh where
  verts := [⟨1, [1, 4, 5], [0, 0, 0], true⟩, ⟨2, [1, 2, 6], [1, 0, 0], true⟩, ⟨3, [2, 3, 7], [1, 1, 0], true⟩,
    ⟨4, [3, 4, 8], [0, 1, 0], true⟩, ⟨5, [5, 6, 7, 8], [0, 0, 1], true⟩]
  edges := [⟨1, [1, 2], [1, 2], true⟩, ⟨2, [3, 2], [1, 3], true⟩, ⟨3, [3, 4], [1, 4], true⟩, ⟨4, [1, 4], [1, 5], true⟩,
    ⟨5, [1, 5], [2, 5], true⟩, ⟨6, [2, 5], [2, 3], true⟩, ⟨7, [3, 5], [3, 4], true⟩, ⟨8, [4, 5], [4, 5], true⟩]
  surfs := [{ index := 1, edgeind := [1, 2, 3, 4], voluind := [1, 0], isBorder := true },
    { index := 2, edgeind := [1, 6, 5], voluind := [1, 0], isBorder := true },
    { index := 3, edgeind := [2, 7, 6], voluind := [1, 0], isBorder := true },
    { index := 4, edgeind := [3, 8, 7], voluind := [1, 0], isBorder := true },
    { index := 5, edgeind := [4, 8, 5], voluind := [1, 0], isBorder := true }]
  volus := [{ index := 1, surfind := [1, 2, 3, 4, 5] }]
  meshDim := 3

theorem spire_sound : Sound spire := sound_of_checked (by decide +kernel)

/-- Positions of the triangles of a surface. -/
def trisAt (tris : List Triangle) (s : Int) : List Nat :=
  (List.range tris.length).filter fun p => decide ((tris[p]?).map Triangle.parentsurf = some s)

theorem trisAt_all (tris : List Triangle) (s : Int) : AllPos Triangle.parentsurf tris s (trisAt tris s) := by
  refine ⟨List.nodup_range.filter _, fun p => ?_⟩
  unfold trisAt
  rw [List.mem_filter, List.mem_range]
  simp only [decide_eq_true_eq, Option.map_eq_some_iff]
  exact ⟨fun h => h.2, fun h => ⟨by obtain ⟨e, he, _⟩ := h; exact (List.getElem?_eq_some_iff.1 he).1, h⟩⟩

/-- The corners of the surfaces of the pyramid, in order. -/
def spireRing : Int → List Int
  | 1 => [1, 2, 3, 4, 1]
  | 2 => [1, 2, 5, 1]
  | 3 => [2, 3, 5, 2]
  | 4 => [3, 4, 5, 3]
  | _ => [1, 4, 5, 1]

theorem spire_rings : ∀ f ∈ spire.surfs, ∃ w, RingFace spire f w := by
  intro f hf
  refine ⟨fun k => (spireRing f.index).getD k 0, ?_⟩
  have key : ∀ f ∈ spire.surfs, 3 ≤ f.edgeind.length ∧
      (∀ k < f.edgeind.length, ∃ x ∈ spire.edges, x.index = f.edgeind.getD k 0 ∧
        (x.vertind = [(spireRing f.index).getD k 0, (spireRing f.index).getD (k + 1) 0] ∨
          x.vertind = [(spireRing f.index).getD (k + 1) 0, (spireRing f.index).getD k 0])) ∧
      (spireRing f.index).getD f.edgeind.length 0 = (spireRing f.index).getD 0 0 ∧
      ∀ i < f.edgeind.length, ∀ j < f.edgeind.length, (spireRing f.index).getD i 0 = (spireRing f.index).getD j 0 → i = j := by
    decide +kernel
  obtain ⟨h1, h2, h3, h4⟩ := key f hf
  refine ⟨h1, fun k e hk => ?_, h3, fun i j hi hj => h4 i hi j hj⟩
  obtain ⟨hlt, rfl⟩ := List.getElem?_eq_some_iff.1 hk
  obtain ⟨x, hx, g1, g2⟩ := h2 k hlt
  rw [List.getD_eq_getElem?_getD, List.getElem?_eq_getElem hlt] at g1
  exact ⟨x, hx, g1, g2⟩

/-- The square is replaced by four triangles; the other surfaces stay. -/
theorem spire_fan : ∃ r, triangulateFaces spire (fun _ => .ok [1 / 2, 1 / 2, 0]) trisAt = .ok r ∧
    r.surfs.map (fun s => (s.index, s.edgeind)) = [(1, [9, 12, 1]), (2, [1, 6, 5]), (3, [2, 7, 6]), (4, [3, 8, 7]), (5, [4, 8, 5]),
      (6, [9, 10, 2]), (7, [10, 11, 3]), (8, [11, 12, 4])] ∧
    (r.edges.drop 8).map (fun e => (e.vertind, e.surfind)) = [([6, 2], [1, 6]), ([6, 3], [6, 7]), ([6, 4], [7, 8]),
      ([6, 1], [8, 1])] ∧ r.surfs.map Surf.isBorder = [true, true, true, true, true, true, true, true] ∧
    (r.edges.drop 8).map Edge.isBorder = [false, false, false, false] := by
  refine ⟨_, rfl, ?_, ?_, ?_, ?_⟩ <;> decide +kernel

example : ∃ r, triangulateFaces spire (fun _ => .ok [1 / 2, 1 / 2, 0]) trisAt = .ok r ∧ Sound r ∧
    (∀ s ∈ r.surfs, s.edgeind.length = 3) ∧ euler r = euler spire := by
  obtain ⟨r, h1, h2, h3, h4, _⟩ := C123_all_partial spire_sound spire_rings (place := fun _ => .ok [1 / 2, 1 / 2, 0])
    (fun f _ => ⟨_, rfl⟩) (sibs := trisAt) (fun tris t _ => trisAt_all tris _)
  exact ⟨r, h1, h2, h3, h4⟩

example : ∃ r, meshTriangulation spire [⟨1, [1, 1, 3], [1, 2, 9], 1, [1, 0], [-1, 1]⟩, ⟨2, [1, 1, 3], [2, 3, 9], 1, [1, 0], [-1, 1]⟩,
      ⟨3, [1, 1, 1], [1, 2, 5], 2, [1, 0], [-1, 1]⟩] (trisAt [⟨1, [1, 1, 3], [1, 2, 9], 1, [1, 0], [-1, 1]⟩,
      ⟨2, [1, 1, 3], [2, 3, 9], 1, [1, 0], [-1, 1]⟩, ⟨3, [1, 1, 1], [1, 2, 5], 2, [1, 0], [-1, 1]⟩])
      (fun _ => .ok [1 / 2, 1 / 2, 0]) = .ok r ∧ Sound r ∧ euler r = euler spire ∧
      ∀ f ∈ spire.surfs, f.index = 1 → ∃ x, FanOver spire r f x := by
  obtain ⟨r, h1, h2, _, h4, _, h5⟩ := C123_fan_partial spire_sound (tris := [⟨1, [1, 1, 3], [1, 2, 9], 1, [1, 0], [-1, 1]⟩,
      ⟨2, [1, 1, 3], [2, 3, 9], 1, [1, 0], [-1, 1]⟩, ⟨3, [1, 1, 1], [1, 2, 5], 2, [1, 0], [-1, 1]⟩])
    (coordOf := fun _ => .ok [1 / 2, 1 / 2, 0]) (fun t _ => trisAt_all _ _) (by
      intro t ht hmix
      have hsurf : ∃ f ∈ spire.surfs, f.index = t.parentsurf := by
        clear hmix
        revert t
        decide +kernel
      obtain ⟨f, hf, hi⟩ := hsurf
      have h3 : 3 ∈ t.pointtype ∧ t.pointtype.length = 3 ∧ t.pointind.length = 3 := by
        simp only [List.mem_cons, List.not_mem_nil, or_false] at ht
        rcases ht with rfl | rfl | rfl
        · decide
        · decide
        · exfalso
          revert hmix
          unfold Mixed
          decide
      refine ⟨⟨f, hf, hi, spire_rings f hf⟩, h3.2.1, h3.1, fun k hk => ?_⟩
      have hk' : k < t.pointind.length := by
        have := (List.getElem?_eq_some_iff.1 hk).1
        omega
      exact ⟨_, _, List.getElem?_eq_getElem hk', rfl⟩)
  refine ⟨r, h1, h2, h5, fun f hf hi => ?_⟩
  obtain ⟨x, _, hx⟩ := h4 f hf ⟨_, List.mem_cons_self, ⟨1, by simp, 3, by simp, by decide⟩, hi.symm⟩
  exact ⟨x, hx⟩

/-- C123 does not hold for the marks of the border: the new edges and vertices of a surface on the border are not marked, even if
all of the mesh is marked before. -/
theorem C123_border_violated : ∃ (m r : Mesh) (place : Int → Res (List ℚ)), Sound m ∧ (∀ f ∈ m.surfs, ∃ w, RingFace m f w) ∧
    BorderMarked m ∧ triangulateFaces m place trisAt = .ok r ∧ ¬ BorderMarked r := by
  have hb : BorderMarked spire := by unfold BorderMarked; decide +kernel
  refine ⟨spire, _, fun _ => .ok [1 / 2, 1 / 2, 0], spire_sound, spire_rings, hb, rfl, ?_⟩
  unfold BorderMarked
  decide +kernel

end RSVS.Props
