import Verif.Lemmas.FloodVolu
import Verif.Lemmas.FloodSnake
import Verif.Props.Mesh

/-!
# Properties of the flood fills: C20, C21 and C54
-/

namespace RSVS.Props

open RSVS.Spec RSVS.Mesh

/-! ### C20 -/

/-- C20: `ConnectedVertex` ends without an error and returns `n` and one label in `1..n` for each
vertex; two vertices have the same label iff a path of edges joins them; every label is used. -/
theorem C20_vertex_blocks (m : Mesh) (hm : Sound m) (h2 : TwoVerts m) :
    ∃ labels n, m.connectedVertex [] = .ok (labels, n) ∧ labels.length = m.verts.length ∧
      (∀ l ∈ labels, 1 ≤ l ∧ l ≤ n) ∧
      (∀ v w l l', VertLabel m labels v l → VertLabel m labels w l' →
        (l = l' ↔ VertJoined m (fun _ => True) (HasVert m) v w)) ∧
      (∀ l, 1 ≤ l → l ≤ n → l ∈ labels) := by
  obtain ⟨labels, n, h1, hlen, _, _, h3, h4, h5⟩ :=
    connectedVertex_spec hm h2 (block := []) (Or.inl rfl)
  have hfree : FreeVert m [] = HasVert m := by
    funext v
    apply propext
    constructor
    · rintro ⟨k, x, hx, hxi, _⟩
      exact ⟨x, List.mem_of_getElem? hx, hxi⟩
    · rintro ⟨x, hx, hxi⟩
      obtain ⟨k, hk, rfl⟩ := List.getElem_of_mem hx
      exact ⟨k, _, List.getElem?_eq_getElem hk, hxi, Or.inl rfl⟩
  rw [hfree] at h3 h4 h5
  have hhas : ∀ v l, VertLabel m labels v l → HasVert m v := by
    rintro v l ⟨k, x, hx, hxi, _⟩
    exact ⟨x, List.mem_of_getElem? hx, hxi⟩
  refine ⟨labels, n, h1, hlen, ?_, ?_, ?_⟩
  · intro l hl
    obtain ⟨k, hk, rfl⟩ := List.getElem_of_mem hl
    have hk' : k < m.verts.length := by omega
    have hv : VertLabel m labels m.verts[k].index labels[k] :=
      ⟨k, _, List.getElem?_eq_getElem hk', rfl, List.getElem?_eq_getElem hk⟩
    obtain ⟨l', hl', hr⟩ := h3 _ (hhas _ _ hv)
    have := (h4 _ _ _ _ (hhas _ _ hv) (hhas _ _ hv) hv hl').mpr Relation.ReflTransGen.refl
    rw [this]; exact hr
  · intro v w l l' hv hw
    exact h4 v w l l' (hhas _ _ hv) (hhas _ _ hw) hv hw
  · intro l h6 h7
    obtain ⟨v, _, k, x, _, _, h⟩ := h5 l h6 h7
    exact List.mem_of_getElem? h

/-- C20 with labels given before: vertices with a label other than 0 keep it and are not passed
through; the others are labelled by the components of what is left. -/
theorem C20_vertex_blocks_preset (m : Mesh) (hm : Sound m) (h2 : TwoVerts m) (block : List Int)
    (hb : block.length = m.verts.length) :
    ∃ labels n, m.connectedVertex block = .ok (labels, n) ∧ labels.length = m.verts.length ∧
      (∀ (k : Nat) (b : Int), block[k]? = some b → b ≠ 0 → labels[k]? = some b) ∧
      (∀ v, FreeVert m block v → ∃ l, VertLabel m labels v l ∧ 1 ≤ l ∧ l ≤ n) ∧
      (∀ v w l l', FreeVert m block v → FreeVert m block w → VertLabel m labels v l →
        VertLabel m labels w l' →
        (l = l' ↔ VertJoined m (fun _ => True) (FreeVert m block) v w)) ∧
      (∀ l, 1 ≤ l → l ≤ n → ∃ v, FreeVert m block v ∧ VertLabel m labels v l) := by
  obtain ⟨labels, n, h1, hlen, _, h⟩ := connectedVertex_spec hm h2 (Or.inr hb)
  exact ⟨labels, n, h1, hlen, h⟩

/-- Any other length throws. -/
theorem C20_wrong_length (m : Mesh) (block : List Int) (h0 : block.length ≠ 0)
    (hb : block.length ≠ m.verts.length) : m.connectedVertex block = .error .throws := by
  unfold connectedVertex floodRun
  rw [if_neg (by omega)]

theorem twoEdges_two : TwoVerts twoEdges := by unfold TwoVerts; decide +kernel

example : twoEdges.connectedVertex [] = .ok ([1, 1, 2, 2], 2) ∧
    VertJoined twoEdges (fun _ => True) (HasVert twoEdges) 1 2 ∧
    ¬ VertJoined twoEdges (fun _ => True) (HasVert twoEdges) 1 3 := by
  obtain ⟨labels, n, h1, _, _, h4, _⟩ := C20_vertex_blocks twoEdges twoEdges_sound twoEdges_two
  have hr : twoEdges.connectedVertex [] = .ok ([1, 1, 2, 2], 2) := by decide +kernel
  rw [hr] at h1
  cases h1
  refine ⟨hr, (h4 1 2 1 1 ⟨0, _, rfl, rfl, rfl⟩ ⟨1, _, rfl, rfl, rfl⟩).mp rfl, ?_⟩
  intro h
  have := (h4 1 3 1 2 ⟨0, _, rfl, rfl, rfl⟩ ⟨2, _, rfl, rfl, rfl⟩).mpr h
  omega

/-- A path of three vertices, the one in the middle labelled before. -/
def threePath : Mesh where
  verts := [⟨1, [1], [0, 0, 0], false⟩, ⟨2, [1, 2], [1, 0, 0], false⟩, ⟨3, [2], [2, 0, 0], false⟩]
  edges := [⟨1, [1, 2], [0, 0], false⟩, ⟨2, [2, 3], [0, 0], false⟩]
  surfs := []
  volus := []
  meshDim := 1

theorem threePath_sound : Sound threePath := sound_of_checked (by decide +kernel)
theorem threePath_two : TwoVerts threePath := by unfold TwoVerts; decide +kernel

example : threePath.connectedVertex [] = .ok ([1, 1, 1], 1) ∧
    threePath.connectedVertex [0, 7, 0] = .ok ([1, 7, 2], 2) ∧
    threePath.connectedVertex [0, 7] = .error .throws := by decide +kernel

/-! ### C21 -/

/-- C21: without labels given before, `ConnectedVolumes` ends without an error and two volumes
have the same label iff they are joined by a path which crosses no boundary face. -/
theorem C21_volume_blocks (m : Mesh) (hm : Sound m) (h2 : TwoVolus m) (bound : List Bool)
    (hf : bound.length = 0 ∨ bound.length = m.surfs.length) :
    ∃ labels n, m.connectedVolumes [] bound = .ok (labels, n) ∧
      labels.length = m.volus.length ∧ (∀ l ∈ labels, 1 ≤ l ∧ l ≤ n) ∧
      (∀ v w l l', VoluLabel m labels v l → VoluLabel m labels w l' →
        (l = l' ↔ VoluJoined m (OpenFace m bound) (HasVolu m) v w)) ∧
      (∀ l, 1 ≤ l → l ≤ n → l ∈ labels) := by
  obtain ⟨labels, n, h1, hlen, _, _, h3, h4, h5⟩ :=
    connectedVolumes_spec hm h2 (block := []) (bound := bound) (Or.inl rfl) hf
  have hfree : FreeVolu m [] = HasVolu m := by
    funext v
    apply propext
    constructor
    · rintro ⟨k, x, hx, hxi, _⟩
      exact ⟨x, List.mem_of_getElem? hx, hxi⟩
    · rintro ⟨x, hx, hxi⟩
      obtain ⟨k, hk, rfl⟩ := List.getElem_of_mem hx
      exact ⟨k, _, List.getElem?_eq_getElem hk, hxi, Or.inl rfl⟩
  rw [hfree] at h3 h4 h5
  have hhas : ∀ v l, VoluLabel m labels v l → HasVolu m v := by
    rintro v l ⟨k, x, hx, hxi, _⟩
    exact ⟨x, List.mem_of_getElem? hx, hxi⟩
  refine ⟨labels, n, h1, hlen, ?_, ?_, ?_⟩
  · intro l hl
    obtain ⟨k, hk, rfl⟩ := List.getElem_of_mem hl
    have hk' : k < m.volus.length := by omega
    have hv : VoluLabel m labels m.volus[k].index labels[k] :=
      ⟨k, _, List.getElem?_eq_getElem hk', rfl, List.getElem?_eq_getElem hk⟩
    obtain ⟨l', hl', hr⟩ := h3 _ (hhas _ _ hv)
    have := (h4 _ _ _ _ (hhas _ _ hv) (hhas _ _ hv) hv hl').mpr Relation.ReflTransGen.refl
    rw [this]; exact hr
  · intro v w l l' hv hw
    exact h4 v w l l' (hhas _ _ hv) (hhas _ _ hw) hv hw
  · intro l h6 h7
    obtain ⟨v, _, k, x, _, _, h⟩ := h5 l h6 h7
    exact List.mem_of_getElem? h

/-- C21 with labels given before: such volumes are barriers and keep their label, the others are
labelled by the components of what is left.  Missing: the new labels may be equal to labels
given before, see `C21_label_reused_violated`; they differ when no given label is positive and at
most the number of volumes. -/
theorem C21_volume_blocks_preset_partial (m : Mesh) (hm : Sound m) (h2 : TwoVolus m)
    (bound : List Bool) (hf : bound.length = 0 ∨ bound.length = m.surfs.length)
    (block : List Int) (hb : block.length = m.volus.length) :
    ∃ labels n, m.connectedVolumes block bound = .ok (labels, n) ∧
      labels.length = m.volus.length ∧
      (∀ (k : Nat) (b : Int), block[k]? = some b → b ≠ 0 → labels[k]? = some b) ∧
      (∀ v, FreeVolu m block v → ∃ l, VoluLabel m labels v l ∧ 1 ≤ l ∧ l ≤ n) ∧
      (∀ v w l l', FreeVolu m block v → FreeVolu m block w → VoluLabel m labels v l →
        VoluLabel m labels w l' →
        (l = l' ↔ VoluJoined m (OpenFace m bound) (FreeVolu m block) v w)) ∧
      (∀ l, 1 ≤ l → l ≤ n → ∃ v, FreeVolu m block v ∧ VoluLabel m labels v l) ∧
      ((∀ b ∈ block, b ≤ 0 ∨ (m.volus.length : Int) < b) →
        ∀ (k : Nat) (b : Int), block[k]? = some b → b ≠ 0 →
          ∀ v l, FreeVolu m block v → VoluLabel m labels v l → l ≠ b) := by
  obtain ⟨labels, n, h1, hlen, hn0, h3, h4, h5, h6⟩ := connectedVolumes_spec hm h2 (Or.inr hb) hf
  refine ⟨labels, n, h1, hlen, h3, h4, h5, h6, ?_⟩
  intro hrange k b hkb hb0 v l hv hl
  -- there are at most as many labels as volumes
  have hn : n ≤ m.volus.length := by
    have hsub : (List.range n.toNat).map (fun (i : Nat) => (i : Int) + 1) ⊆ labels := by
      intro x hx
      obtain ⟨i, hi, rfl⟩ := List.mem_map.mp hx
      have hi' := List.mem_range.mp hi
      obtain ⟨v, _, k, y, _, _, h⟩ := h6 ((i : Int) + 1) (by omega) (by omega)
      exact List.mem_of_getElem? h
    have hnd : ((List.range n.toNat).map (fun (i : Nat) => (i : Int) + 1)).Nodup :=
      List.Nodup.map (fun a b h => by
        have h' : (a : Int) + 1 = (b : Int) + 1 := h
        omega) List.nodup_range
    have := (List.subperm_of_subset hnd hsub).length_le
    rw [List.length_map, List.length_range, hlen] at this
    omega
  obtain ⟨l', hl', h7, h8⟩ := h4 v hv
  have hll := (h5 v v l l' hv hv hl hl').mpr Relation.ReflTransGen.refl
  have := hrange b (List.mem_of_getElem? hkb)
  omega

/-- Two volumes which share a surface, like two cubes reduced to what matters here. -/
def twoVolus : Mesh where
  verts := []
  edges := []
  surfs := [{ index := 1, edgeind := [], voluind := [1, 2] },
            { index := 2, edgeind := [], voluind := [1, 0] },
            { index := 3, edgeind := [], voluind := [2, 0] }]
  volus := [{ index := 1, surfind := [1, 2] }, { index := 2, surfind := [1, 3] }]
  meshDim := 3

theorem twoVolus_sound : Sound twoVolus := sound_of_checked (by decide +kernel)
theorem twoVolus_two : TwoVolus twoVolus := by unfold TwoVolus; decide +kernel

example : twoVolus.connectedVolumes [] [] = .ok ([1, 1], 1) ∧
    twoVolus.connectedVolumes [] [true, false, false] = .ok ([1, 2], 2) ∧
    twoVolus.connectedVolumes [-5, 0] [] = .ok ([-5, 1], 1) ∧
    twoVolus.connectedVolumes [0] [] = .error .throws := by decide +kernel

example : VoluJoined twoVolus (OpenFace twoVolus []) (HasVolu twoVolus) 1 2 ∧
    ¬ VoluJoined twoVolus (OpenFace twoVolus [true, false, false]) (HasVolu twoVolus) 1 2 := by
  constructor
  · obtain ⟨labels, n, h1, _, _, h4, _⟩ :=
      C21_volume_blocks twoVolus twoVolus_sound twoVolus_two [] (Or.inl rfl)
    have hr : twoVolus.connectedVolumes [] [] = .ok ([1, 1], 1) := by decide +kernel
    rw [hr] at h1
    cases h1
    exact (h4 1 2 1 1 ⟨0, _, rfl, rfl, rfl⟩ ⟨1, _, rfl, rfl, rfl⟩).mp rfl
  · obtain ⟨labels, n, h1, _, _, h4, _⟩ :=
      C21_volume_blocks twoVolus twoVolus_sound twoVolus_two [true, false, false] (Or.inr rfl)
    have hr : twoVolus.connectedVolumes [] [true, false, false] = .ok ([1, 2], 2) := by
      decide +kernel
    rw [hr] at h1
    cases h1
    intro h
    have := (h4 1 2 1 2 ⟨0, _, rfl, rfl, rfl⟩ ⟨1, _, rfl, rfl, rfl⟩).mpr h
    omega

/-- C21 is violated: a new block gets the label 1 although a volume which is a barrier has it
already, so that two distinct blocks have the same label. -/
theorem C21_label_reused_violated :
    ∃ (m : Mesh) (block : List Int), Sound m ∧ TwoVolus m ∧ block.length = m.volus.length ∧
      ∃ labels n, m.connectedVolumes block [] = .ok (labels, n) ∧
        ∃ v w, ¬ FreeVolu m block v ∧ FreeVolu m block w ∧
          ∃ l, VoluLabel m labels v l ∧ VoluLabel m labels w l := by
  refine ⟨twoVolus, [1, 0], twoVolus_sound, twoVolus_two, rfl, [1, 1], 1, by decide +kernel,
    1, 2, ?_, ⟨1, _, rfl, rfl, Or.inr rfl⟩, 1, ⟨0, _, rfl, rfl, rfl⟩, ⟨1, _, rfl, rfl, rfl⟩⟩
  rintro ⟨k, x, hx, hxi, h⟩
  match k with
  | 0 => rcases h with h | h <;> simp at h
  | 1 =>
    have : x = { index := 2, surfind := [1, 3] } := (Option.some.inj hx).symm
    rw [this] at hxi
    simp at hxi
  | k + 2 => cases hx

/-! ### C54 -/

/-- C54, what holds for every mesh and every set of snaxels on it: the flood fill ends; the
vertex each snaxel comes from is inside; inside vertices have the same label iff they are joined
without meeting a snaxel; and the labels other than the last are complete components.
Missing: vertices joined to a vertex with the last label may be left without a label, see
`C54_stops_early_violated`. -/
theorem C54_snake_flood_partial (m : Mesh) (hm : Sound m) (h2 : TwoVerts m)
    (snaxs : List FloodSnax) (hs : SnaxelsOnMesh m snaxs) :
    ∃ labels n, m.findBlockSnakeMeshVerts snaxs = .ok (labels, n) ∧
      m.assignInternalVerts snaxs = .ok (labels.map (fun l => decide (0 < l))) ∧
      labels.length = m.verts.length ∧ (∀ l ∈ labels, 0 ≤ l ∧ l ≤ n) ∧
      (∀ x ∈ snaxs, ∃ l, VertLabel m labels x.fromvert l ∧ 1 ≤ l) ∧
      (∀ v w l l', VertLabel m labels v l → VertLabel m labels w l' → 0 < l → 0 < l' →
        (l = l' ↔ VertJoined m (NoSnaxel snaxs) (fun _ => True) v w)) ∧
      (∀ v w l l', VertLabel m labels v l → VertLabel m labels w l' → 0 < l → l < n →
        VertJoined m (NoSnaxel snaxs) (fun _ => True) v w → l' = l) ∧
      (∀ l, 1 ≤ l → l ≤ n → l ∈ labels) := by
  obtain ⟨labels, n, h1, h⟩ := findBlock_spec hm h2 hs
  refine ⟨labels, n, h1, ?_, h⟩
  unfold assignInternalVerts
  rw [h1]
  rfl

/-- A snaxel between vertices 2 and 3 of the path. -/
example : SnaxelsOnMesh threePath [⟨2, 2⟩] ∧
    threePath.findBlockSnakeMeshVerts [⟨3, 2⟩, ⟨2, 2⟩] = .ok ([0, 2, 1], 2) := by
  refine ⟨?_, by decide +kernel⟩
  intro x hx
  simp only [List.mem_singleton] at hx
  subst hx
  exact ⟨_, List.mem_cons_of_mem _ List.mem_cons_self, rfl, by decide⟩

/-- C54 is violated: the loop ends when every snaxel has been met, not when the queue is empty.
With a snaxel which leaves vertex 2 towards vertex 3, vertex 1 is joined to vertex 2 by an edge
without snaxels but only vertex 2 is marked as inside. -/
theorem C54_stops_early_violated :
    ∃ (m : Mesh) (snaxs : List FloodSnax), Sound m ∧ TwoVerts m ∧ SnaxelsOnMesh m snaxs ∧
      VertJoined m (NoSnaxel snaxs) (fun _ => True) 2 1 ∧
      m.assignInternalVerts snaxs = .ok [false, true, false] := by
  refine ⟨threePath, [⟨2, 2⟩], threePath_sound, threePath_two, ?_, ?_, by decide +kernel⟩
  · intro x hx
    simp only [List.mem_singleton] at hx
    subst hx
    exact ⟨_, List.mem_cons_of_mem _ List.mem_cons_self, rfl, by decide⟩
  · refine Relation.ReflTransGen.single ⟨trivial, trivial, 1, ?_, ?_, ?_⟩
    · intro x hx
      simp only [List.mem_singleton] at hx
      subst hx
      decide
    · exact ⟨_, List.mem_cons_self, rfl, by decide⟩
    · exact ⟨_, List.mem_cons_self, rfl, by decide⟩

/-- C54 is violated on inconsistent data: a snaxel whose starting vertex does not list its edge
is never met and the loop does not end, whatever the number of turns. -/
theorem C54_never_met_violated :
    ∃ (m : Mesh) (snaxs : List FloodSnax), Sound m ∧ TwoVerts m ∧
      (∀ x ∈ snaxs, HasVert m x.fromvert ∧ HasEdge m x.edgeind) ∧
      m.findBlockSnakeMeshVerts snaxs = .error .diverges ∧
      ∀ turns, m.snakeFloodLoop snaxs turns
        { flood := { done := fun _ => false, label := fun _ => 0, next := [], count := 0 },
          snax := fun _ => false, explored := 0 } [] 0 = .error .diverges := by
  refine ⟨threePath, [⟨1, 2⟩], threePath_sound, threePath_two, ?_, by decide +kernel, ?_⟩
  · intro x hx
    simp only [List.mem_singleton] at hx
    subst hx
    exact ⟨⟨_, List.mem_cons_self, rfl⟩, ⟨_, List.mem_cons_of_mem _ List.mem_cons_self, rfl⟩⟩
  · intro turns
    match turns with
    | 0 => rfl
    | 1 => rfl
    | 2 => rfl
    | k + 3 =>
      exact snakeFloodLoop_stuck (m := threePath) (snaxs := [⟨1, 2⟩]) (i := 0) (x := ⟨1, 2⟩)
        (p := 0)
        (s := { flood :=
                  { done := setAt (setAt (fun _ => false) 0 true) 1 true,
                    label := setAt (setAt (fun _ => 0) 0 1) 1 1,
                    next := [], count := 2 },
                snax := fun _ => false, explored := 0 })
        rfl rfl rfl rfl rfl rfl k 1

end RSVS.Props
