import Verif.Lemmas.MeshCheck
import Verif.Lemmas.Voronoi

/-!
# C105: the mesh of a Voronoi diagram is closed
-/

namespace RSVS.Props

open RSVS.Voronoi RSVS.Spec RSVS.Mesh RSVS.TetMesh

variable {t : VoroOut} {pts : List ℚ}

/-- The positions behind the first `n` are those of the members of the list. -/
theorem exists_behind {L : List Nat} (hL : L.Nodup) {n : Nat} {P : Nat → Prop} : (∃ k < n + L.length, P k) ↔ (∃ k < n, P k) ∨ ∃ f ∈ L, P (n + L.idxOf f) := by
  constructor
  · rintro ⟨k, hk, hP⟩
    by_cases h : k < n
    · exact Or.inl ⟨k, h, hP⟩
    · have hi : k - n < L.length := by omega
      refine Or.inr ⟨L.getD (k - n) 0, ?_, ?_⟩
      · rw [List.getD_eq_getElem?_getD, List.getElem?_eq_getElem hi, Option.getD_some]
        exact List.getElem_mem hi
      · rw [idx_getD hL hi, show n + (k - n) = k by omega]
        exact hP
  · rintro (⟨k, hk, hP⟩ | ⟨f, hf, hP⟩)
    · exact ⟨k, by omega, hP⟩
    · have := List.idxOf_lt_length_of_mem hf
      exact ⟨_, by omega, hP⟩

theorem mem_raysOf (h : VoroValid t pts) {f e : Nat} (hf : f < nf t) : e ∈ raysOf t f ↔ e ∈ vEdges t f ∧ IsRay t e := by
  simp only [raysOf, List.mem_filter, decide_eq_true_eq, mem_rayL]
  constructor
  · rintro ⟨a, -, b⟩; exact ⟨a, b⟩
  · rintro ⟨a, b⟩; exact ⟨a, edges_bound h hf a, b⟩

theorem getD_tip {e : Nat} (he : e ∈ rayL t) : (rayL t).getD (tipOf t e - nv t) 0 = e := by
  unfold tipOf
  rw [show nv t + (rayL t).idxOf e - nv t = (rayL t).idxOf e by omega, getD_idx he]

theorem getD_link {f : Nat} (hf : f ∈ openL t) : (openL t).getD (linkOf t f - ne t) 0 = f := by
  unfold linkOf
  rw [show ne t + (openL t).idxOf f - ne t = (openL t).idxOf f by omega, getD_idx hf]

theorem getD_lid {c : Nat} (hc : c ∈ cellL t) : (cellL t).getD (lidOf t c - nf t) 0 = c := by
  unfold lidOf
  rw [show nf t + (cellL t).idxOf c - nf t = (cellL t).idxOf c by omega, getD_idx hc]

/-- The ends of an edge of the diagram. -/
theorem old_vertind_eq (h : VoroValid t pts) {k : Nat} (hk : k < ne t) : (edge3 t (cellL t) k).vertind =
    [(vFrom t k : Int) + 1, if rayB t k then (tipOf t k : Int) + 1 else (vTo t k : Int) + 1] := by
  have h1 : (edge3 t (cellL t) k).vertind = (edge1 t (rayL t) k).vertind := by simp only [edge3, edge2, if_pos hk]
  rw [h1, edge1]
  by_cases hr : IsRay t k
  · rw [if_pos (mem_rayL.mpr ⟨hk, hr⟩), if_pos (by simpa [rayB, IsRay] using hr)]
  · have := (dec_eq h ((h.v2 k hk).resolve_left hr)).2.1
    rw [if_neg (fun q => hr (mem_rayL.mp q).2), if_neg (by simpa [rayB, IsRay] using hr)]
    simp [edge0, hk, this, vTo]

theorem old_vertind (h : VoroValid t pts) {k : Nat} (hk : k < ne t) {v : Int} :
    v ∈ (edge3 t (cellL t) k).vertind ↔ (∃ x : Nat, VEnd t k x ∧ v = x + 1) ∨ IsRay t k ∧ v = (tipOf t k : Int) + 1 := by
  rw [old_vertind_eq h hk]
  by_cases hr : IsRay t k
  · have hB : rayB t k = true := by simpa [rayB, IsRay] using hr
    simp only [hB, if_true, VEnd, hr, List.mem_cons, List.not_mem_nil, or_false, true_and, not_true, false_and]
    constructor
    · rintro (e | e)
      · exact Or.inl ⟨_, rfl, e⟩
      · exact Or.inr e
    · rintro (⟨x, rfl, e⟩ | e)
      · exact Or.inl e
      · exact Or.inr e
  · have hB : ¬ rayB t k = true := by simpa [rayB, IsRay] using hr
    simp only [hB, VEnd, hr, List.mem_cons, List.not_mem_nil, or_false, not_false_iff, true_and, false_and]
    constructor
    · rintro (e | e)
      · exact ⟨_, Or.inl rfl, e⟩
      · exact ⟨_, Or.inr rfl, e⟩
    · rintro ⟨x, rfl | rfl, e⟩
      · exact Or.inl e
      · exact Or.inr e

theorem new_vertind (h : VoroValid t pts) {f : Nat} (hf : f ∈ openL t) {v : Int} :
    v ∈ (edge3 t (cellL t) (linkOf t f)).vertind ↔ ∃ e ∈ vEdges t f, IsRay t e ∧ v = (tipOf t e : Int) + 1 := by
  have : ¬ linkOf t f < ne t := by unfold linkOf; omega
  simp only [edge3, edge2, this, if_false, getD_link hf, up, List.mem_map, exists_exists_and_eq_and, mem_raysOf h (mem_openL.mp hf).1]
  constructor
  · rintro ⟨e, ⟨a, b⟩, c⟩; exact ⟨e, a, b, c.symm⟩
  · rintro ⟨e, a, b, c⟩; exact ⟨e, ⟨a, b⟩, c.symm⟩

theorem old_surfind {k : Nat} (hk : k < ne t) {s : Int} : s ∈ (edge3 t (cellL t) k).surfind ↔ ∃ f < nf t, k ∈ vEdges t f ∧ s = (f : Int) + 1 := by
  have h1 : (edge2 t k).surfind = up ((List.range (nf t)).flatMap fun f => ((vEdges t f).filter fun e => e = k).map fun _ => f) := by
    rw [edge2, if_pos hk, edge1]
    split_ifs <;> rfl
  have h2 : (cellL t).filter (linkIn t k) = [] := by
    rw [List.filter_eq_nil_iff]
    intro c _
    simp only [linkIn, decide_eq_true_eq, not_and]
    omega
  simp only [edge3, h1, h2, up, List.map_nil, List.append_nil, List.mem_map, List.mem_flatMap, List.mem_range, List.mem_filter, decide_eq_true_eq]
  constructor
  · rintro ⟨f, ⟨f', hf, e, ⟨he, rfl⟩, rfl⟩, rfl⟩; exact ⟨f', hf, he, rfl⟩
  · rintro ⟨f, hf, he, rfl⟩; exact ⟨f, ⟨f, hf, k, ⟨he, rfl⟩, rfl⟩, rfl⟩

theorem new_surfind {f : Nat} (hf : f ∈ openL t) {s : Int} :
    s ∈ (edge3 t (cellL t) (linkOf t f)).surfind ↔ s = (f : Int) + 1 ∨ ∃ c ∈ cellL t, VSide t f c ∧ s = (lidOf t c : Int) + 1 := by
  have h0 : ¬ linkOf t f < ne t := by unfold linkOf; omega
  have h1 : ne t ≤ linkOf t f := by omega
  have ho := mem_openL.mp hf
  simp only [edge3, edge2, h0, if_false, getD_link hf, up, List.mem_append, List.map_cons, List.map_nil, List.mem_cons, List.not_mem_nil, or_false, List.mem_map,
    List.mem_filter, linkIn, h1, true_and, mem_openOf, ho, decide_eq_true_eq, exists_exists_and_eq_and]
  constructor
  · rintro (e | ⟨c, ⟨a, b⟩, e⟩)
    · exact Or.inl e
    · exact Or.inr ⟨c, a, b, e.symm⟩
  · rintro (e | ⟨c, a, b, e⟩)
    · exact Or.inl e
    · exact Or.inr ⟨c, ⟨a, b⟩, e.symm⟩

theorem old_edgeind {ending : List ℚ → List ℚ → List ℚ} {k : Nat} (hk : k < nv t) {i : Int} :
    i ∈ (vert2 t pts ending (openL t) k).edgeind ↔ ∃ e < ne t, i = (e : Int) + 1 ∧ VEnd t e k := by
  have h2 : (openL t).filter (tipIn t k) = [] := by
    rw [List.filter_eq_nil_iff]
    intro c _
    simp only [tipIn, decide_eq_true_eq, not_and]
    omega
  simp only [vert2, vert1, hk, if_true, h2, up, List.map_nil, List.append_nil, vert0, endsOf, List.mem_map, List.mem_flatMap, List.mem_range, List.mem_append]
  constructor
  · rintro ⟨e, ⟨e', he, hx⟩, rfl⟩
    rcases hx with hx | hx
    · split_ifs at hx with q
      · obtain rfl := List.mem_singleton.mp hx
        exact ⟨_, he, rfl, Or.inl q.symm⟩
      · simp at hx
    · split_ifs at hx with q
      · obtain rfl := List.mem_singleton.mp hx
        exact ⟨_, he, rfl, Or.inr ⟨by simpa [rayB, IsRay] using q.1, q.2.symm⟩⟩
      · simp at hx
  · rintro ⟨e, he, rfl, q | ⟨q1, q2⟩⟩
    · exact ⟨e, ⟨e, he, Or.inl (by simp [q])⟩, rfl⟩
    · refine ⟨e, ⟨e, he, Or.inr ?_⟩, rfl⟩
      rw [if_pos ⟨by simpa [rayB, IsRay] using q1, q2.symm⟩]
      simp

theorem new_edgeind (h : VoroValid t pts) {ending : List ℚ → List ℚ → List ℚ} {e : Nat} (he : e ∈ rayL t) {i : Int} :
    i ∈ (vert2 t pts ending (openL t) (tipOf t e)).edgeind ↔ i = (e : Int) + 1 ∨ ∃ f ∈ openL t, e ∈ vEdges t f ∧ i = (linkOf t f : Int) + 1 := by
  have h0 : ¬ tipOf t e < nv t := by unfold tipOf; omega
  have h1 : nv t ≤ tipOf t e := by omega
  have hr := (mem_rayL.mp he).2
  simp only [vert2, vert1, h0, if_false, getD_tip he, up, List.mem_append, List.mem_cons, List.not_mem_nil, or_false, List.mem_map,
    List.mem_filter, tipIn, h1, true_and, decide_eq_true_eq, exists_exists_and_eq_and]
  constructor
  · rintro (e | ⟨f, ⟨a, b⟩, e⟩)
    · exact Or.inl e
    · exact Or.inr ⟨f, a, ((mem_raysOf h (mem_openL.mp a).1).mp b).1, e.symm⟩
  · rintro (e | ⟨f, a, b, e⟩)
    · exact Or.inl e
    · exact Or.inr ⟨f, ⟨a, (mem_raysOf h (mem_openL.mp a).1).mpr ⟨b, hr⟩⟩, e.symm⟩

theorem old_surf {f : Nat} (hf : f < nf t) {i : Int} :
    (i ∈ (surf3 t f).edgeind ↔ (∃ e ∈ vEdges t f, i = (e : Int) + 1) ∨ VOpen t f ∧ i = (linkOf t f : Int) + 1) ∧
    (i ∈ (surf3 t f).voluind ↔ ∃ c : Nat, VSide t f c ∧ i = (c : Int) + 1) := by
  simp only [surf3, hf, if_true, surf2, surf0, List.mem_range, up, List.mem_append, List.mem_map, List.map_cons, List.map_nil, List.mem_cons, List.not_mem_nil, or_false]
  constructor
  · constructor
    · rintro (⟨e, he, q⟩ | q)
      · exact Or.inl ⟨e, he, q.symm⟩
      · split_ifs at q with ho
        · exact Or.inr ⟨mem_openL.mp ho, List.mem_singleton.mp q⟩
        · simp at q
    · rintro (⟨e, he, q⟩ | ⟨ho, q⟩)
      · exact Or.inl ⟨e, he, q.symm⟩
      · refine Or.inr ?_
        rw [if_pos (mem_openL.mpr ho)]
        simp [q]
  · constructor
    · rintro (q | q)
      · exact ⟨_, Or.inl rfl, q⟩
      · exact ⟨_, Or.inr rfl, q⟩
    · rintro ⟨c, rfl | rfl, q⟩
      · exact Or.inl q
      · exact Or.inr q

theorem new_surf {c : Nat} (hc : c ∈ cellL t) {i : Int} :
    (i ∈ (surf3 t (lidOf t c)).edgeind ↔ ∃ f, VOpen t f ∧ VSide t f c ∧ i = (linkOf t f : Int) + 1) ∧
    (i ∈ (surf3 t (lidOf t c)).voluind ↔ i = (c : Int) + 1 ∨ i = 0) := by
  have h0 : ¬ lidOf t c < nf t := by unfold lidOf; omega
  simp only [surf3, h0, if_false, getD_lid hc, up, List.mem_map, exists_exists_and_eq_and, mem_openOf, List.mem_cons, List.not_mem_nil, or_false, and_true]
  constructor
  · rintro ⟨f, ⟨a, b⟩, q⟩; exact ⟨f, a, b, q.symm⟩
  · rintro ⟨f, a, b, q⟩; exact ⟨f, ⟨a, b⟩, q.symm⟩

theorem any_volu {c : Nat} {s : Int} : s ∈ (volu3 t (cellL t) c).surfind ↔
    (∃ f < nf t, VSide t f c ∧ s = (f : Int) + 1) ∨ c ∈ cellL t ∧ s = (lidOf t c : Int) + 1 := by
  simp only [volu3, volu0, up, List.mem_append, List.mem_map, List.mem_flatMap, List.mem_range, sideOf]
  constructor
  · rintro (⟨f, ⟨f', hf, hx⟩, rfl⟩ | q)
    · rcases hx with hx | hx
      · split_ifs at hx with q
        · obtain rfl := List.mem_singleton.mp hx
          exact Or.inl ⟨_, hf, Or.inl q.symm, rfl⟩
        · simp at hx
      · split_ifs at hx with q
        · obtain rfl := List.mem_singleton.mp hx
          exact Or.inl ⟨_, hf, Or.inr q.symm, rfl⟩
        · simp at hx
    · split_ifs at q with hc
      · exact Or.inr ⟨hc, List.mem_singleton.mp q⟩
      · simp at q
  · rintro (⟨f, hf, q | q, rfl⟩ | ⟨hc, q⟩)
    · exact Or.inl ⟨f, ⟨f, hf, Or.inl (by simp [q])⟩, rfl⟩
    · exact Or.inl ⟨f, ⟨f, hf, Or.inr (by simp [q])⟩, rfl⟩
    · refine Or.inr ?_
      rw [if_pos hc]
      simp [q]

theorem exists_elem {α : Type} {n : Nat} {g : Nat → α} {ix : α → Int} (hg : ∀ k, ix (g k) = (k : Int) + 1) {i : Int} {P : α → Prop} :
    (∃ x ∈ (List.range n).map g, ix x = i ∧ P x) ↔ ∃ k < n, i = (k : Int) + 1 ∧ P (g k) := by
  simp only [List.mem_map, List.mem_range, exists_exists_and_eq_and, hg]
  constructor <;> rintro ⟨k, hk, e, hp⟩ <;> exact ⟨k, hk, e.symm, hp⟩

theorem vert2_index {ending : List ℚ → List ℚ → List ℚ} (p : List Nat) (k : Nat) : (vert2 t pts ending p k).index = (k : Int) + 1 := by
  simp only [vert2, vert1]
  split_ifs <;> rfl

theorem edge3_index (p : List Nat) (k : Nat) : (edge3 t p k).index = (k : Int) + 1 := by
  simp only [edge3, edge2, edge1]
  split_ifs <;> rfl

theorem surf3_index (k : Nat) : (surf3 t k).index = (k : Int) + 1 := by
  simp only [surf3]
  split_ifs <;> rfl

theorem numbers_of {L : List Nat} {P : Nat → Prop} (hL : L.Nodup) (hP : ∀ a, a ∈ L ↔ P a) (n : Nat) :
    Numbers P n (n + L.length) fun a => ((n + L.idxOf a : Nat) : Int) + 1 where
  inj a b ha hb e := by
    have ha := getD_idx ((hP a).mpr ha)
    have hb := getD_idx ((hP b).mpr hb)
    have : L.idxOf a = L.idxOf b := by omega
    rw [← ha, ← hb, this]
  onto i := by
    constructor
    · rintro ⟨h1, h2⟩
      have hi : (i - n - 1).toNat < L.length := by omega
      refine ⟨L.getD (i - n - 1).toNat 0, ?_, ?_⟩
      · rw [← hP, List.getD_eq_getElem?_getD, List.getElem?_eq_getElem hi, Option.getD_some]
        exact List.getElem_mem hi
      · rw [idx_getD hL hi]
        omega
    · rintro ⟨a, ha, rfl⟩
      have := List.idxOf_lt_length_of_mem ((hP a).mpr ha)
      omega

theorem bound_from (h : VoroValid t pts) {e : Nat} (he : e < ne t) : vFrom t e < nv t := (dec_eq h (h.v1 e he)).2.2

theorem bound_end (h : VoroValid t pts) {e x : Nat} (he : e < ne t) (hx : VEnd t e x) : x < nv t := by
  rcases hx with rfl | ⟨hr, rfl⟩
  · exact bound_from h he
  · exact (dec_eq h ((h.v2 e he).resolve_left hr)).2.2

theorem bound_side (h : VoroValid t pts) {f c : Nat} (hf : f < nf t) (hc : VSide t f c) : c < nc t := by
  rcases hc with rfl | rfl
  · exact (dec_eq h (h.c1 f hf)).2.2
  · exact (dec_eq h (h.c2 f hf)).2.2

theorem open_cell (h : VoroValid t pts) {c : Nat} : c ∈ cellL t ↔ ∃ f, VOpen t f ∧ VSide t f c := by
  rw [mem_cellL]
  constructor
  · exact fun q => q.2
  · rintro ⟨f, ho, hs⟩; exact ⟨bound_side h ho.1 hs, f, ho, hs⟩

theorem index_list {α : Type} {ix : α → Int} {n : Nat} {g : Nat → α} (hg : ∀ k, ix (g k) = (k : Int) + 1) :
    ((List.range n).map g).map ix = (List.range ((List.range n).map g).length).map fun (k : Nat) => (k : Int) + 1 := by
  rw [List.map_map]
  simp only [List.length_map, List.length_range]
  apply List.map_congr_left
  intro k _
  exact hg k

theorem closed_voro (h : VoroValid t pts) (ending : List ℚ → List ℚ → List ℚ) (h2 : ∀ f ∈ openL t, (raysOf t f).length = 2) :
    ClosedVoro t pts ending (mesh3 t pts ending (cellL t)) (fun e => (tipOf t e : Int) + 1) (fun f => (linkOf t f : Int) + 1) fun c => (lidOf t c : Int) + 1 where
  verts := index_list (vert2_index _)
  edges := index_list (edge3_index _)
  surfs := index_list surf3_index
  volus := by
    show ((List.range (nc t)).map (volu3 t (cellL t))).map Volu.index = _
    rw [List.map_map]
    rfl
  numTip := by
    have := numbers_of (L := rayL t) rayL_nodup (fun a => mem_rayL) (nv t)
    simpa [mesh3, mesh2, tipOf] using this
  numLink := by
    have := numbers_of (L := openL t) openL_nodup (fun a => mem_openL) (ne t)
    simpa [mesh3, linkOf] using this
  numLid := by
    have := numbers_of (L := cellL t) cellL_nodup (fun a => open_cell h) (nf t)
    simpa [mesh3, lidOf] using this
  coord k hk := by
    show (((List.range (nv t + (rayL t).length)).map (vert2 t pts ending (openL t))).map Vert.coord)[k]? = _
    rw [List.map_map, List.getElem?_map, List.getElem?_range (Nat.lt_add_right _ hk)]
    simp only [Option.map_some, Function.comp, vert2, vert1, if_pos hk, vert0, crd]
    rw [show 3 * k = k * 3 by omega]
    rfl
  tipCoord v hv e hr he hi := by
    obtain ⟨k, hk, rfl⟩ := List.mem_map.mp (show v ∈ (List.range (nv t + (rayL t).length)).map (vert2 t pts ending (openL t)) from hv)
    rw [vert2_index] at hi
    have hm : e ∈ rayL t := mem_rayL.mpr ⟨he, hr⟩
    have hk : k = tipOf t e := by omega
    subst hk
    have h0 : ¬ tipOf t e < nv t := by unfold tipOf; omega
    simp only [vert2, vert1, if_neg h0, getD_tip hm, crd]
    rw [show 3 * vFrom t e = vFrom t e * 3 by omega]
    rfl
  edgeVert i v := by
    show (∃ x ∈ (List.range (ne t + (openL t).length)).map (edge3 t (cellL t)), x.index = i ∧ v ∈ x.vertind) ↔ _
    rw [exists_elem (edge3_index _), exists_behind openL_nodup]
    apply or_congr
    · constructor <;> rintro ⟨k, hk, e, q⟩
      · exact ⟨k, hk, e, (old_vertind h hk).mp q⟩
      · exact ⟨k, hk, e, (old_vertind h hk).mpr q⟩
    · constructor
      · rintro ⟨f, hf, e, q⟩; exact ⟨f, mem_openL.mp hf, e, (new_vertind h hf).mp q⟩
      · rintro ⟨f, hf, e, q⟩; exact ⟨f, mem_openL.mpr hf, e, (new_vertind h (mem_openL.mpr hf)).mpr q⟩
  two e he := by
    obtain ⟨k, hk, rfl⟩ := List.mem_map.mp (show e ∈ (List.range (ne t + (openL t).length)).map (edge3 t (cellL t)) from he)
    rcases (exists_behind (P := fun k' => k' = k) openL_nodup).mp ⟨k, List.mem_range.mp hk, rfl⟩ with ⟨k', hk', rfl⟩ | ⟨f, hf, rfl⟩
    · rw [old_vertind_eq h hk']; rfl
    · have h0 : ¬ ne t + (openL t).idxOf f < ne t := by omega
      simp only [edge3, edge2, if_neg h0]
      have := getD_link hf
      unfold linkOf at this
      rw [this, List.length_map, List.length_map, h2 f hf]
  vertEdge v i := by
    show (∃ x ∈ (List.range (nv t + (rayL t).length)).map (vert2 t pts ending (openL t)), x.index = v ∧ i ∈ x.edgeind) ↔ _
    rw [exists_elem (vert2_index _), exists_behind rayL_nodup]
    constructor
    · rintro (⟨k, hk, rfl, q⟩ | ⟨e, he, rfl, q⟩)
      · obtain ⟨e, he, rfl, hx⟩ := old_edgeind hk |>.mp q
        exact Or.inl ⟨e, he, rfl, Or.inl ⟨k, hx, rfl⟩⟩
      · obtain ⟨he1, he2⟩ := mem_rayL.mp he
        rcases (new_edgeind h he).mp q with rfl | ⟨f, hf, hx, rfl⟩
        · exact Or.inl ⟨e, he1, rfl, Or.inr ⟨he2, rfl⟩⟩
        · exact Or.inr ⟨f, mem_openL.mp hf, rfl, e, hx, he2, rfl⟩
    · rintro (⟨e, he, rfl, ⟨x, hx, rfl⟩ | ⟨hr, rfl⟩⟩ | ⟨f, hf, rfl, e, he, hr, rfl⟩)
      · have hb := bound_end h he hx
        exact Or.inl ⟨x, hb, rfl, (old_edgeind hb).mpr ⟨e, he, rfl, hx⟩⟩
      · have hm : e ∈ rayL t := mem_rayL.mpr ⟨he, hr⟩
        exact Or.inr ⟨e, hm, rfl, (new_edgeind h hm).mpr (Or.inl rfl)⟩
      · have hm : e ∈ rayL t := mem_rayL.mpr ⟨edges_bound h hf.1 he, hr⟩
        exact Or.inr ⟨e, hm, rfl, (new_edgeind h hm).mpr (Or.inr ⟨f, mem_openL.mpr hf, he, rfl⟩)⟩
  surfEdge s i := by
    show (∃ x ∈ (List.range (nf t + (cellL t).length)).map (surf3 t), x.index = s ∧ i ∈ x.edgeind) ↔ _
    rw [exists_elem surf3_index, exists_behind cellL_nodup]
    apply or_congr
    · constructor <;> rintro ⟨k, hk, e, q⟩
      · exact ⟨k, hk, e, (old_surf hk).1.mp q⟩
      · exact ⟨k, hk, e, (old_surf hk).1.mpr q⟩
    · constructor
      · rintro ⟨c, hc, rfl, q⟩
        obtain ⟨f, h1, h2, h3⟩ := (new_surf hc).1.mp q
        exact ⟨c, f, h1, h2, rfl, h3⟩
      · rintro ⟨c, f, h1, h2, rfl, h3⟩
        have hc := (open_cell h).mpr ⟨f, h1, h2⟩
        exact ⟨c, hc, rfl, (new_surf hc).1.mpr ⟨f, h1, h2, h3⟩⟩
  edgeSurf i s := by
    show (∃ x ∈ (List.range (ne t + (openL t).length)).map (edge3 t (cellL t)), x.index = i ∧ s ∈ x.surfind) ↔ _
    rw [exists_elem (edge3_index _), exists_behind openL_nodup]
    constructor
    · rintro (⟨k, hk, rfl, q⟩ | ⟨f, hf, rfl, q⟩)
      · obtain ⟨f, hf, he, rfl⟩ := (old_surfind hk).mp q
        exact Or.inl ⟨f, hf, rfl, Or.inl ⟨k, he, rfl⟩⟩
      · have ho := mem_openL.mp hf
        rcases (new_surfind hf).mp q with rfl | ⟨c, hc, hs, rfl⟩
        · exact Or.inl ⟨f, ho.1, rfl, Or.inr ⟨ho, rfl⟩⟩
        · exact Or.inr ⟨c, f, ho, hs, rfl, rfl⟩
    · rintro (⟨f, hf, rfl, ⟨e, he, rfl⟩ | ⟨ho, rfl⟩⟩ | ⟨c, f, ho, hs, rfl, rfl⟩)
      · have hb := edges_bound h hf he
        exact Or.inl ⟨e, hb, rfl, (old_surfind hb).mpr ⟨f, hf, he, rfl⟩⟩
      · have hm := mem_openL.mpr ho
        exact Or.inr ⟨f, hm, rfl, (new_surfind hm).mpr (Or.inl rfl)⟩
      · have hm := mem_openL.mpr ho
        exact Or.inr ⟨f, hm, rfl, (new_surfind hm).mpr (Or.inr ⟨c, (open_cell h).mpr ⟨f, ho, hs⟩, hs, rfl⟩)⟩
  surfVolu s i := by
    show (∃ x ∈ (List.range (nf t + (cellL t).length)).map (surf3 t), x.index = s ∧ i ∈ x.voluind) ↔ _
    rw [exists_elem surf3_index, exists_behind cellL_nodup]
    apply or_congr
    · constructor <;> rintro ⟨k, hk, e, q⟩
      · exact ⟨k, hk, e, (old_surf hk).2.mp q⟩
      · exact ⟨k, hk, e, (old_surf hk).2.mpr q⟩
    · constructor
      · rintro ⟨c, hc, e, q⟩; exact ⟨c, (open_cell h).mp hc, e, (new_surf hc).2.mp q⟩
      · rintro ⟨c, hc, e, q⟩
        have hc := (open_cell h).mpr hc
        exact ⟨c, hc, e, (new_surf hc).2.mpr q⟩
  voluSurf i s := by
    show (∃ x ∈ (List.range (nc t)).map (volu3 t (cellL t)), x.index = i ∧ s ∈ x.surfind) ↔ _
    rw [exists_elem (ix := Volu.index) (g := volu3 t (cellL t)) (fun _ => rfl)]
    constructor
    · rintro ⟨c, hc, rfl, q⟩
      rcases any_volu.mp q with ⟨f, hf, hs, rfl⟩ | ⟨hm, rfl⟩
      · exact Or.inl ⟨f, hf, rfl, c, hs, rfl⟩
      · exact Or.inr ⟨c, (open_cell h).mp hm, rfl, rfl⟩
    · rintro (⟨f, hf, rfl, c, hs, rfl⟩ | ⟨c, hc, rfl, rfl⟩)
      · exact ⟨c, bound_side h hf hs, rfl, any_volu.mpr (Or.inl ⟨f, hf, hs, rfl⟩)⟩
      · have hm := (open_cell h).mpr hc
        exact ⟨c, (mem_cellL.mp hm).1, rfl, any_volu.mpr (Or.inr ⟨hm, rfl⟩)⟩

theorem two_of {l : List Nat} (hl : l.Nodup) {P : Nat → Prop} (hP : ∀ x, x ∈ l ↔ P x) (ht : NoneOrTwo P) (hne : ∃ x, P x) : l.length = 2 := by
  rcases ht with h0 | ⟨a, b, hab, h⟩
  · obtain ⟨x, hx⟩ := hne; exact absurd hx (h0 x)
  · have : l.Perm [a, b] := (List.perm_ext_iff_of_nodup hl (by simp [hab])).mpr fun x => by rw [hP, h]; simp
    rw [this.length_eq]; rfl

theorem rays_two (h : VoroValid t pts) (ho : VoroOpen t) {f : Nat} (hf : f ∈ openL t) : (raysOf t f).length = 2 := by
  have hv := mem_openL.mp hf
  exact two_of (raysOf_nodup h hv.1) (fun x => mem_raysOf h hv.1) (ho.rays f hv) (by obtain ⟨-, e, a, b⟩ := hv; exact ⟨e, a, b⟩)

theorem cells_three (h : VoroValid t pts) (ho : VoroOpen t) {c : Nat} (hc : c ∈ cellL t) : 3 ≤ (openOf t c).length := by
  obtain ⟨f, hf, hs⟩ := (open_cell h).mp hc
  obtain ⟨g, k, h1, h2, h3, h4, h5, h6, h7⟩ := ho.cells c f hf hs
  have : [f, g, k].Subperm (openOf t c) := by
    apply List.subperm_of_subset
    · simp [h1.symm, h2.symm, h3]
    · intro x hx
      rw [mem_openOf]
      simp only [List.mem_cons, List.not_mem_nil, or_false] at hx
      rcases hx with rfl | rfl | rfl
      · exact ⟨hf, hs⟩
      · exact ⟨h4, h5⟩
      · exact ⟨h6, h7⟩
  exact this.length_le

/-- C105: the mesh of a diagram has its elements and connections, and one vertex for each ray, one edge for each open facet and one face for
each open cell. -/
theorem C105_closed (h : VoroValid t pts) (ho : VoroOpen t) (ending : List ℚ → List ℚ → List ℚ) :
    ∃ m tip link lid, voroMesh t ending = .ok m ∧ ClosedVoro t pts ending m tip link lid :=
  ⟨_, _, _, _, voro_ok h ending (fun _ hf => rays_two h ho hf) fun _ hc => cells_three h ho hc, closed_voro h ending fun _ hf => rays_two h ho hf⟩

theorem has_bounds {α : Type} {ix : α → Int} {l : List α} (h : l.map ix = (List.range l.length).map fun (k : Nat) => (k : Int) + 1) :
    (l.map ix).Nodup ∧ ∀ i, (∃ x ∈ l, ix x = i) → 0 < i := by
  refine ⟨by rw [h]; exact up_nodup List.nodup_range, ?_⟩
  rintro i ⟨x, hx, rfl⟩
  have : ix x ∈ l.map ix := List.mem_map_of_mem hx
  rw [h] at this
  obtain ⟨k, -, e⟩ := List.mem_map.mp this
  omega

section
variable {m : Mesh} {tip link lid : Nat → Int} {ending : List ℚ → List ℚ → List ℚ}

theorem tip_gt (hm : ClosedVoro t pts ending m tip link lid) {e : Nat} (he : e < ne t) (hr : IsRay t e) : (nv t : Int) < tip e :=
  ((hm.numTip.onto (tip e)).mpr ⟨e, ⟨he, hr⟩, rfl⟩).1

theorem link_gt (hm : ClosedVoro t pts ending m tip link lid) {f : Nat} (hf : VOpen t f) : (ne t : Int) < link f :=
  ((hm.numLink.onto (link f)).mpr ⟨f, hf, rfl⟩).1

theorem lid_gt (hm : ClosedVoro t pts ending m tip link lid) {c f : Nat} (hf : VOpen t f) (hs : VSide t f c) : (nf t : Int) < lid c :=
  ((hm.numLid.onto (lid c)).mpr ⟨c, ⟨f, hf, hs⟩, rfl⟩).1

/-- C105: the mesh is sound. -/
theorem C105_sound (h : VoroValid t pts) (hm : ClosedVoro t pts ending m tip link lid) : Sound m := by
  have hVE : ∀ v e, VertEdge m v e ↔ EdgeVert m e v := fun v e => (hm.vertEdge v e).trans (hm.edgeVert e v).symm
  have hSE : ∀ s e, SurfEdge m s e ↔ EdgeSurf m e s := fun s e => (hm.surfEdge s e).trans (hm.edgeSurf e s).symm
  have hSV : ∀ s c, c ≠ 0 → (SurfVolu m s c ↔ VoluSurf m c s) := by
    intro s c hc
    rw [hm.surfVolu, hm.voluSurf]
    refine or_congr Iff.rfl ?_
    constructor
    · rintro ⟨c', a, b, d | d⟩
      · exact ⟨c', a, b, d⟩
      · exact absurd d hc
    · rintro ⟨c', a, b, d⟩; exact ⟨c', a, b, Or.inl d⟩
  have hvol : (m.volus.map Volu.index).Nodup ∧ ∀ i, HasVolu m i → 0 < i := by
    have hl : m.volus.length = t.numberofvcells := by simpa using congrArg List.length hm.volus
    exact has_bounds (by rw [hm.volus, hl])
  have hedge0 : ∀ e v, EdgeVert m e v → 0 < v := by
    intro e v q
    rcases (hm.edgeVert e v).mp q with ⟨e, he, -, ⟨x, -, rfl⟩ | ⟨hr, rfl⟩⟩ | ⟨f, hf, -, e, he, hr, rfl⟩
    · omega
    · have := tip_gt hm he hr; omega
    · have := tip_gt hm (edges_bound h hf.1 he) hr; omega
  have hsurf0 : ∀ s e, SurfEdge m s e → 0 < e ∧ 0 < s := by
    intro s e q
    rcases (hm.surfEdge s e).mp q with ⟨f, hf, rfl, ⟨e, -, rfl⟩ | ⟨ho, rfl⟩⟩ | ⟨c, f, ho, hs, rfl, rfl⟩
    · omega
    · have := link_gt hm ho; omega
    · have := link_gt hm ho; have := lid_gt hm ho hs; omega
  exact
  { unique := ⟨(has_bounds hm.verts).1, (has_bounds hm.edges).1, (has_bounds hm.surfs).1, hvol.1⟩
    pos := ⟨(has_bounds hm.verts).2, (has_bounds hm.edges).2, (has_bounds hm.surfs).2, hvol.2⟩
    noDangling :=
    { vertEdge := fun v e q _ => by obtain ⟨x, hx, e1, -⟩ := (hVE v e).mp q; exact ⟨x, hx, e1⟩
      edgeVert := fun e v q _ => by obtain ⟨x, hx, e1, -⟩ := (hVE v e).mpr q; exact ⟨x, hx, e1⟩
      edgeSurf := fun e s q _ => by obtain ⟨x, hx, e1, -⟩ := (hSE s e).mpr q; exact ⟨x, hx, e1⟩
      surfEdge := fun s e q => by obtain ⟨x, hx, e1, -⟩ := (hSE s e).mp q; exact ⟨x, hx, e1⟩
      surfVolu := fun s c q hc => by obtain ⟨x, hx, e1, -⟩ := (hSV s c hc).mp q; exact ⟨x, hx, e1⟩
      voluSurf := fun c s q _ => by
        have hc : c ≠ 0 := by obtain ⟨x, hx, e1, -⟩ := q; exact (hvol.2 c ⟨x, hx, e1⟩).ne'
        obtain ⟨x, hx, e1, -⟩ := (hSV s c hc).mpr q
        exact ⟨x, hx, e1⟩ }
    zeroOutside :=
    { vertEdge := fun v q => by
        obtain ⟨x, hx, e1, -⟩ := (hVE v 0).mp q
        exact absurd ((has_bounds hm.edges).2 0 ⟨x, hx, e1⟩) (by omega)
      edgeVert := fun e q => absurd (hedge0 e 0 q) (by omega)
      surfEdge := fun s q => absurd (hsurf0 s 0 q).1 (by omega)
      voluSurf := fun c q => by
        rcases (hm.voluSurf c 0).mp q with ⟨f, -, e, -⟩ | ⟨c', ⟨f, ho, hs⟩, e, -⟩
        · omega
        · have := lid_gt hm ho hs; omega }
    sym :=
    { vertEdge := fun v e _ _ => hVE v e
      edgeSurf := fun e s _ _ => (hSE s e).symm
      surfVolu := fun s c _ hc => hSV s c (hvol.2 c hc).ne' } }

theorem NoneOrTwo.image {α β : Type} {P : α → Prop} {Q : β → Prop} (g : α → β) (hP : NoneOrTwo P) (hg : ∀ a b, P a → P b → g a = g b → a = b)
    (hQ : ∀ y, Q y ↔ ∃ x, P x ∧ y = g x) : NoneOrTwo Q := by
  rcases hP with h0 | ⟨a, b, hab, h⟩
  · left
    intro y hy
    obtain ⟨x, hx, -⟩ := (hQ y).mp hy
    exact h0 x hx
  · right
    have ha := (h a).mpr (Or.inl rfl)
    have hb := (h b).mpr (Or.inr rfl)
    refine ⟨g a, g b, fun e => hab (hg a b ha hb e), fun y => ?_⟩
    rw [hQ]
    constructor
    · rintro ⟨x, hx, rfl⟩
      rcases (h x).mp hx with rfl | rfl
      · exact Or.inl rfl
      · exact Or.inr rfl
    · rintro (rfl | rfl)
      · exact ⟨a, ha, rfl⟩
      · exact ⟨b, hb, rfl⟩

/-- The ends of an edge of the diagram in the mesh. -/
theorem edgeVert_old (hm : ClosedVoro t pts ending m tip link lid) {e : Nat} (he : e < ne t) (v : Int) :
    EdgeVert m ((e : Int) + 1) v ↔ (∃ x : Nat, VEnd t e x ∧ v = x + 1) ∨ IsRay t e ∧ v = tip e := by
  rw [hm.edgeVert]
  constructor
  · rintro (⟨e', -, q, r⟩ | ⟨f, hf, q, -⟩)
    · have : e = e' := by omega
      subst this; exact r
    · have := link_gt hm hf
      have : (ne t : Int) = t.vedges.length := rfl
      omega
  · exact fun q => Or.inl ⟨e, he, rfl, q⟩

theorem edgeVert_link (hm : ClosedVoro t pts ending m tip link lid) {f : Nat} (hf : VOpen t f) (v : Int) :
    EdgeVert m (link f) v ↔ ∃ e ∈ vEdges t f, IsRay t e ∧ v = tip e := by
  rw [hm.edgeVert]
  constructor
  · rintro (⟨e, he, q, r⟩ | ⟨g, hg, q, r⟩)
    · have := link_gt hm hf
      have : (ne t : Int) = t.vedges.length := rfl
      omega
    · have := hm.numLink.inj f g hf hg q
      subst this; exact r
  · exact fun q => Or.inr ⟨f, hf, rfl, q⟩

theorem surfEdge_old (hm : ClosedVoro t pts ending m tip link lid) {f : Nat} (hf : f < nf t) (i : Int) :
    SurfEdge m ((f : Int) + 1) i ↔ (∃ e ∈ vEdges t f, i = (e : Int) + 1) ∨ VOpen t f ∧ i = link f := by
  rw [hm.surfEdge]
  constructor
  · rintro (⟨f', -, q, r⟩ | ⟨c, g, hg, hs, q, -⟩)
    · have : f = f' := by omega
      subst this; exact r
    · have := lid_gt hm hg hs
      have : (nf t : Int) = t.vfacets.length := rfl
      omega
  · exact fun q => Or.inl ⟨f, hf, rfl, q⟩

theorem surfEdge_lid (hm : ClosedVoro t pts ending m tip link lid) {c f : Nat} (hf : VOpen t f) (hs : VSide t f c) (i : Int) :
    SurfEdge m (lid c) i ↔ ∃ g, VOpen t g ∧ VSide t g c ∧ i = link g := by
  rw [hm.surfEdge]
  constructor
  · rintro (⟨g, hg, q, r⟩ | ⟨c', g, hg, hs', q, r⟩)
    · have := lid_gt hm hf hs
      have : (nf t : Int) = t.vfacets.length := rfl
      omega
    · have := hm.numLid.inj c c' ⟨f, hf, hs⟩ ⟨g, hg, hs'⟩ q
      subst this; exact ⟨g, hg, hs', r⟩
  · rintro ⟨g, hg, hs', r⟩; exact Or.inr ⟨c, g, hg, hs', rfl, r⟩

/-- C105: in each face of the mesh each vertex is on no edge or on two: the faces are closed chains of edges. -/
theorem C105_faces (h : VoroValid t pts) (hc : VoroChains t) (hm : ClosedVoro t pts ending m tip link lid) (s v : Int) :
    NoneOrTwo fun e => SurfEdge m s e ∧ EdgeVert m e v := by
  by_cases hex : ∃ i, SurfEdge m s i ∧ EdgeVert m i v
  swap
  · exact Or.inl fun i hi => hex ⟨i, hi⟩
  obtain ⟨i0, hs0, hv0⟩ := hex
  have hv : (∃ x : Nat, x < nv t ∧ v = x + 1) ∨ ∃ r, r < ne t ∧ IsRay t r ∧ v = tip r := by
    rcases (hm.edgeVert i0 v).mp hv0 with ⟨e, he, -, ⟨x, hx, rfl⟩ | ⟨hr, rfl⟩⟩ | ⟨f, hf, -, e, he, hr, rfl⟩
    · exact Or.inl ⟨x, bound_end h he hx, rfl⟩
    · exact Or.inr ⟨e, he, hr, rfl⟩
    · exact Or.inr ⟨e, edges_bound h hf.1 he, hr, rfl⟩
  have hs : (∃ f < nf t, s = (f : Int) + 1) ∨ ∃ c f, VOpen t f ∧ VSide t f c ∧ s = lid c := by
    rcases (hm.surfEdge s i0).mp hs0 with ⟨f, hf, q, -⟩ | ⟨c, f, hf, hs, q, -⟩
    · exact Or.inl ⟨f, hf, q⟩
    · exact Or.inr ⟨c, f, hf, hs, q⟩
  rcases hs with ⟨f, hf, rfl⟩ | ⟨c, f, hf, hs, rfl⟩ <;> rcases hv with ⟨x, hx, rfl⟩ | ⟨r, hr1, hr, rfl⟩
  · refine NoneOrTwo.image (fun e : Nat => (e : Int) + 1) (hc.facets f hf x) (fun a b _ _ e => by simpa using e) fun i => ?_
    rw [surfEdge_old hm hf]
    constructor
    · rintro ⟨⟨e, he, rfl⟩ | ⟨ho, rfl⟩, q⟩
      · rcases (edgeVert_old hm (edges_bound h hf he) _).mp q with ⟨y, hy, q⟩ | ⟨hr, q⟩
        · have : x = y := by omega
          subst this; exact ⟨e, ⟨he, hy⟩, rfl⟩
        · have := tip_gt hm (edges_bound h hf he) hr; omega
      · obtain ⟨e, he, hr, q⟩ := (edgeVert_link hm ho _).mp q
        have := tip_gt hm (edges_bound h hf he) hr; omega
    · rintro ⟨e, ⟨he, hx⟩, rfl⟩
      exact ⟨Or.inl ⟨e, he, rfl⟩, (edgeVert_old hm (edges_bound h hf he) _).mpr (Or.inl ⟨x, hx, rfl⟩)⟩
  · have hmem : r ∈ vEdges t f := by
      rcases (surfEdge_old hm hf i0).mp hs0 with ⟨e, he, rfl⟩ | ⟨ho, rfl⟩
      · rcases (edgeVert_old hm (edges_bound h hf he) _).mp hv0 with ⟨y, hy, q⟩ | ⟨hr', q⟩
        · have := tip_gt hm hr1 hr
          have := bound_end h (edges_bound h hf he) hy
          omega
        · have := hm.numTip.inj r e ⟨hr1, hr⟩ ⟨edges_bound h hf he, hr'⟩ q
          subst this; exact he
      · obtain ⟨e, he, hr', q⟩ := (edgeVert_link hm ho _).mp hv0
        have := hm.numTip.inj r e ⟨hr1, hr⟩ ⟨edges_bound h hf he, hr'⟩ q
        subst this; exact he
    have ho : VOpen t f := ⟨hf, r, hmem, hr⟩
    refine Or.inr ⟨(r : Int) + 1, link f, ?_, fun i => ?_⟩
    · have := link_gt hm ho; omega
    · beta_reduce
      rw [surfEdge_old hm hf]
      constructor
      · rintro ⟨⟨e, he, rfl⟩ | ⟨-, rfl⟩, q⟩
        · rcases (edgeVert_old hm (edges_bound h hf he) _).mp q with ⟨y, hy, q⟩ | ⟨hr', q⟩
          · have := tip_gt hm hr1 hr
            have := bound_end h (edges_bound h hf he) hy
            omega
          · have := hm.numTip.inj r e ⟨hr1, hr⟩ ⟨edges_bound h hf he, hr'⟩ q
            subst this; exact Or.inl rfl
        · exact Or.inr rfl
      · rintro (rfl | rfl)
        · exact ⟨Or.inl ⟨r, hmem, rfl⟩, (edgeVert_old hm hr1 _).mpr (Or.inr ⟨hr, rfl⟩)⟩
        · exact ⟨Or.inr ⟨ho, rfl⟩, (edgeVert_link hm ho _).mpr ⟨r, hmem, hr, rfl⟩⟩
  · left
    rintro i ⟨q1, q2⟩
    obtain ⟨g, hg, -, rfl⟩ := (surfEdge_lid hm hf hs i).mp q1
    obtain ⟨e, he, hr, q⟩ := (edgeVert_link hm hg _).mp q2
    have := tip_gt hm (edges_bound h hg.1 he) hr
    omega
  · refine NoneOrTwo.image link (hc.cells c r) (fun a b ha hb e => hm.numLink.inj a b ⟨ha.1, r, ha.2.2, hr⟩ ⟨hb.1, r, hb.2.2, hr⟩ e) fun i => ?_
    rw [surfEdge_lid hm hf hs]
    constructor
    · rintro ⟨⟨g, hg, hgs, rfl⟩, q⟩
      obtain ⟨e, he, hr', q⟩ := (edgeVert_link hm hg _).mp q
      have := hm.numTip.inj r e ⟨hr1, hr⟩ ⟨edges_bound h hg.1 he, hr'⟩ q
      subst this
      exact ⟨g, ⟨hg.1, hgs, he⟩, rfl⟩
    · rintro ⟨g, ⟨hg, hgs, he⟩, rfl⟩
      have ho : VOpen t g := ⟨hg, r, he, hr⟩
      exact ⟨⟨g, ho, hgs, rfl⟩, (edgeVert_link hm ho _).mpr ⟨r, he, hr, rfl⟩⟩

theorem voluSurf_old (hm : ClosedVoro t pts ending m tip link lid) {f c : Nat} (hf : f < nf t) : VoluSurf m ((c : Int) + 1) ((f : Int) + 1) ↔ VSide t f c := by
  rw [hm.voluSurf]
  constructor
  · rintro (⟨g, -, q, d, hd, q'⟩ | ⟨d, ⟨g, hg, hs⟩, q, -⟩)
    · have : f = g := by omega
      have : c = d := by omega
      subst f; subst c; exact hd
    · have := lid_gt hm hg hs
      have : (nf t : Int) = t.vfacets.length := rfl
      omega
  · exact fun q => Or.inl ⟨f, hf, rfl, c, q, rfl⟩

/-- C105: in each cell of the mesh each edge is on no face or on two: the cells are closed. -/
theorem C105_cells (h : VoroValid t pts) (hc : VoroChains t) (hm : ClosedVoro t pts ending m tip link lid) (i j : Int) :
    NoneOrTwo fun s => VoluSurf m i s ∧ SurfEdge m s j := by
  by_cases hex : ∃ s, VoluSurf m i s ∧ SurfEdge m s j
  swap
  · exact Or.inl fun s hs => hex ⟨s, hs⟩
  obtain ⟨s0, hv0, hs0⟩ := hex
  have hi : ∃ c : Nat, i = (c : Int) + 1 := by
    rcases (hm.voluSurf i s0).mp hv0 with ⟨f, -, -, c, -, q⟩ | ⟨c, -, -, q⟩ <;> exact ⟨c, q⟩
  obtain ⟨c, rfl⟩ := hi
  have hvs : ∀ s, VoluSurf m ((c : Int) + 1) s ↔ (∃ f < nf t, s = (f : Int) + 1 ∧ VSide t f c) ∨ ∃ f, VOpen t f ∧ VSide t f c ∧ s = lid c := by
    intro s
    rw [hm.voluSurf]
    constructor
    · rintro (⟨f, hf, q, d, hd, q'⟩ | ⟨d, ⟨f, hf, hs⟩, q, q'⟩)
      · have : c = d := by omega
        subst this; exact Or.inl ⟨f, hf, q, hd⟩
      · have : c = d := by omega
        subst this; exact Or.inr ⟨f, hf, hs, q⟩
    · rintro (⟨f, hf, q, hd⟩ | ⟨f, hf, hs, q⟩)
      · exact Or.inl ⟨f, hf, q, c, hd, rfl⟩
      · exact Or.inr ⟨c, ⟨f, hf, hs⟩, q, rfl⟩
  have hj : (∃ e < ne t, j = (e : Int) + 1) ∨ ∃ f, VOpen t f ∧ j = link f := by
    rcases (hm.surfEdge s0 j).mp hs0 with ⟨f, hf, -, ⟨e, he, q⟩ | ⟨ho, q⟩⟩ | ⟨d, f, ho, -, -, q⟩
    · exact Or.inl ⟨e, edges_bound h hf he, q⟩
    · exact Or.inr ⟨f, ho, q⟩
    · exact Or.inr ⟨f, ho, q⟩
  rcases hj with ⟨e, he, rfl⟩ | ⟨f, ho, rfl⟩
  · refine NoneOrTwo.image (fun f : Nat => (f : Int) + 1) (hc.cells c e) (fun a b _ _ q => by simpa using q) fun s => ?_
    rw [hvs]
    constructor
    · rintro ⟨⟨f, hf, rfl, hs⟩ | ⟨f, hf, hs, rfl⟩, q⟩
      · rcases (surfEdge_old hm hf _).mp q with ⟨e', he', q⟩ | ⟨ho, q⟩
        · have : e = e' := by omega
          subst this; exact ⟨f, ⟨hf, hs, he'⟩, rfl⟩
        · have := link_gt hm ho; omega
      · obtain ⟨g, hg, -, q⟩ := (surfEdge_lid hm hf hs _).mp q
        have := link_gt hm hg; omega
    · rintro ⟨f, ⟨hf, hs, he'⟩, rfl⟩
      exact ⟨Or.inl ⟨f, hf, rfl, hs⟩, (surfEdge_old hm hf _).mpr (Or.inl ⟨e, he', rfl⟩)⟩
  · have hgt := link_gt hm ho
    have key : ∀ s, VoluSurf m ((c : Int) + 1) s ∧ SurfEdge m s (link f) ↔ VSide t f c ∧ (s = (f : Int) + 1 ∨ s = lid c) := by
      intro s
      rw [hvs]
      constructor
      · rintro ⟨⟨g, hg, rfl, hs⟩ | ⟨g, hg, hs, rfl⟩, q⟩
        · rcases (surfEdge_old hm hg _).mp q with ⟨e', he', q⟩ | ⟨ho', q⟩
          · have := edges_bound h hg he'; omega
          · have := hm.numLink.inj f g ho ho' q
            subst this; exact ⟨hs, Or.inl rfl⟩
        · obtain ⟨g', hg', hs', q⟩ := (surfEdge_lid hm hg hs _).mp q
          have := hm.numLink.inj f g' ho hg' q
          subst this; exact ⟨hs', Or.inr rfl⟩
      · rintro ⟨hs, rfl | rfl⟩
        · exact ⟨Or.inl ⟨f, ho.1, rfl, hs⟩, (surfEdge_old hm ho.1 _).mpr (Or.inr ⟨ho, rfl⟩)⟩
        · exact ⟨Or.inr ⟨f, ho, hs, rfl⟩, (surfEdge_lid hm ho hs _).mpr ⟨f, ho, hs, rfl⟩⟩
    have hs := ((key s0).mp ⟨hv0, hs0⟩).1
    refine Or.inr ⟨(f : Int) + 1, lid c, ?_, fun s => ?_⟩
    · have := lid_gt hm ho hs
      have := ho.1
      have : (nf t : Int) = t.vfacets.length := rfl
      omega
    · beta_reduce
      rw [key]; exact ⟨fun q => q.2, fun q => ⟨hs, q⟩⟩

end

/-- The first bad member of a list. -/
theorem first_bad {P : Nat → Prop} : ∀ {L : List Nat}, (∃ x ∈ L, ¬ P x) → ∃ p b q, L = p ++ b :: q ∧ (∀ x ∈ p, P x) ∧ ¬ P b
  | [], h => by obtain ⟨x, hx, -⟩ := h; simp at hx
  | a :: L, h => by
    by_cases ha : P a
    · obtain ⟨p, b, q, e, h1, h2⟩ := first_bad (L := L) (by
        obtain ⟨x, hx, hn⟩ := h
        rcases List.mem_cons.mp hx with rfl | hx
        · exact absurd ha hn
        · exact ⟨x, hx, hn⟩)
      refine ⟨a :: p, b, q, by rw [e]; rfl, ?_, h2⟩
      intro x hx
      rcases List.mem_cons.mp hx with rfl | hx
      · exact ha
      · exact h1 x hx
    · exact ⟨[], a, L, rfl, by simp, ha⟩

/-- C105: a diagram with an open facet that has not two rays or an open cell with fewer than three open facets is refused. -/
theorem C105_throws (h : VoroValid t pts) (ho : ¬ VoroOpen t) (ending : List ℚ → List ℚ → List ℚ) : voroMesh t ending = .error .throws := by
  by_cases h2 : ∀ f ∈ openL t, (raysOf t f).length = 2
  · have h3 : ∃ c ∈ cellL t, ¬ 3 ≤ (openOf t c).length := by
      by_contra hall
      push Not at hall
      apply ho
      refine ⟨fun f hf => ?_, fun c f hf hs => ?_⟩
      · have hl := h2 f (mem_openL.mpr hf)
        have hn := raysOf_nodup h hf.1
        right
        match hr : raysOf t f, hl with
        | [a, b], _ =>
          rw [hr] at hn
          refine ⟨a, b, by simpa using hn, fun x => ?_⟩
          beta_reduce
          rw [← mem_raysOf h hf.1, hr]
          simp
      · have hl := hall c ((open_cell h).mpr ⟨f, hf, hs⟩)
        have hn := openOf_nodup h c
        have hm := (mem_openOf (t := t) (c := c)).mpr ⟨hf, hs⟩
        have hel : 2 ≤ ((openOf t c).erase f).length := by rw [List.length_erase_of_mem hm]; omega
        have hne := hn.erase f
        match he : (openOf t c).erase f, hel with
        | g :: k :: r, _ =>
          rw [he] at hne
          have hg : g ∈ (openOf t c).erase f := by rw [he]; simp
          have hk : k ∈ (openOf t c).erase f := by rw [he]; simp
          obtain ⟨g1, g2⟩ := (hn.mem_erase_iff).mp hg
          obtain ⟨k1, k2⟩ := (hn.mem_erase_iff).mp hk
          have hgk : g ≠ k := by
            rintro rfl
            simp at hne
          exact ⟨g, k, g1, k1, hgk, (mem_openOf.mp g2).1, (mem_openOf.mp g2).2, (mem_openOf.mp k2).1, (mem_openOf.mp k2).2⟩
    obtain ⟨p, b, q, e, hp, hb⟩ := first_bad (P := fun c => 3 ≤ (openOf t c).length) h3
    rw [voro_end h ending h2, e]
    rw [show up (p ++ b :: q) = up p ++ ((b : Int) + 1) :: up q by simp [up], List.foldlM_append, cells_prefix h ending e hp]
    simp only [bind, Except.bind, List.foldlM_cons]
    rw [cell_bad ending e (by omega)]
  · push Not at h2
    obtain ⟨p, b, q, e, hp, hb⟩ := first_bad (P := fun f => (raysOf t f).length = 2) h2
    rw [voro_start h]
    have : (up (openL t)).foldlM (m := Except Fault) (faceClose (up (rayL t))) (mesh1 t pts ending (rayL t)) = .error .throws := by
      have he : up (openL t) = up p ++ ((b : Int) + 1) :: up q := by rw [e]; simp [up]
      rw [he, List.foldlM_append, faces_prefix h ending e hp]
      simp only [bind, Except.bind, List.foldlM_cons]
      rw [face_bad ending e hb]
    rw [this]
    rfl

/-- C105: without the points of the diagram the translation is refused. -/
theorem C105_null (h : t.vpointlist = none) (ending : List ℚ → List ℚ → List ℚ) : voroMesh t ending = .error .throws := by
  unfold voroMesh
  rw [h]

/-! An example: the Voronoi diagram of four points has one vertex, four rays, six open facets and four open cells. -/

def fourPoints : VoroOut :=
  { firstnumber := 1
    numberofvpoints := 1
    vpointlist := some [1, 2, 3]
    vedges := [⟨1, -1, [1, 0, 0]⟩, ⟨1, -1, [0, 1, 0]⟩, ⟨1, -1, [0, 0, 1]⟩, ⟨1, -1, [-1, -1, -1]⟩]
    vfacets := [⟨1, 2, [3, 4, -1]⟩, ⟨1, 3, [2, 4, -1]⟩, ⟨1, 4, [2, 3, -1]⟩, ⟨2, 3, [1, 4, -1]⟩, ⟨2, 4, [1, -1, 3]⟩, ⟨3, 4, [-1, 1, 2]⟩]
    numberofvcells := 4 }

instance {t : VoroOut} {e : Nat} : Decidable (IsRay t e) := inferInstanceAs (Decidable (_ = _))
instance {t : VoroOut} {e v : Nat} : Decidable (VEnd t e v) := inferInstanceAs (Decidable (_ ∨ _))
instance {t : VoroOut} {f c : Nat} : Decidable (VSide t f c) := inferInstanceAs (Decidable (_ ∨ _))
instance {t : VoroOut} {f : Nat} : Decidable (VOpen t f) := inferInstanceAs (Decidable (_ ∧ _))
instance {t : VoroOut} {n : Nat} {x : Int} : Decidable (VIn t n x) := inferInstanceAs (Decidable (_ ∧ _))

theorem noneOrTwo_of_filter {P : Nat → Prop} [DecidablePred P] (n : Nat) (hb : ∀ x, P x → x < n)
    (h : ((List.range n).filter fun x => P x).length = 0 ∨ ((List.range n).filter fun x => P x).length = 2) : NoneOrTwo P := by
  have hmem : ∀ x, P x ↔ x ∈ (List.range n).filter fun x => P x := fun x => by simpa using hb x
  have hn : ((List.range n).filter fun x => decide (P x)).Nodup := List.nodup_range.filter _
  rcases h with h | h
  · left
    intro x hx
    rw [hmem, List.length_eq_zero_iff.mp h] at hx
    simp at hx
  · right
    obtain ⟨a, b, e⟩ := List.length_eq_two.mp h
    rw [e] at hn
    exact ⟨a, b, by simpa using hn, fun x => by rw [hmem, e]; simp⟩

example : VoroValid fourPoints [1, 2, 3] := by
  constructor <;> decide +kernel

theorem fourPoints_edges : ∀ f, ∀ e ∈ vEdges fourPoints f, e < 4 := by
  intro f
  by_cases hf : f < 6
  · revert f; decide +kernel
  · have : vEdges fourPoints f = [] := by
      unfold vEdges vfacet
      rw [List.getD_eq_getElem?_getD, List.getElem?_eq_none (by show 6 ≤ f; omega)]
      rfl
    rw [this]; simp

theorem fourPoints_sides : ∀ f, f < 6 → ∀ c, VSide fourPoints f c → c < 4 := by
  have h : ∀ f < 6, vSide1 fourPoints f < 4 ∧ vSide2 fourPoints f < 4 := by decide +kernel
  rintro f hf c (rfl | rfl)
  · exact (h f hf).1
  · exact (h f hf).2

example : VoroOpen fourPoints := by
  refine ⟨fun f hf => ?_, fun c f hf hs => ?_⟩
  · refine noneOrTwo_of_filter 4 (fun x hx => fourPoints_edges f x hx.1) ?_
    have h := hf.1
    have hc : ∀ f < 6, ((List.range 4).filter fun e => e ∈ vEdges fourPoints f ∧ IsRay fourPoints e).length = 0 ∨
        ((List.range 4).filter fun e => e ∈ vEdges fourPoints f ∧ IsRay fourPoints e).length = 2 := by decide +kernel
    exact hc f h
  · have hc : ∀ f ∈ List.range 6, ∀ c ∈ List.range 4, ¬ VSide fourPoints f c ∨ ∃ g ∈ List.range 6, ∃ h ∈ List.range 6, g ≠ f ∧ h ≠ f ∧ g ≠ h ∧ VOpen fourPoints g ∧
        VSide fourPoints g c ∧ VOpen fourPoints h ∧ VSide fourPoints h c := by decide +kernel
    obtain ⟨g, -, h, -, q⟩ := (hc f (List.mem_range.mpr hf.1) c (List.mem_range.mpr (fourPoints_sides f hf.1 c hs))).resolve_left (not_not.mpr hs)
    exact ⟨g, h, q⟩

example : VoroChains fourPoints := by
  refine ⟨by decide +kernel, fun f hf v => ?_, fun c e => ?_⟩
  · refine noneOrTwo_of_filter 4 (fun x hx => fourPoints_edges f x hx.1) ?_
    have hz : ∀ e < 4, ∀ v, VEnd fourPoints e v → v = 0 := by
      have h : ∀ e < 4, vFrom fourPoints e = 0 ∧ IsRay fourPoints e := by decide +kernel
      rintro e he v (rfl | q)
      · exact (h e he).1
      · exact absurd (h e he).2 q.1
    by_cases hv : v = 0
    · subst hv
      revert f; decide +kernel
    · left
      rw [List.length_eq_zero_iff, List.filter_eq_nil_iff]
      intro e he
      simp only [decide_eq_true_eq]
      exact fun q => hv (hz e (List.mem_range.mp he) v q.2)
  · refine noneOrTwo_of_filter 6 (fun x hx => hx.1) ?_
    by_cases hb : c < 4 ∧ e < 4
    · have hc : ∀ c < 4, ∀ e < 4, ((List.range 6).filter fun f => f < fourPoints.vfacets.length ∧ VSide fourPoints f c ∧ e ∈ vEdges fourPoints f).length = 0 ∨
          ((List.range 6).filter fun f => f < fourPoints.vfacets.length ∧ VSide fourPoints f c ∧ e ∈ vEdges fourPoints f).length = 2 := by decide +kernel
      exact hc c hb.1 e hb.2
    · left
      rw [List.length_eq_zero_iff, List.filter_eq_nil_iff]
      intro f hf
      simp only [decide_eq_true_eq]
      exact fun q => hb ⟨fourPoints_sides f q.1 c q.2.1, fourPoints_edges f e q.2.2⟩

example : (voroMesh fourPoints fun _ x => x).map (fun m => (m.verts.length, m.edges.length, m.surfs.length, m.volus.length)) = .ok (5, 10, 10, 4) := by
  decide +kernel

/-- Without the last facet the diagram is not complete at infinity. -/
def fiveFacets : VoroOut := { fourPoints with vfacets := fourPoints.vfacets.take 5 }

example : VoroValid fiveFacets [1, 2, 3] := by
  constructor <;> decide +kernel

example : ¬ VoroOpen fiveFacets := by
  intro h
  have hf : VOpen fiveFacets 1 := by decide +kernel
  have hs : VSide fiveFacets 1 2 := by decide +kernel
  obtain ⟨g, k, h1, h2, h3, h4, h5, h6, h7⟩ := h.cells 2 1 hf hs
  have hc : ∀ g ∈ List.range 5, ∀ k ∈ List.range 5, ¬ (g ≠ 1 ∧ k ≠ 1 ∧ g ≠ k ∧ VSide fiveFacets g 2 ∧ VSide fiveFacets k 2) := by decide +kernel
  exact hc g (List.mem_range.mpr h4.1) k (List.mem_range.mpr h6.1) ⟨h1, h2, h3, h5, h7⟩

end RSVS.Props
