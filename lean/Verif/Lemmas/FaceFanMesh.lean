import Verif.Lemmas.FaceFan

/-!
# The mesh after one surface is replaced
-/

namespace RSVS.FaceFan

open RSVS RSVS.Mesh RSVS.Spec RSVS.Triang

/-- The mesh with the triangles in place of the surface. -/
def fanMesh (f : Fan) (w : Nat → Int) (b : Vert) (m : Mesh) : Mesh :=
  { m with
    verts := applyOps Vert.index ((List.range f.n).map (vOp f w)) m.verts ++ [b]
    edges := applyOps Edge.index ((List.range' 1 (f.n - 1)).map (eOp f)) m.edges ++ (List.range f.n).map (spoke f w)
    surfs := applyOps Surf.index
        [(f.face.index, fun x => { x with edgeind := [f.e0 + 1, f.e0 + (f.n : Int), edgeNo f 0] })] m.surfs ++
      (List.range' 1 (f.n - 1)).map (tri f)
    volus := applyOps Volu.index ((List.range' 1 (f.n - 1)).flatMap (cOps f)) m.volus }

/-- The new numbers are greater than those of the mesh. -/
structure Fresh (f : Fan) (b : Vert) (m : Mesh) : Prop where
  vert : ∀ i, HasVert m i → i < f.centre
  edge : ∀ i, HasEdge m i → i ≤ f.e0
  surf : ∀ i, HasSurf m i → i ≤ f.s0
  index : b.index = f.centre
  edgeind : b.edgeind = (List.range f.n).map fun (kk : Nat) => f.e0 + 1 + (kk : Int)
  posV : 0 < f.centre
  posE : 0 ≤ f.e0
  posS : 0 ≤ f.s0

/-! ### One element -/

theorem vOps_mem (f : Fan) (w : Nat → Int) : ∀ (ks : List Nat) (x : Vert) (e : Int),
    e ∈ ((ks.map (vOp f w)).foldl (fun x o => if x.index = o.1 then o.2 x else x) x).edgeind ↔
      e ∈ x.edgeind ∨ ∃ k ∈ ks, x.index = w (k + 1) ∧ e = f.e0 + 1 + (k : Int)
  | [], x, e => by simp
  | k :: ks, x, e => by
    rw [List.map_cons, List.foldl_cons, vOps_mem f w ks]
    unfold vOp
    by_cases h : x.index = w (k + 1)
    · simp [h, or_assoc]
    · simp [h]

theorem vOps_keep (f : Fan) (w : Nat → Int) : ∀ (ks : List Nat) (x : Vert),
    ((ks.map (vOp f w)).foldl (fun x o => if x.index = o.1 then o.2 x else x) x).index = x.index ∧
    ((ks.map (vOp f w)).foldl (fun x o => if x.index = o.1 then o.2 x else x) x).coord = x.coord
  | [], x => ⟨rfl, rfl⟩
  | k :: ks, x => by
    rw [List.map_cons, List.foldl_cons]
    have h := vOps_keep f w ks (if x.index = (vOp f w k).1 then (vOp f w k).2 x else x)
    rw [h.1, h.2]
    split <;> exact ⟨rfl, rfl⟩

theorem eOps_keep (f : Fan) : ∀ (ks : List Nat) (x : Edge),
    ((ks.map (eOp f)).foldl (fun x o => if x.index = o.1 then o.2 x else x) x).index = x.index ∧
    ((ks.map (eOp f)).foldl (fun x o => if x.index = o.1 then o.2 x else x) x).vertind = x.vertind
  | [], x => ⟨rfl, rfl⟩
  | k :: ks, x => by
    rw [List.map_cons, List.foldl_cons]
    have h := eOps_keep f ks (if x.index = (eOp f k).1 then (eOp f k).2 x else x)
    rw [h.1, h.2]
    split <;> exact ⟨rfl, rfl⟩

theorem eOps_mem (f : Fan) : ∀ (ks : List Nat), ks.Nodup →
    (∀ i ∈ ks, ∀ j ∈ ks, edgeNo f i = edgeNo f j → i = j) → ∀ (x : Edge) (s : Int),
    s ∈ ((ks.map (eOp f)).foldl (fun x o => if x.index = o.1 then o.2 x else x) x).surfind ↔
      (s ∈ x.surfind ∧ ¬ (s = f.face.index ∧ ∃ k ∈ ks, x.index = edgeNo f k)) ∨
        ∃ k ∈ ks, x.index = edgeNo f k ∧ s = f.s0 + (k : Int) ∧ f.face.index ∈ x.surfind
  | [], _, _, x, s => by simp
  | k :: ks, hn, hi, x, s => by
    have hn' := List.nodup_cons.1 hn
    rw [List.map_cons, List.foldl_cons, eOps_mem f ks hn'.2
      (fun i h j h' => hi i (List.mem_cons_of_mem _ h) j (List.mem_cons_of_mem _ h'))]
    unfold eOp
    by_cases h : x.index = edgeNo f k
    · have hno : ∀ j ∈ ks, edgeNo f k ≠ edgeNo f j := fun j hj he =>
        hn'.1 (hi k (by simp) j (List.mem_cons_of_mem _ hj) he ▸ hj)
      have e1 : ∀ P : Nat → Prop, (∃ j ∈ ks, edgeNo f k = edgeNo f j ∧ P j) ↔ False := fun P =>
        ⟨fun ⟨j, hj, he, _⟩ => hno j hj he, False.elim⟩
      have e2 : (∃ j ∈ ks, edgeNo f k = edgeNo f j) ↔ False := ⟨fun ⟨j, hj, he⟩ => hno j hj he, False.elim⟩
      simp only [h, if_true, e1, e2, mem_replaceAll, List.mem_cons, exists_eq_or_imp, or_false, and_false, not_false_iff,
        and_true, true_and]
    · simp only [h, if_false, List.mem_cons, exists_eq_or_imp, false_and, false_or]

/-- Changes which append one number to the surfaces of a volume. -/
theorem cOps_fold (ps : List (Int × Int)) : ∀ (x : Volu) (s : Int),
    s ∈ ((ps.map fun p => (p.1, fun x : Volu => { x with surfind := x.surfind ++ [p.2] })).foldl
      (fun x o => if x.index = o.1 then o.2 x else x) x).surfind ↔ s ∈ x.surfind ∨ (x.index, s) ∈ ps := by
  induction ps with
  | nil => intro x s; simp
  | cons p ps ih =>
    intro x s
    rw [List.map_cons, List.foldl_cons, ih]
    obtain ⟨c, t⟩ := p
    by_cases h : x.index = c
    · simp [h, or_assoc]
    · simp [h]

theorem cOps_eq (f : Fan) (ks : List Nat) : ks.flatMap (cOps f) =
    ((ks.flatMap fun (k : Nat) => (f.face.voluind.filter fun c => decide (c ≠ 0)).map fun c => (c, f.s0 + (k : Int))).map fun p =>
      (p.1, fun x : Volu => { x with surfind := x.surfind ++ [p.2] })) := by
  rw [List.map_flatMap]
  refine List.flatMap_congr fun k _ => ?_
  unfold cOps
  rw [List.map_map]
  rfl

theorem cOps_mem (f : Fan) (ks : List Nat) (x : Volu) (s : Int) :
    s ∈ ((ks.flatMap (cOps f)).foldl (fun x o => if x.index = o.1 then o.2 x else x) x).surfind ↔
      s ∈ x.surfind ∨ ∃ k ∈ ks, x.index ∈ f.face.voluind ∧ x.index ≠ 0 ∧ s = f.s0 + (k : Int) := by
  rw [cOps_eq, cOps_fold]
  simp only [List.mem_flatMap, List.mem_map, List.mem_filter, Prod.mk.injEq, decide_eq_true_eq]
  refine or_congr Iff.rfl (exists_congr fun k => and_congr Iff.rfl ?_)
  constructor
  · rintro ⟨c, ⟨h1, h2⟩, rfl, rfl⟩
    exact ⟨h1, h2, rfl⟩
  · rintro ⟨h1, h2, rfl⟩
    exact ⟨_, ⟨h1, h2⟩, rfl, rfl⟩

theorem cOps_index (f : Fan) (ks : List Nat) (x : Volu) :
    ((ks.flatMap (cOps f)).foldl (fun x o => if x.index = o.1 then o.2 x else x) x).index = x.index := by
  refine ops_index (ix := Volu.index) _ ?_ x
  intro o ho x
  obtain ⟨k, _, ho⟩ := List.mem_flatMap.1 ho
  obtain ⟨c, _, rfl⟩ := List.mem_map.1 ho
  rfl

variable {f : Fan} {w : Nat → Int} {b : Vert}

theorem Ready.edgeInj (h : Ready f w) {i j : Nat} (hi : i < f.n) (hj : j < f.n) (he : edgeNo f i = edgeNo f j) : i = j := by
  have h3 := h.three
  obtain ⟨x, hx, h1, h2, _⟩ := h.edge hi
  obtain ⟨y, hy, h4, h5, _⟩ := h.edge hj
  have : x = y := inj_of_nodup h.sound.unique.edges hx hy (h1.trans (he.trans h4.symm))
  subst this
  have key : (w i = w j ∧ w (i + 1) = w (j + 1)) ∨ (w i = w (j + 1) ∧ w (i + 1) = w j) := by
    rcases h2 with h2 | h2 <;> rcases h5 with h5 | h5 <;> rw [h2] at h5 <;>
      simp only [List.cons.injEq, and_true] at h5
    · exact .inl h5
    · exact .inr h5
    · exact .inr ⟨h5.2, h5.1⟩
    · exact .inl ⟨h5.2, h5.1⟩
  rcases key with ⟨k1, _⟩ | ⟨k1, k2⟩
  · exact h.wInj hi hj k1
  · -- i = j + 1 and i + 1 = j around the ring
    have succ : ∀ {a c : Nat}, a < f.n → c < f.n → w a = w (c + 1) → a = c + 1 ∨ (a = 0 ∧ c + 1 = f.n) := by
      intro a c ha hc hac
      rcases Nat.lt_or_ge (c + 1) f.n with h' | h'
      · exact .inl (h.wInj ha h' hac)
      · have e : c + 1 = f.n := by omega
        rw [e, h.wEnd] at hac
        exact .inr ⟨h.wInj ha (by omega) hac, e⟩
    have a1 := succ hi hj k1
    have a2 := succ hj hi k2.symm
    omega

/-! ### The relations -/

theorem has_vert (hf : Fresh f b m) (i : Int) : HasVert (fanMesh f w b m) i ↔ HasVert m i ∨ i = f.centre := by
  unfold HasVert fanMesh applyOps
  simp only [List.mem_append, List.mem_map, List.mem_singleton]
  constructor
  · rintro ⟨x, ⟨y, hy, rfl⟩ | rfl, rfl⟩
    · exact .inl ⟨y, hy, (vOps_keep f w _ y).1.symm⟩
    · exact .inr hf.index
  · rintro (⟨y, hy, rfl⟩ | rfl)
    · exact ⟨_, .inl ⟨y, hy, rfl⟩, (vOps_keep f w _ y).1⟩
    · exact ⟨b, .inr rfl, hf.index⟩

theorem has_edge (i : Int) : HasEdge (fanMesh f w b m) i ↔ HasEdge m i ∨ ∃ k : Nat, k < f.n ∧ i = f.e0 + 1 + (k : Int) := by
  unfold HasEdge fanMesh applyOps
  simp only [List.mem_append, List.mem_map, List.mem_range]
  constructor
  · rintro ⟨x, ⟨y, hy, rfl⟩ | ⟨k, hk, rfl⟩, rfl⟩
    · exact .inl ⟨y, hy, (eOps_keep f _ y).1.symm⟩
    · exact .inr ⟨k, hk, rfl⟩
  · rintro (⟨y, hy, rfl⟩ | ⟨k, hk, rfl⟩)
    · exact ⟨_, .inl ⟨y, hy, rfl⟩, (eOps_keep f _ y).1⟩
    · exact ⟨_, .inr ⟨k, hk, rfl⟩, rfl⟩

theorem mem_ks {k n : Nat} (h : 1 ≤ n) : k ∈ List.range' 1 (n - 1) ↔ 1 ≤ k ∧ k < n := by
  rw [List.mem_range'_1]
  omega

theorem fSurf_index (x : Surf) (l : List Int) : ([(f.face.index, fun x : Surf => { x with edgeind := l })].foldl
    (fun x o => if x.index = o.1 then o.2 x else x) x).index = x.index := by
  simp only [List.foldl_cons, List.foldl_nil]
  split <;> rfl

theorem has_surf (hn : 1 ≤ f.n) (i : Int) : HasSurf (fanMesh f w b m) i ↔
    HasSurf m i ∨ ∃ k : Nat, 1 ≤ k ∧ k < f.n ∧ i = f.s0 + (k : Int) := by
  unfold HasSurf fanMesh applyOps
  simp only [List.mem_append, List.mem_map, mem_ks hn]
  constructor
  · rintro ⟨x, ⟨y, hy, rfl⟩ | ⟨k, hk, rfl⟩, rfl⟩
    · exact .inl ⟨y, hy, (fSurf_index y _).symm⟩
    · exact .inr ⟨k, hk.1, hk.2, rfl⟩
  · rintro (⟨y, hy, rfl⟩ | ⟨k, h1, hk, rfl⟩)
    · exact ⟨_, .inl ⟨y, hy, rfl⟩, fSurf_index y _⟩
    · exact ⟨_, .inr ⟨k, ⟨h1, hk⟩, rfl⟩, rfl⟩

theorem has_volu (i : Int) : HasVolu (fanMesh f w b m) i ↔ HasVolu m i := by
  unfold HasVolu fanMesh applyOps
  simp only [List.mem_map]
  constructor
  · rintro ⟨x, ⟨y, hy, rfl⟩, rfl⟩
    exact ⟨y, hy, (cOps_index f _ y).symm⟩
  · rintro ⟨y, hy, rfl⟩
    exact ⟨_, ⟨y, hy, rfl⟩, cOps_index f _ y⟩

theorem vert_edge (h : Ready f w) (hf : Fresh f b f.base) (v e : Int) : VertEdge (fanMesh f w b f.base) v e ↔
    VertEdge f.base v e ∨ ∃ k : Nat, k < f.n ∧ e = f.e0 + 1 + (k : Int) ∧ (v = f.centre ∨ v = w (k + 1)) := by
  unfold VertEdge fanMesh applyOps
  simp only [List.mem_append, List.mem_map, List.mem_singleton]
  constructor
  · rintro ⟨x, ⟨y, hy, rfl⟩ | rfl, rfl, he⟩
    · rw [vOps_mem] at he
      rw [(vOps_keep f w _ y).1]
      rcases he with he | ⟨k, hk, h1, rfl⟩
      · exact .inl ⟨y, hy, rfl, he⟩
      · exact .inr ⟨k, List.mem_range.1 hk, rfl, .inr h1⟩
    · rw [hf.edgeind, List.mem_map] at he
      obtain ⟨k, hk, rfl⟩ := he
      exact .inr ⟨k, List.mem_range.1 hk, rfl, .inl hf.index⟩
  · rintro (⟨y, hy, rfl, he⟩ | ⟨k, hk, rfl, rfl | rfl⟩)
    · exact ⟨_, .inl ⟨y, hy, rfl⟩, (vOps_keep f w _ y).1, (vOps_mem ..).2 (.inl he)⟩
    · refine ⟨b, .inr rfl, hf.index, ?_⟩
      rw [hf.edgeind, List.mem_map]
      exact ⟨k, List.mem_range.2 hk, rfl⟩
    · obtain ⟨y, hy, hi⟩ := h.hasVert hk
      exact ⟨_, .inl ⟨y, hy, rfl⟩, (vOps_keep f w _ y).1.trans hi, (vOps_mem ..).2 (.inr ⟨k, List.mem_range.2 hk, hi, rfl⟩)⟩

theorem edge_vert (e v : Int) : EdgeVert (fanMesh f w b m) e v ↔
    EdgeVert m e v ∨ ∃ k : Nat, k < f.n ∧ e = f.e0 + 1 + (k : Int) ∧ (v = f.centre ∨ v = w (k + 1)) := by
  unfold EdgeVert fanMesh applyOps
  simp only [List.mem_append, List.mem_map, List.mem_range]
  constructor
  · rintro ⟨x, ⟨y, hy, rfl⟩ | ⟨k, hk, rfl⟩, rfl, he⟩
    · rw [(eOps_keep f _ y).2] at he
      exact .inl ⟨y, hy, (eOps_keep f _ y).1.symm, he⟩
    · refine .inr ⟨k, hk, rfl, ?_⟩
      simpa [spoke] using he
  · rintro (⟨y, hy, rfl, he⟩ | ⟨k, hk, rfl, he⟩)
    · exact ⟨_, .inl ⟨y, hy, rfl⟩, (eOps_keep f _ y).1, (eOps_keep f _ y).2.symm ▸ he⟩
    · exact ⟨_, .inr ⟨k, hk, rfl⟩, rfl, by simpa [spoke] using he⟩

/-- The surface of the new edge `k` before and after it. -/
def Beside (f : Fan) (k : Nat) (s : Int) : Prop :=
  (s = if k = 0 then f.face.index else f.s0 + (k : Int)) ∨ (s = if k = f.n - 1 then f.face.index else f.s0 + (k : Int) + 1)

theorem edge_surf (h : Ready f w) (e s : Int) : EdgeSurf (fanMesh f w b f.base) e s ↔
    (EdgeSurf f.base e s ∧ ¬ (s = f.face.index ∧ ∃ k : Nat, (1 ≤ k ∧ k < f.n) ∧ e = edgeNo f k)) ∨
      (∃ k : Nat, (1 ≤ k ∧ k < f.n) ∧ e = edgeNo f k ∧ s = f.s0 + (k : Int)) ∨
      ∃ k : Nat, k < f.n ∧ e = f.e0 + 1 + (k : Int) ∧ Beside f k s := by
  have hn : 1 ≤ f.n := by have := h.three; omega
  have hks : (List.range' 1 (f.n - 1)).Nodup := List.nodup_range'
  have hin : ∀ i ∈ List.range' 1 (f.n - 1), ∀ j ∈ List.range' 1 (f.n - 1), edgeNo f i = edgeNo f j → i = j := fun i hi j hj =>
    h.edgeInj ((mem_ks hn).1 hi).2 ((mem_ks hn).1 hj).2
  unfold EdgeSurf fanMesh applyOps
  simp only [List.mem_append, List.mem_map, List.mem_range]
  constructor
  · rintro ⟨x, ⟨y, hy, rfl⟩ | ⟨k, hk, rfl⟩, rfl, he⟩
    · rw [eOps_mem f _ hks hin] at he
      rw [(eOps_keep f _ y).1]
      simp only [mem_ks hn] at he
      rcases he with ⟨he, h1⟩ | ⟨k, hk, h1, h2, _⟩
      · exact .inl ⟨⟨y, hy, rfl, he⟩, h1⟩
      · exact .inr (.inl ⟨k, hk, h1, h2⟩)
    · refine .inr (.inr ⟨k, hk, rfl, ?_⟩)
      simpa [spoke, Beside] using he
  · rintro (⟨⟨y, hy, rfl, he⟩, h1⟩ | ⟨k, hk, rfl, rfl⟩ | ⟨k, hk, rfl, he⟩)
    · refine ⟨_, .inl ⟨y, hy, rfl⟩, (eOps_keep f _ y).1, ?_⟩
      rw [eOps_mem f _ hks hin]
      simp only [mem_ks hn]
      exact .inl ⟨he, h1⟩
    · obtain ⟨y, hy, hi, _, hm, _⟩ := h.edge hk.2
      refine ⟨_, .inl ⟨y, hy, rfl⟩, (eOps_keep f _ y).1.trans hi, ?_⟩
      rw [eOps_mem f _ hks hin]
      simp only [mem_ks hn]
      refine .inr ⟨k, hk, hi, rfl, ?_⟩
      obtain ⟨z, hz, hzi, hzs⟩ := (h.sound.sym.edgeSurf (edgeNo f k) f.face.index ⟨y, hy, hi⟩ ⟨_, h.face, rfl⟩).2
        ⟨_, h.face, rfl, hm⟩
      have : z = y := inj_of_nodup h.sound.unique.edges hz hy (hzi.trans hi.symm)
      exact this ▸ hzs
    · exact ⟨_, .inr ⟨k, hk, rfl⟩, rfl, by simpa [spoke, Beside] using he⟩

theorem surf_edge (h : Ready f w) (s e : Int) : SurfEdge (fanMesh f w b f.base) s e ↔
    (SurfEdge f.base s e ∧ s ≠ f.face.index) ∨
      (s = f.face.index ∧ (e = f.e0 + 1 ∨ e = f.e0 + (f.n : Int) ∨ e = edgeNo f 0)) ∨
      ∃ k : Nat, (1 ≤ k ∧ k < f.n) ∧ s = f.s0 + (k : Int) ∧ (e = f.e0 + (k : Int) ∨ e = f.e0 + (k : Int) + 1 ∨ e = edgeNo f k) := by
  have hn : 1 ≤ f.n := by have := h.three; omega
  unfold SurfEdge fanMesh applyOps
  simp only [List.mem_append, List.mem_map, mem_ks hn, List.foldl_cons, List.foldl_nil]
  constructor
  · rintro ⟨x, ⟨y, hy, rfl⟩ | ⟨k, hk, rfl⟩, rfl, he⟩
    · by_cases hyf : y.index = f.face.index
      · rw [if_pos hyf] at he ⊢
        exact .inr (.inl ⟨hyf, by simpa using he⟩)
      · rw [if_neg hyf] at he ⊢
        exact .inl ⟨⟨y, hy, rfl, he⟩, hyf⟩
    · exact .inr (.inr ⟨k, hk, rfl, by simpa [tri] using he⟩)
  · rintro (⟨⟨y, hy, rfl, he⟩, hyf⟩ | ⟨rfl, he⟩ | ⟨k, hk, rfl, he⟩)
    · exact ⟨_, .inl ⟨y, hy, rfl⟩, by rw [if_neg hyf], by rw [if_neg hyf]; exact he⟩
    · exact ⟨_, .inl ⟨f.face, h.face, rfl⟩, by rw [if_pos rfl], by rw [if_pos rfl]; simpa using he⟩
    · exact ⟨_, .inr ⟨k, hk, rfl⟩, rfl, by simpa [tri] using he⟩

theorem surf_volu (hn : 1 ≤ f.n) (s c : Int) : SurfVolu (fanMesh f w b m) s c ↔
    SurfVolu m s c ∨ ∃ k : Nat, (1 ≤ k ∧ k < f.n) ∧ s = f.s0 + (k : Int) ∧ c ∈ f.face.voluind := by
  unfold SurfVolu fanMesh applyOps
  simp only [List.mem_append, List.mem_map, mem_ks hn, List.foldl_cons, List.foldl_nil]
  constructor
  · rintro ⟨x, ⟨y, hy, rfl⟩ | ⟨k, hk, rfl⟩, rfl, he⟩
    · refine .inl ⟨y, hy, ?_, ?_⟩
      · split <;> rfl
      · split at he <;> exact he
    · exact .inr ⟨k, hk, rfl, he⟩
  · rintro (⟨y, hy, rfl, he⟩ | ⟨k, hk, rfl, he⟩)
    · refine ⟨_, .inl ⟨y, hy, rfl⟩, ?_, ?_⟩
      · split <;> rfl
      · split <;> exact he
    · exact ⟨_, .inr ⟨k, hk, rfl⟩, rfl, he⟩

theorem volu_surf (h : Ready f w) (c s : Int) : VoluSurf (fanMesh f w b f.base) c s ↔
    VoluSurf f.base c s ∨ ∃ k : Nat, (1 ≤ k ∧ k < f.n) ∧ s = f.s0 + (k : Int) ∧ c ∈ f.face.voluind ∧ c ≠ 0 := by
  have hn : 1 ≤ f.n := by have := h.three; omega
  unfold VoluSurf fanMesh applyOps
  simp only [List.mem_map]
  constructor
  · rintro ⟨x, ⟨y, hy, rfl⟩, rfl, he⟩
    rw [cOps_mem] at he
    rw [cOps_index]
    rcases he with he | ⟨k, hk, h1, h2, h3⟩
    · exact .inl ⟨y, hy, rfl, he⟩
    · exact .inr ⟨k, (mem_ks hn).1 hk, h3, h1, h2⟩
  · rintro (⟨y, hy, rfl, he⟩ | ⟨k, hk, rfl, hc, h0⟩)
    · exact ⟨_, ⟨y, hy, rfl⟩, cOps_index f _ y, (cOps_mem ..).2 (.inl he)⟩
    · obtain ⟨y, hy, hi⟩ := h.hasVolu c hc h0
      exact ⟨_, ⟨y, hy, rfl⟩, (cOps_index f _ y).trans hi,
        (cOps_mem ..).2 (.inr ⟨k, (mem_ks hn).2 hk, hi ▸ hc, hi ▸ h0, rfl⟩)⟩

/-! ### Soundness -/

theorem fan_unique (h : Ready f w) (hf : Fresh f b f.base) : UniqueIndices (fanMesh f w b f.base) where
  verts := by
    have e : (fanMesh f w b f.base).verts.map Vert.index = f.base.verts.map Vert.index ++ [f.centre] := by
      unfold fanMesh
      rw [List.map_append, applyOps_index (by rintro o ho x; obtain ⟨k, _, rfl⟩ := List.mem_map.1 ho; rfl)]
      simp [hf.index]
    rw [e, List.nodup_append]
    refine ⟨h.sound.unique.verts, by simp, ?_⟩
    rintro a ha c hc rfl
    rw [List.mem_singleton] at hc
    have := hf.vert a (List.mem_map.1 ha)
    omega
  edges := by
    have e : (fanMesh f w b f.base).edges.map Edge.index =
        f.base.edges.map Edge.index ++ (List.range f.n).map fun (k : Nat) => f.e0 + 1 + (k : Int) := by
      unfold fanMesh
      rw [List.map_append, applyOps_index (by rintro o ho x; obtain ⟨k, _, rfl⟩ := List.mem_map.1 ho; rfl), List.map_map]
      rfl
    rw [e, List.nodup_append]
    refine ⟨h.sound.unique.edges, List.nodup_range.map (fun i j hij => by simpa using hij), ?_⟩
    rintro a ha c hc rfl
    obtain ⟨k, _, hk⟩ := List.mem_map.1 hc
    have := hf.edge a (List.mem_map.1 ha)
    omega
  surfs := by
    have e : (fanMesh f w b f.base).surfs.map Surf.index =
        f.base.surfs.map Surf.index ++ (List.range' 1 (f.n - 1)).map fun (k : Nat) => f.s0 + (k : Int) := by
      unfold fanMesh
      rw [List.map_append, applyOps_index (by rintro o ho x; rw [List.mem_singleton] at ho; subst ho; rfl), List.map_map]
      rfl
    rw [e, List.nodup_append]
    refine ⟨h.sound.unique.surfs, (List.nodup_range' (s := 1) (n := f.n - 1)).map (fun i j hij => by simpa using hij), ?_⟩
    rintro a ha c hc rfl
    obtain ⟨k, hk1, hk⟩ := List.mem_map.1 hc
    have := hf.surf a (List.mem_map.1 ha)
    rw [List.mem_range'_1] at hk1
    omega
  volus := by
    have e : (fanMesh f w b f.base).volus.map Volu.index = f.base.volus.map Volu.index := by
      unfold fanMesh
      refine applyOps_index ?_ _
      rintro o ho x
      obtain ⟨k, _, ho⟩ := List.mem_flatMap.1 ho
      obtain ⟨c, _, rfl⟩ := List.mem_map.1 ho
      rfl
    rw [e]
    exact h.sound.unique.volus

theorem sound_ve {m : Mesh} (h : Sound m) (v e : Int) : VertEdge m v e ↔ EdgeVert m e v := by
  constructor
  · intro h1
    have hv : HasVert m v := by obtain ⟨x, hx, hi, _⟩ := h1; exact ⟨x, hx, hi⟩
    have he : e ≠ 0 := fun h0 => h.zeroOutside.vertEdge v (h0 ▸ h1)
    exact (h.sym.vertEdge v e hv (h.noDangling.vertEdge v e h1 he)).1 h1
  · intro h1
    have he : HasEdge m e := by obtain ⟨x, hx, hi, _⟩ := h1; exact ⟨x, hx, hi⟩
    have hv : v ≠ 0 := fun h0 => h.zeroOutside.edgeVert e (h0 ▸ h1)
    exact (h.sym.vertEdge v e (h.noDangling.edgeVert e v h1 hv) he).2 h1

theorem sound_es {m : Mesh} (h : Sound m) (e s : Int) : SurfEdge m s e ↔ EdgeSurf m e s ∧ s ≠ 0 := by
  constructor
  · intro h1
    have hs : HasSurf m s := by obtain ⟨x, hx, hi, _⟩ := h1; exact ⟨x, hx, hi⟩
    have := h.pos.surfs s hs
    exact ⟨(h.sym.edgeSurf e s (h.noDangling.surfEdge s e h1) hs).2 h1, by omega⟩
  · rintro ⟨h1, h0⟩
    have he : HasEdge m e := by obtain ⟨x, hx, hi, _⟩ := h1; exact ⟨x, hx, hi⟩
    exact (h.sym.edgeSurf e s he (h.noDangling.edgeSurf e s h1 h0)).1 h1

theorem sound_sc {m : Mesh} (h : Sound m) (s c : Int) : VoluSurf m c s ↔ SurfVolu m s c ∧ c ≠ 0 := by
  constructor
  · intro h1
    have hc : HasVolu m c := by obtain ⟨x, hx, hi, _⟩ := h1; exact ⟨x, hx, hi⟩
    have hs : s ≠ 0 := fun h0 => h.zeroOutside.voluSurf c (h0 ▸ h1)
    have := h.pos.volus c hc
    exact ⟨(h.sym.surfVolu s c (h.noDangling.voluSurf c s h1 hs) hc).2 h1, by omega⟩
  · rintro ⟨h1, h0⟩
    have hs : HasSurf m s := by obtain ⟨x, hx, hi, _⟩ := h1; exact ⟨x, hx, hi⟩
    exact (h.sym.surfVolu s c hs (h.noDangling.surfVolu s c h1 h0)).1 h1

theorem face_edges (h : Ready f w) (e : Int) : SurfEdge f.base f.face.index e ↔ ∃ k : Nat, k < f.n ∧ e = edgeNo f k := by
  constructor
  · rintro ⟨x, hx, hi, he⟩
    have : x = f.face := inj_of_nodup h.sound.unique.surfs hx h.face hi
    subst this
    obtain ⟨k, hk⟩ := List.getElem?_of_mem he
    have hk' : k < f.n := by rw [h.n]; exact (List.getElem?_eq_some_iff.1 hk).1
    obtain ⟨_, _, _, _, _, h1⟩ := h.edge hk'
    rw [hk] at h1
    exact ⟨k, hk', Option.some.inj h1⟩
  · rintro ⟨k, hk, rfl⟩
    obtain ⟨_, _, _, _, h1, _⟩ := h.edge hk
    exact ⟨_, h.face, rfl, h1⟩

theorem fan_edgeSurf (h : Ready f w) (hf : Fresh f b f.base) (e s : Int) :
    SurfEdge (fanMesh f w b f.base) s e ↔ EdgeSurf (fanMesh f w b f.base) e s ∧ s ≠ 0 := by
  have h3 := h.three
  have hface : 0 < f.face.index := h.sound.pos.surfs _ ⟨_, h.face, rfl⟩
  have hfs : f.face.index ≤ f.s0 := hf.surf _ ⟨_, h.face, rfl⟩
  have hold : ∀ k : Nat, k < f.n → edgeNo f k ≤ f.e0 := fun k hk => by
    obtain ⟨x, hx, hi, _⟩ := h.edge hk
    exact hf.edge _ ⟨x, hx, hi⟩
  rw [surf_edge h, edge_surf h]
  constructor
  · rintro (⟨h1, h2⟩ | ⟨rfl, he⟩ | ⟨k, ⟨hk1, hk⟩, rfl, he⟩)
    · obtain ⟨h4, h5⟩ := (sound_es h.sound e s).1 h1
      exact ⟨.inl ⟨h4, fun hh => h2 hh.1⟩, h5⟩
    · refine ⟨?_, by omega⟩
      rcases he with rfl | rfl | rfl
      · exact .inr (.inr ⟨0, by omega, by simp, .inl (by simp)⟩)
      · exact .inr (.inr ⟨f.n - 1, by omega, by omega, .inr (by simp)⟩)
      · refine .inl ⟨((sound_es h.sound _ _).1 ((face_edges h _).2 ⟨0, by omega, rfl⟩)).1, ?_⟩
        rintro ⟨_, k, hk, he⟩
        have := h.edgeInj (by omega) hk.2 he
        omega
    · have hpos := hf.posS
      refine ⟨?_, by omega⟩
      rcases he with rfl | rfl | rfl
      · exact .inr (.inr ⟨k - 1, by omega, by omega, .inr (by rw [if_neg (by omega)]; omega)⟩)
      · exact .inr (.inr ⟨k, by omega, by omega, .inl (by rw [if_neg (by omega)])⟩)
      · exact .inr (.inl ⟨k, ⟨hk1, hk⟩, rfl, rfl⟩)
  · rintro ⟨⟨h1, h2⟩ | ⟨k, hk, rfl, rfl⟩ | ⟨k, hk, rfl, h1⟩, h0⟩
    · have h4 := (sound_es h.sound e s).2 ⟨h1, h0⟩
      by_cases hs : s = f.face.index
      · subst hs
        obtain ⟨k, hk, rfl⟩ := (face_edges h e).1 h4
        rcases Nat.eq_zero_or_pos k with rfl | hk0
        · exact .inr (.inl ⟨rfl, .inr (.inr rfl)⟩)
        · exact absurd ⟨rfl, k, ⟨hk0, hk⟩, rfl⟩ h2
      · exact .inl ⟨h4, hs⟩
    · exact .inr (.inr ⟨k, hk, rfl, .inr (.inr rfl)⟩)
    · rcases h1 with h1 | h1
      · by_cases hk0 : k = 0
        · subst hk0
          rw [if_pos rfl] at h1
          exact .inr (.inl ⟨h1, .inl (by simp)⟩)
        · rw [if_neg hk0] at h1
          exact .inr (.inr ⟨k, ⟨by omega, hk⟩, h1, .inr (.inl (by omega))⟩)
      · by_cases hk0 : k = f.n - 1
        · rw [if_pos hk0] at h1
          exact .inr (.inl ⟨h1, .inr (.inl (by omega))⟩)
        · rw [if_neg hk0] at h1
          exact .inr (.inr ⟨k + 1, ⟨by omega, by omega⟩, by omega, .inl (by omega)⟩)

theorem fan_voluSurf (h : Ready f w) (s c : Int) :
    VoluSurf (fanMesh f w b f.base) c s ↔ SurfVolu (fanMesh f w b f.base) s c ∧ c ≠ 0 := by
  have hn : 1 ≤ f.n := by have := h.three; omega
  rw [volu_surf h, surf_volu hn, sound_sc h.sound]
  constructor
  · rintro (⟨h1, h2⟩ | ⟨k, hk, rfl, h1, h2⟩)
    · exact ⟨.inl h1, h2⟩
    · exact ⟨.inr ⟨k, hk, rfl, h1⟩, h2⟩
  · rintro ⟨h1 | ⟨k, hk, rfl, h1⟩, h2⟩
    · exact .inl ⟨h1, h2⟩
    · exact .inr ⟨k, hk, rfl, h1, h2⟩

theorem fan_vertEdge (h : Ready f w) (hf : Fresh f b f.base) (v e : Int) :
    VertEdge (fanMesh f w b f.base) v e ↔ EdgeVert (fanMesh f w b f.base) e v := by
  rw [vert_edge h hf, edge_vert, sound_ve h.sound]

theorem fan_sound (h : Ready f w) (hf : Fresh f b f.base) : Sound (fanMesh f w b f.base) := by
  have hn : 1 ≤ f.n := by have := h.three; omega
  have pE := hf.posE
  have pS := hf.posS
  have pV := hf.posV
  have hface : HasSurf f.base f.face.index := ⟨_, h.face, rfl⟩
  have hve : ∀ v e, VertEdge (fanMesh f w b f.base) v e → HasEdge (fanMesh f w b f.base) e := by
    intro v e h1
    rw [fan_vertEdge h hf] at h1
    obtain ⟨x, hx, hi, _⟩ := h1
    exact ⟨x, hx, hi⟩
  have hev : ∀ e v, EdgeVert (fanMesh f w b f.base) e v → HasVert (fanMesh f w b f.base) v := by
    intro e v h1
    rw [← fan_vertEdge h hf] at h1
    obtain ⟨x, hx, hi, _⟩ := h1
    exact ⟨x, hx, hi⟩
  have hse : ∀ s e, SurfEdge (fanMesh f w b f.base) s e → HasEdge (fanMesh f w b f.base) e := by
    intro s e h1
    obtain ⟨⟨x, hx, hi, _⟩, _⟩ := (fan_edgeSurf h hf e s).1 h1
    exact ⟨x, hx, hi⟩
  have hcs : ∀ c s, VoluSurf (fanMesh f w b f.base) c s → HasSurf (fanMesh f w b f.base) s := by
    intro c s h1
    obtain ⟨⟨x, hx, hi, _⟩, _⟩ := (fan_voluSurf h s c).1 h1
    exact ⟨x, hx, hi⟩
  have pos : PosIndices (fanMesh f w b f.base) := by
    refine ⟨fun i hi => ?_, fun i hi => ?_, fun i hi => ?_, fun i hi => ?_⟩
    · rcases (has_vert hf i).1 hi with h1 | rfl
      · exact h.sound.pos.verts i h1
      · exact pV
    · rcases (has_edge i).1 hi with h1 | ⟨k, _, rfl⟩
      · exact h.sound.pos.edges i h1
      · omega
    · rcases (has_surf hn i).1 hi with h1 | ⟨k, h1, _, rfl⟩
      · exact h.sound.pos.surfs i h1
      · omega
    · exact h.sound.pos.volus i ((has_volu i).1 hi)
  refine ⟨fan_unique h hf, pos, ⟨fun v e h1 _ => hve v e h1, fun e v h1 _ => hev e v h1, ?_, hse, ?_, fun c s h1 _ => hcs c s h1⟩,
    ⟨fun v h1 => ?_, fun e h1 => ?_, fun s h1 => ?_, fun c h1 => ?_⟩, ⟨fun v e _ _ => fan_vertEdge h hf v e, ?_, ?_⟩⟩
  · intro e s h1 h0
    obtain ⟨x, hx, hi, _⟩ := (fan_edgeSurf h hf e s).2 ⟨h1, h0⟩
    exact ⟨x, hx, hi⟩
  · intro s c h1 h0
    obtain ⟨x, hx, hi, _⟩ := (fan_voluSurf h s c).2 ⟨h1, h0⟩
    exact ⟨x, hx, hi⟩
  · exact absurd (pos.edges 0 (hve v 0 h1)) (by simp)
  · exact absurd (pos.verts 0 (hev e 0 h1)) (by simp)
  · exact absurd (pos.edges 0 (hse s 0 h1)) (by simp)
  · exact absurd (pos.surfs 0 (hcs c 0 h1)) (by simp)
  · intro e s _ hs
    have := pos.surfs s hs
    rw [fan_edgeSurf h hf]
    exact ⟨fun h1 => ⟨h1, by omega⟩, fun h1 => h1.1⟩
  · intro s c _ hc
    have := pos.volus c hc
    rw [fan_voluSurf h]
    exact ⟨fun h1 => ⟨h1, by omega⟩, fun h1 => h1.1⟩

end RSVS.FaceFan
