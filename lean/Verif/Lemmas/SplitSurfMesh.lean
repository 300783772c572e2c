import Verif.Lemmas.SplitSurf
import Verif.Lemmas.FaceFanMesh
import Verif.Lemmas.ForceCloseMesh

/-!
# One split of a surface keeps the mesh sound
-/

namespace RSVS.SplitSurf

open RSVS RSVS.Mesh RSVS.Spec RSVS.Order

theorem modify_map {α : Type} {ix : α → Int} {l : List α} (hn : (l.map ix).Nodup) {i : Nat} (hi : i < l.length) (f : α → α) :
    l.modify i f = l.map fun a => if ix a = ix l[i] then f a else a := by
  refine List.ext_getElem (by simp) fun j g1 g2 => ?_
  have hj : j < l.length := by simpa using g1
  rw [List.getElem_modify, List.getElem_map]
  by_cases h : i = j
  · subst h
    simp
  · rw [if_neg h, if_neg]
    intro h3
    exact h ((List.Nodup.getElem_inj_iff hn (i := i) (j := j) (hi := by simpa using hi) (hj := by simpa using hj)).1 (by simp [h3]))

theorem maxSurf_lt (m : Mesh) : 0 ≤ maxSurf m ∧ ∀ f ∈ m.surfs, f.index ≤ maxSurf m := by
  have key : ∀ (l : List Surf) (a : Int), a ≤ l.foldl (fun a f => if a < f.index then f.index else a) a ∧
      ∀ f ∈ l, f.index ≤ l.foldl (fun a f => if a < f.index then f.index else a) a := by
    intro l
    induction l with
    | nil => intro a; simp
    | cons g l ih =>
      intro a
      obtain ⟨h1, h2⟩ := ih (if a < g.index then g.index else a)
      rw [List.foldl_cons]
      have h3 : a ≤ (if a < g.index then g.index else a) ∧ g.index ≤ if a < g.index then g.index else a := by split <;> omega
      refine ⟨h3.1.trans h1, fun f hf => ?_⟩
      rcases List.mem_cons.1 hf with rfl | hf
      · exact h3.2.trans h1
      · exact h2 f hf
  exact key m.surfs 0

/-! ### The lists of the volumes -/

/-- `N` is pushed to the volumes in `cs`, and nothing else is changed. -/
def Pushed (N : Int) (cs : List Int) (volus volus' : List Volu) : Prop :=
  List.Forall₂ (fun x y => ∃ l, y = { x with surfind := l } ∧ ∀ t, t ∈ l ↔ t ∈ x.surfind ∨ (t = N ∧ x.index ∈ cs)) volus volus'

theorem pushed_nil (N : Int) : ∀ volus, Pushed N [] volus volus
  | [] => .nil
  | x :: l => .cons ⟨x.surfind, rfl, by simp⟩ (pushed_nil N l)

theorem pushed_map (N c : Int) : ∀ volus : List Volu, Pushed N [c] volus (volus.map fun x => if x.index = c then pushSurf N x else x)
  | [] => .nil
  | x :: l => by
    refine .cons ?_ (pushed_map N c l)
    by_cases h : x.index = c
    · exact ⟨x.surfind ++ [N], if_pos h, fun t => by simp [h]⟩
    · exact ⟨x.surfind, if_neg h, fun t => by simp [h]⟩

theorem pushed_trans {N : Int} {cs ds : List Int} : ∀ {a b c : List Volu}, Pushed N cs a b → Pushed N ds b c → Pushed N (cs ++ ds) a c
  | _, _, _, .nil, .nil => .nil
  | _, _, _, .cons h t, .cons h' t' => by
    refine .cons ?_ (pushed_trans t t')
    obtain ⟨l, rfl, h1⟩ := h
    obtain ⟨l', rfl, h2⟩ := h'
    refine ⟨l', rfl, fun t => ?_⟩
    rw [h2, List.mem_append]
    simp only [h1]
    tauto

theorem pushed_index {N : Int} {cs : List Int} {a b : List Volu} (h : Pushed N cs a b) : b.map Volu.index = a.map Volu.index := by
  induction h with
  | nil => rfl
  | cons h _ ih => obtain ⟨l, rfl, _⟩ := h; simp [ih]

theorem pushed_mem {N : Int} {cs : List Int} {a b : List Volu} (h : Pushed N cs a b) :
    (∀ x ∈ a, ∃ y ∈ b, y.index = x.index ∧ ∀ t, t ∈ y.surfind ↔ t ∈ x.surfind ∨ (t = N ∧ x.index ∈ cs)) ∧
      ∀ y ∈ b, ∃ x ∈ a, y.index = x.index ∧ ∀ t, t ∈ y.surfind ↔ t ∈ x.surfind ∨ (t = N ∧ x.index ∈ cs) := by
  induction h with
  | nil => simp
  | cons h _ ih =>
    obtain ⟨l, rfl, hl⟩ := h
    constructor
    · intro x hx
      rcases List.mem_cons.1 hx with rfl | hx
      · exact ⟨_, List.mem_cons_self, rfl, hl⟩
      · obtain ⟨y, hy, h⟩ := ih.1 x hx
        exact ⟨y, List.mem_cons_of_mem _ hy, h⟩
    · intro y hy
      rcases List.mem_cons.1 hy with rfl | hy
      · exact ⟨_, List.mem_cons_self, rfl, hl⟩
      · obtain ⟨x, hx, h⟩ := ih.2 y hy
        exact ⟨x, List.mem_cons_of_mem _ hx, h⟩

/-- A loop in which each step pushes to one volume if it exists. -/
theorem push_fold {N : Int} {step : List Volu → Int → Res (List Volu)} {idx : List Int}
    (hstep : ∀ volus c, volus.map Volu.index = idx → (c ∈ idx ∨ c = 0) → ∃ v', step volus c = .ok v' ∧ Pushed N [c] volus v') :
    ∀ (cs : List Int) (volus : List Volu), volus.map Volu.index = idx → (∀ c ∈ cs, c ∈ idx ∨ c = 0) →
      ∃ v', cs.foldlM (m := Except Fault) step volus = .ok v' ∧ Pushed N cs volus v'
  | [], volus, _, _ => ⟨volus, rfl, pushed_nil N volus⟩
  | c :: cs, volus, hi, hc => by
    obtain ⟨v1, h1, h2⟩ := hstep volus c hi (hc c (by simp))
    obtain ⟨v2, h3, h4⟩ := push_fold hstep cs v1 ((pushed_index h2).trans hi) fun d hd => hc d (by simp [hd])
    refine ⟨v2, ?_, pushed_trans h2 h4⟩
    rw [List.foldlM_cons, h1]
    exact h3

theorem pushed_zero (N : Int) {volus : List Volu} (h : ∀ x ∈ volus, x.index ≠ 0) : Pushed N [0] volus volus := by
  have := pushed_map N 0 volus
  rwa [show (volus.map fun x => if x.index = 0 then pushSurf N x else x) = volus from by
    conv_rhs => rw [← List.map_id volus]
    exact List.map_congr_left fun x hx => if_neg (h x hx)] at this

theorem ne_zero_of_inds {volus : List Volu} {idx : List Int} (hi : volus.map Volu.index = idx) (hp : ∀ c ∈ idx, 0 < c) :
    ∀ x ∈ volus, x.index ≠ 0 := fun x hx h => by
  have := hp x.index (hi ▸ List.mem_map.2 ⟨x, hx, rfl⟩)
  omega

theorem scopeVolu_ok {N : Int} {idx : List Int} (hn : idx.Nodup) (hp : ∀ c ∈ idx, 0 < c) {volus : List Volu} {c : Int}
    (hi : volus.map Volu.index = idx) (hc : c ∈ idx ∨ c = 0) : ∃ v', scopeVolu N volus c = .ok v' ∧ Pushed N [c] volus v' := by
  unfold scopeVolu
  rcases hc with hc | rfl
  · rw [if_pos (hp c hc), ForceClose.rawMod_map (hi ▸ hn) (List.mem_map.1 (hi ▸ hc))]
    exact ⟨_, rfl, pushed_map N c volus⟩
  · rw [if_neg (by omega)]
    exact ⟨_, rfl, pushed_zero N (ne_zero_of_inds hi hp)⟩

theorem lastVolu_ok {N : Int} {idx : List Int} (hn : idx.Nodup) (hp : ∀ c ∈ idx, 0 < c) {volus : List Volu} {c : Int}
    (hi : volus.map Volu.index = idx) (hc : c ∈ idx ∨ c = 0) : ∃ v', lastVolu N volus c = .ok v' ∧ Pushed N [c] volus v' := by
  unfold lastVolu
  rcases hc with hc | rfl
  · have hex := List.mem_map.1 (hi ▸ hc)
    rw [if_neg, modAt_posOf (hi ▸ hn) hex]
    · exact ⟨_, rfl, pushed_map N c volus⟩
    · obtain ⟨p, h1, -, -⟩ := posOf_mem hex
      rw [h1]
      omega
  · rw [if_pos]
    · exact ⟨_, rfl, pushed_zero N (ne_zero_of_inds hi hp)⟩
    · rcases posOf_cases (ix := Volu.index) (l := volus) (k := 0) with h | ⟨i, hi', h1, h2⟩
      · exact h.1
      · exact absurd h2 (ne_zero_of_inds hi hp _ (List.getElem_mem _))

/-! ### The edges of the new surface -/

theorem scope_fold {m : Mesh} (hm : Sound m) {f : Surf} (hf : f ∈ m.surfs) {N : Int} (hN : ∀ g ∈ m.surfs, g.index ≠ N) {r : List Int}
    {surfs0 : List Surf} {edges0 : List Edge} (hi0 : surfs0.map Surf.index = m.surfs.map Surf.index ++ [N])
    (he0 : edges0 = m.edges) : ∀ (l D extra acc : List Int), (D ++ l).Nodup → (∀ e ∈ l, e ∈ f.edgeind ∧ e ∉ r) →
      ∃ extra', (∀ e ∈ extra', e ∈ extra ∨ e ∈ l) ∧
        (posList Edge.index edges0 l).foldlM (m := Except Fault)
          (scopeStep f.index N (posOf Surf.index surfs0 f.index) (posOf Surf.index surfs0 N))
          ((m.surfs.map fun a : Surf => if a.index = f.index then { a with edgeind := r } else a) ++ [{ f with index := N, edgeind := acc ++ extra }],
            m.edges.map fun x => if x.index ∈ D then { x with surfind := replaceAll f.index N x.surfind } else x) =
        .ok ((m.surfs.map fun a : Surf => if a.index = f.index then { a with edgeind := r } else a) ++
            [{ f with index := N, edgeind := acc ++ extra' }],
          m.edges.map fun x => if x.index ∈ D ++ l then { x with surfind := replaceAll f.index N x.surfind } else x)
  | [], D, extra, acc, _, _ => ⟨extra, fun e he => Or.inl he, by simp [posList]; rfl⟩
  | e :: l, D, extra, acc, hn, hl => by
    subst he0
    have heD : e ∉ D := fun h => (List.nodup_append.1 hn).2.2 e h e (by simp) rfl
    have hse : SurfEdge m f.index e := ⟨f, hf, rfl, (hl e (by simp)).1⟩
    obtain ⟨x, hx, hxi⟩ := hm.noDangling.surfEdge _ _ hse
    have hes : EdgeSurf m e f.index := (hm.sym.edgeSurf e f.index ⟨x, hx, hxi⟩ ⟨f, hf, rfl⟩).2 hse
    have hxs : f.index ∈ x.surfind := by
      obtain ⟨y, hy, hyi, h⟩ := hes
      rwa [inj_of_nodup hm.unique.edges hy hx (hyi.trans hxi.symm)] at h
    -- the edges so far
    have hei : (m.edges.map fun x => if x.index ∈ D then { x with surfind := replaceAll f.index N x.surfind } else x).map Edge.index =
        m.edges.map Edge.index := by
      rw [List.map_map]
      refine List.map_congr_left fun y _ => ?_
      simp only [Function.comp]
      split <;> rfl
    have hxm : x ∈ m.edges.map fun x => if x.index ∈ D then { x with surfind := replaceAll f.index N x.surfind } else x :=
      List.mem_map.2 ⟨x, hx, by rw [if_neg (by rw [hxi]; exact heD)]⟩
    obtain ⟨y, g1, g2, g3⟩ := elemAt_posOf_ok (ix := Edge.index)
      (l := m.edges.map fun x => if x.index ∈ D then { x with surfind := replaceAll f.index N x.surfind } else x) (k := e) ⟨x, hxm, hxi⟩
    have hyx : y = x := inj_of_nodup (ix := Edge.index) (by rw [hei]; exact hm.unique.edges) g2 hxm (g3.trans hxi.symm)
    subst hyx
    have hsi : ∀ t : List Int, ((m.surfs.map fun a : Surf => if a.index = f.index then { a with edgeind := r } else a) ++
        [{ f with index := N, edgeind := t }]).map Surf.index = m.surfs.map Surf.index ++ [N] := by
      intro t
      rw [List.map_append, List.map_map]
      congr 1
      refine List.map_congr_left fun y _ => ?_
      simp only [Function.comp]
      split <;> rfl
    have hsn : (m.surfs.map Surf.index ++ [N]).Nodup := by
      refine List.nodup_append'.2 ⟨hm.unique.surfs, by simp, fun a ha ha' => ?_⟩
      obtain ⟨g, hg, rfl⟩ := List.mem_map.1 ha
      simp only [List.mem_cons, List.not_mem_nil, or_false] at ha'
      exact hN g hg ha'
    have hstep : scopeStep f.index N (posOf Surf.index surfs0 f.index) (posOf Surf.index surfs0 N)
          ((m.surfs.map fun a : Surf => if a.index = f.index then { a with edgeind := r } else a) ++ [{ f with index := N, edgeind := acc ++ extra }],
            m.edges.map fun x => if x.index ∈ D then { x with surfind := replaceAll f.index N x.surfind } else x)
          (posOf Edge.index m.edges e) =
        .ok ((m.surfs.map fun a : Surf => if a.index = f.index then { a with edgeind := r } else a) ++
            [{ f with index := N, edgeind := acc ++ (extra ++ List.replicate (y.surfind.count f.index) e) }],
          m.edges.map fun x => if x.index ∈ D ++ [e] then { x with surfind := replaceAll f.index N x.surfind } else x) := by
      unfold scopeStep
      rw [posOf_congr hei.symm e, posOf_congr (hi0.trans (hsi (acc ++ extra)).symm) N]
      simp only
      rw [g1]
      simp only [Except.bind]
      rw [if_pos (by simpa using hxs), modAt_posOf (ix := Edge.index) (by rw [hei]; exact hm.unique.edges) ⟨y, hxm, hxi⟩]
      simp only [Except.bind]
      rw [modAt_posOf (ix := Surf.index) (by rw [hsi]; exact hsn) ⟨_, List.mem_append_right _ (List.mem_singleton.2 rfl), rfl⟩]
      simp only [Except.bind]
      have hmid : (((m.surfs.map fun a : Surf => if a.index = f.index then { a with edgeind := r } else a) ++
          [{ f with index := N, edgeind := acc ++ extra }]).map fun a : Surf => if a.index = N then
            { a with edgeind := a.edgeind ++ List.replicate (y.surfind.count f.index) y.index } else a) =
          (m.surfs.map fun a => if a.index = f.index then { a with edgeind := r } else a) ++
            [{ f with index := N, edgeind := acc ++ (extra ++ List.replicate (y.surfind.count f.index) e) }] := by
        rw [List.map_append, List.map_map]
        congr 1
        · refine List.map_congr_left fun a ha => ?_
          simp only [Function.comp]
          rw [if_neg]
          have := hN a ha
          split <;> exact this
        · simp [hxi]
      rw [hmid, posOf_congr (hi0.trans (hsi _).symm) f.index,
        modAt_posOf (ix := Surf.index) (by rw [hsi]; exact hsn)
          ⟨{ f with edgeind := r }, List.mem_append_left _ (List.mem_map.2 ⟨f, hf, by rw [if_pos rfl]⟩), rfl⟩]
      simp only [Except.map]
      congr 2
      · rw [List.map_append, List.map_map]
        congr 1
        · refine List.map_congr_left fun a ha => ?_
          simp only [Function.comp]
          by_cases h : a.index = f.index
          · simp only [if_pos h]
            rw [hxi, eraseAll_of_notMem (hl e (by simp)).2]
          · simp only [if_neg h]
        · simp only [List.map_cons, List.map_nil]
          rw [if_neg]
          exact fun h => hN f hf h.symm
      · rw [List.map_map]
        refine List.map_congr_left fun a ha => ?_
        simp only [Function.comp, List.mem_append, List.mem_cons, List.not_mem_nil, or_false]
        by_cases h : a.index ∈ D
        · rw [if_pos h]
          simp only
          rw [if_neg, if_pos (Or.inl h)]
          rintro rfl
          exact heD h
        · rw [if_neg h]
          by_cases h3 : a.index = e
          · rw [if_pos h3, if_pos (Or.inr h3)]
          · rw [if_neg h3, if_neg (by tauto)]
    obtain ⟨extra', h1, h2⟩ := scope_fold hm hf hN hi0 rfl l (D ++ [e]) (extra ++ List.replicate (y.surfind.count f.index) e) acc
      (by simpa using hn) fun a ha => hl a (by simp [ha])
    refine ⟨extra', fun a ha => ?_, ?_⟩
    · rcases h1 a ha with h | h
      · rcases List.mem_append.1 h with h | h
        · exact Or.inl h
        · exact Or.inr (by rw [List.eq_of_mem_replicate h]; simp)
      · exact Or.inr (by simp [h])
    · show List.foldlM (m := Except Fault) _ _ (posOf Edge.index m.edges e :: posList Edge.index m.edges l) = _
      rw [List.foldlM_cons, hstep]
      simp only [List.append_assoc, List.cons_append, List.nil_append] at h2 ⊢
      exact h2

/-! ### The mesh after the split -/

theorem sound_mk {m : Mesh} (hu : UniqueIndices m) (hp : PosIndices m) (h1 : ∀ v e, VertEdge m v e ↔ EdgeVert m e v)
    (h2 : ∀ e s, SurfEdge m s e ↔ EdgeSurf m e s ∧ s ≠ 0) (h3 : ∀ s c, VoluSurf m c s ↔ SurfVolu m s c ∧ c ≠ 0) : Sound m where
  unique := hu
  pos := hp
  noDangling :=
    { vertEdge := fun v e h _ => by obtain ⟨x, hx, hi, -⟩ := (h1 v e).1 h; exact ⟨x, hx, hi⟩
      edgeVert := fun e v h _ => by obtain ⟨x, hx, hi, -⟩ := (h1 v e).2 h; exact ⟨x, hx, hi⟩
      edgeSurf := fun e s h h0 => by obtain ⟨x, hx, hi, -⟩ := (h2 e s).2 ⟨h, h0⟩; exact ⟨x, hx, hi⟩
      surfEdge := fun s e h => by obtain ⟨x, hx, hi, -⟩ := ((h2 e s).1 h).1; exact ⟨x, hx, hi⟩
      surfVolu := fun s c h h0 => by obtain ⟨x, hx, hi, -⟩ := (h3 s c).2 ⟨h, h0⟩; exact ⟨x, hx, hi⟩
      voluSurf := fun c s h _ => by obtain ⟨x, hx, hi, -⟩ := ((h3 s c).1 h).1; exact ⟨x, hx, hi⟩ }
  zeroOutside :=
    { vertEdge := fun v h => by
        obtain ⟨x, hx, hi, -⟩ := (h1 v 0).1 h
        exact absurd (hp.edges 0 ⟨x, hx, hi⟩) (by omega)
      edgeVert := fun e h => by
        obtain ⟨x, hx, hi, -⟩ := (h1 0 e).2 h
        exact absurd (hp.verts 0 ⟨x, hx, hi⟩) (by omega)
      surfEdge := fun s h => by
        obtain ⟨x, hx, hi, -⟩ := ((h2 0 s).1 h).1
        exact absurd (hp.edges 0 ⟨x, hx, hi⟩) (by omega)
      voluSurf := fun c h => by
        obtain ⟨x, hx, hi, -⟩ := ((h3 0 c).1 h).1
        exact absurd (hp.surfs 0 ⟨x, hx, hi⟩) (by omega) }
  sym :=
    { vertEdge := fun v e _ _ => h1 v e
      edgeSurf := fun e s _ hs => by
        have := hp.surfs s hs
        rw [h2 e s]
        exact ⟨fun h => ⟨h, by omega⟩, fun h => h.1⟩
      surfVolu := fun s c _ hc => by
        have := hp.volus c hc
        rw [h3 s c]
        exact ⟨fun h => ⟨h, by omega⟩, fun h => h.1⟩ }

section
variable {m : Mesh} {f : Surf} {N : Int} {r rest l : List Int} {volus : List Volu}

/-- The mesh with surface `f` split. -/
def splitMesh (m : Mesh) (f : Surf) (N : Int) (r rest l : List Int) (volus : List Volu) : Mesh :=
  { m with
    edges := m.edges.map fun x => if x.index ∈ rest then { x with surfind := replaceAll f.index N x.surfind } else x
    surfs := (m.surfs.map fun a => if a.index = f.index then { a with edgeind := r } else a) ++ [{ f with index := N, edgeind := l }]
    volus := volus }

theorem split_surfs : (splitMesh m f N r rest l volus).surfs.map Surf.index = m.surfs.map Surf.index ++ [N] := by
  unfold splitMesh
  rw [List.map_append, List.map_map]
  congr 1
  refine List.map_congr_left fun y _ => ?_
  simp only [Function.comp]
  split <;> rfl

theorem split_edges : (splitMesh m f N r rest l volus).edges.map Edge.index = m.edges.map Edge.index := by
  unfold splitMesh
  rw [List.map_map]
  refine List.map_congr_left fun y _ => ?_
  simp only [Function.comp]
  split <;> rfl

theorem split_surfEdge (hf : f ∈ m.surfs) (s e : Int) : SurfEdge (splitMesh m f N r rest l volus) s e ↔
    (s = N ∧ e ∈ l) ∨ (s = f.index ∧ e ∈ r) ∨ (s ≠ f.index ∧ SurfEdge m s e) := by
  unfold SurfEdge splitMesh
  simp only [List.mem_append, List.mem_map, List.mem_cons, List.not_mem_nil, or_false]
  constructor
  · rintro ⟨x, ⟨a, ha, rfl⟩ | rfl, rfl, he⟩
    · by_cases h : a.index = f.index
      · rw [if_pos h] at he ⊢
        exact Or.inr (Or.inl ⟨h, he⟩)
      · rw [if_neg h] at he ⊢
        exact Or.inr (Or.inr ⟨h, a, ha, rfl, he⟩)
    · exact Or.inl ⟨rfl, he⟩
  · rintro (⟨rfl, he⟩ | ⟨rfl, he⟩ | ⟨hs, a, ha, rfl, he⟩)
    · exact ⟨_, Or.inr rfl, rfl, he⟩
    · exact ⟨_, Or.inl ⟨f, hf, rfl⟩, by rw [if_pos rfl], by rw [if_pos rfl]; exact he⟩
    · exact ⟨a, Or.inl ⟨a, ha, if_neg hs⟩, rfl, he⟩

theorem split_surfVolu (hm : Sound m) (hf : f ∈ m.surfs) (s c : Int) : SurfVolu (splitMesh m f N r rest l volus) s c ↔
    (s = N ∧ c ∈ f.voluind) ∨ SurfVolu m s c := by
  unfold SurfVolu splitMesh
  simp only [List.mem_append, List.mem_map, List.mem_cons, List.not_mem_nil, or_false]
  constructor
  · rintro ⟨x, ⟨a, ha, rfl⟩ | rfl, rfl, he⟩
    · refine Or.inr ⟨a, ha, ?_, ?_⟩
      · split <;> rfl
      · split at he <;> exact he
    · exact Or.inl ⟨rfl, he⟩
  · rintro (⟨rfl, he⟩ | ⟨a, ha, rfl, he⟩)
    · exact ⟨_, Or.inr rfl, rfl, he⟩
    · refine ⟨_, Or.inl ⟨a, ha, rfl⟩, ?_, ?_⟩
      · split <;> rfl
      · split <;> exact he

theorem split_edgeSurf (e s : Int) : EdgeSurf (splitMesh m f N r rest l volus) e s ↔
    (e ∉ rest ∧ EdgeSurf m e s) ∨ (e ∈ rest ∧ ((EdgeSurf m e s ∧ s ≠ f.index) ∨ (s = N ∧ EdgeSurf m e f.index))) := by
  unfold EdgeSurf splitMesh
  simp only [List.mem_map]
  constructor
  · rintro ⟨x, ⟨a, ha, rfl⟩, rfl, hs⟩
    by_cases h : a.index ∈ rest
    · rw [if_pos h] at hs ⊢
      simp only at hs ⊢
      refine Or.inr ⟨h, ?_⟩
      rcases mem_replaceAll.1 hs with ⟨h1, h2⟩ | ⟨h1, h2⟩
      · exact Or.inl ⟨⟨a, ha, rfl, h1⟩, h2⟩
      · exact Or.inr ⟨h1, a, ha, rfl, h2⟩
    · rw [if_neg h] at hs ⊢
      exact Or.inl ⟨h, a, ha, rfl, hs⟩
  · rintro (⟨h, a, ha, rfl, hs⟩ | ⟨h, ⟨⟨a, ha, rfl, hs⟩, h2⟩ | ⟨h2, a, ha, rfl, hs⟩⟩)
    · exact ⟨a, ⟨a, ha, if_neg h⟩, rfl, hs⟩
    · exact ⟨_, ⟨a, ha, if_pos h⟩, rfl, mem_replaceAll.2 (Or.inl ⟨hs, h2⟩)⟩
    · exact ⟨_, ⟨a, ha, if_pos h⟩, rfl, mem_replaceAll.2 (Or.inr ⟨h2, hs⟩)⟩

theorem split_edgeVert (e v : Int) : EdgeVert (splitMesh m f N r rest l volus) e v ↔ EdgeVert m e v := by
  unfold EdgeVert splitMesh
  simp only [List.mem_map]
  constructor
  · rintro ⟨x, ⟨a, ha, rfl⟩, rfl, hs⟩
    refine ⟨a, ha, ?_, ?_⟩
    · split <;> rfl
    · split at hs <;> exact hs
  · rintro ⟨a, ha, rfl, hs⟩
    refine ⟨_, ⟨a, ha, rfl⟩, ?_, ?_⟩
    · split <;> rfl
    · split <;> exact hs

theorem split_voluSurf (hv : Pushed N f.voluind m.volus volus) (c s : Int) : VoluSurf (splitMesh m f N r rest l volus) c s ↔
    VoluSurf m c s ∨ (s = N ∧ c ∈ f.voluind ∧ HasVolu m c) := by
  obtain ⟨h1, h2⟩ := pushed_mem hv
  unfold VoluSurf splitMesh
  constructor
  · rintro ⟨y, hy, rfl, hs⟩
    obtain ⟨x, hx, hxi, hxs⟩ := h2 y hy
    rcases (hxs s).1 hs with h | ⟨h, h'⟩
    · exact Or.inl ⟨x, hx, hxi.symm, h⟩
    · exact Or.inr ⟨h, by rw [hxi]; exact h', x, hx, hxi.symm⟩
  · rintro (⟨x, hx, rfl, hs⟩ | ⟨hs, hc, x, hx, rfl⟩)
    · obtain ⟨y, hy, hyi, hys⟩ := h1 x hx
      exact ⟨y, hy, hyi, (hys s).2 (Or.inl hs)⟩
    · obtain ⟨y, hy, hyi, hys⟩ := h1 x hx
      exact ⟨y, hy, hyi, (hys s).2 (Or.inr ⟨hs, hc⟩)⟩

theorem split_sound (hm : Sound m) (hf : f ∈ m.surfs) (hN : ∀ g ∈ m.surfs, g.index < N) (hN0 : 0 < N)
    (hmem : ∀ e, e ∈ f.edgeind ↔ e ∈ r ∨ e ∈ rest) (hdis : ∀ e ∈ rest, e ∉ r) (hl : ∀ e, e ∈ l ↔ e ∈ rest)
    (hv : Pushed N f.voluind m.volus volus) : Sound (splitMesh m f N r rest l volus) := by
  have hNs : ∀ s, HasSurf m s → s ≠ N := by
    rintro s ⟨g, hg, rfl⟩
    have := hN g hg
    omega
  have hNe : ∀ e, ¬ EdgeSurf m e N := fun e h => hNs N (hm.noDangling.edgeSurf e N h (by omega)) rfl
  have hfe : ∀ e, SurfEdge m f.index e ↔ e ∈ r ∨ e ∈ rest := fun e => by
    rw [← hmem]
    constructor
    · rintro ⟨g, hg, hi, he⟩
      rwa [inj_of_nodup hm.unique.surfs hg hf hi] at he
    · exact fun h => ⟨f, hf, rfl, h⟩
  have hfp : f.index ≠ 0 := by
    have := hm.pos.surfs f.index ⟨f, hf, rfl⟩
    omega
  refine sound_mk ?_ ?_ ?_ ?_ ?_
  · refine ⟨hm.unique.verts, by rw [split_edges]; exact hm.unique.edges, ?_, by
      show (volus.map Volu.index).Nodup; rw [pushed_index hv]; exact hm.unique.volus⟩
    rw [split_surfs]
    refine List.nodup_append'.2 ⟨hm.unique.surfs, by simp, fun a ha ha' => ?_⟩
    obtain ⟨g, hg, rfl⟩ := List.mem_map.1 ha
    simp only [List.mem_cons, List.not_mem_nil, or_false] at ha'
    exact hNs _ ⟨g, hg, rfl⟩ ha'
  · refine ⟨hm.pos.verts, ?_, ?_, ?_⟩
    · rintro k ⟨x, hx, rfl⟩
      have : x.index ∈ m.edges.map Edge.index := split_edges (m := m) ▸ List.mem_map.2 ⟨x, hx, rfl⟩
      obtain ⟨y, hy, hyi⟩ := List.mem_map.1 this
      exact hm.pos.edges _ ⟨y, hy, hyi⟩
    · rintro k ⟨x, hx, rfl⟩
      have : x.index ∈ m.surfs.map Surf.index ++ [N] := split_surfs (m := m) ▸ List.mem_map.2 ⟨x, hx, rfl⟩
      rcases List.mem_append.1 this with this | this
      · obtain ⟨y, hy, hyi⟩ := List.mem_map.1 this
        exact hm.pos.surfs _ ⟨y, hy, hyi⟩
      · simp only [List.mem_cons, List.not_mem_nil, or_false] at this
        omega
    · rintro k ⟨x, hx, rfl⟩
      obtain ⟨y, hy, hyi, -⟩ := (pushed_mem hv).2 x hx
      exact hm.pos.volus _ ⟨y, hy, hyi.symm⟩
  · intro v e
    rw [split_edgeVert, ← FaceFan.sound_ve hm]
    rfl
  · intro e s
    rw [split_surfEdge hf, split_edgeSurf, hl]
    have hs := FaceFan.sound_es hm e s
    have hs' := FaceFan.sound_es hm e f.index
    have h3 := hfe e
    have h4 := hdis e
    have h5 := hNe e
    have h6 := hNs f.index ⟨f, hf, rfl⟩
    by_cases hsN : s = N
    · subst hsN
      have h7 : ¬ SurfEdge m s e := fun h => h5 (hs.1 h).1
      have : s ≠ 0 := by omega
      tauto
    · by_cases hsf : s = f.index
      · subst hsf
        tauto
      · tauto
  · intro s c
    rw [split_voluSurf hv, split_surfVolu hm hf, FaceFan.sound_sc hm]
    constructor
    · rintro (⟨h1, h2⟩ | ⟨h1, h2, h3⟩)
      · exact ⟨Or.inr h1, h2⟩
      · have := hm.pos.volus c h3
        exact ⟨Or.inl ⟨h1, h2⟩, by omega⟩
    · rintro ⟨⟨h1, h2⟩ | h1, h3⟩
      · exact Or.inr ⟨h1, h2, hm.noDangling.surfVolu f.index c ⟨f, hf, rfl, h2⟩ h3⟩
      · exact Or.inl ⟨h1, h3⟩

theorem split_by (hm : Sound m) (hf : f ∈ m.surfs) (hN : ∀ g ∈ m.surfs, g.index < N)
    (hmem : ∀ e, e ∈ f.edgeind ↔ e ∈ r ∨ e ∈ rest) (hdis : ∀ e ∈ rest, e ∉ r) (hl : ∀ e, e ∈ l ↔ e ∈ rest)
    (hv : Pushed N f.voluind m.volus volus) :
    SplitBy m (splitMesh m f N r rest l volus) (fun s => if s = N then f.index else s) := by
  have hNf : ∀ a ∈ m.surfs, a.index ≠ N := fun a ha => by have := hN a ha; omega
  have hcases : ∀ g ∈ (splitMesh m f N r rest l volus).surfs, (g = { f with index := N, edgeind := l }) ∨
      (g = { f with edgeind := r }) ∨ (g ∈ m.surfs ∧ g.index ≠ f.index) := by
    intro g hg
    rcases List.mem_append.1 hg with hg | hg
    · obtain ⟨a, ha, rfl⟩ := List.mem_map.1 hg
      by_cases h : a.index = f.index
      · have := inj_of_nodup hm.unique.surfs ha hf h
        subst this
        exact Or.inr (Or.inl (if_pos rfl))
      · refine Or.inr (Or.inr ?_)
        simp only [if_neg h]
        exact ⟨ha, h⟩
    · exact Or.inl (by simpa using hg)
  have hin1 : ({ f with index := N, edgeind := l } : Surf) ∈ (splitMesh m f N r rest l volus).surfs :=
    List.mem_append_right _ (by simp)
  have hin2 : ({ f with edgeind := r } : Surf) ∈ (splitMesh m f N r rest l volus).surfs :=
    List.mem_append_left _ (List.mem_map.2 ⟨f, hf, if_pos rfl⟩)
  have hin3 : ∀ a ∈ m.surfs, a.index ≠ f.index → a ∈ (splitMesh m f N r rest l volus).surfs := fun a ha h =>
    List.mem_append_left _ (List.mem_map.2 ⟨a, ha, if_neg h⟩)
  refine ⟨rfl, ?_, ?_, rfl, ?_, ?_, ?_, ?_⟩
  · show List.Forall₂ _ m.edges (m.edges.map _)
    refine ForceClose.forall₂_map_right fun x _ => ?_
    split
    · exact ⟨_, rfl⟩
    · exact ⟨_, rfl⟩
  · show List.Forall₂ _ m.volus volus
    exact hv.imp fun x y h => by obtain ⟨l, rfl, -⟩ := h; exact ⟨l, rfl⟩
  · rintro s ⟨a, ha, rfl⟩
    refine ⟨?_, if_neg (hNf a ha)⟩
    by_cases h : a.index = f.index
    · exact ⟨_, hin2, h.symm⟩
    · exact ⟨a, hin3 a ha h, rfl⟩
  · intro g hg
    rcases hcases g hg with rfl | rfl | ⟨h1, h2⟩
    · exact ⟨f, hf, (if_pos rfl).symm, rfl⟩
    · exact ⟨f, hf, (if_neg (hNf f hf)).symm, rfl⟩
    · exact ⟨g, h1, (if_neg (hNf g h1)).symm, rfl⟩
  · intro a ha e
    by_cases h : a.index = f.index
    · have := inj_of_nodup hm.unique.surfs ha hf h
      subst this
      rw [hmem]
      constructor
      · rintro (h1 | h1)
        · exact ⟨_, hin2, if_neg (hNf a ha), h1⟩
        · exact ⟨_, hin1, if_pos rfl, (hl e).2 h1⟩
      · rintro ⟨g, hg, h1, h2⟩
        rcases hcases g hg with rfl | rfl | ⟨h3, h4⟩
        · exact Or.inr ((hl e).1 h2)
        · exact Or.inl h2
        · rw [if_neg (hNf g h3)] at h1
          exact absurd h1 h4
    · constructor
      · exact fun h1 => ⟨a, hin3 a ha h, if_neg (hNf a ha), h1⟩
      · rintro ⟨g, hg, h1, h2⟩
        rcases hcases g hg with rfl | rfl | ⟨h3, h4⟩
        · rw [if_pos rfl] at h1
          exact absurd h1.symm h
        · rw [if_neg (hNf f hf)] at h1
          exact absurd h1.symm h
        · rw [if_neg (hNf g h3)] at h1
          rwa [inj_of_nodup hm.unique.surfs h3 ha h1] at h2
  · intro g hg h hh hgh e he he'
    have hNff := hNf f hf
    rcases hcases g hg with rfl | rfl | ⟨h3, h4⟩ <;> rcases hcases h hh with rfl | rfl | ⟨h5, h6⟩
    · rfl
    · exact absurd he' (hdis e ((hl e).1 he))
    · simp only [if_true, if_neg (hNf h h5)] at hgh
      exact absurd hgh.symm h6
    · exact absurd he (hdis e ((hl e).1 he'))
    · rfl
    · simp only [if_neg hNff, if_neg (hNf h h5)] at hgh
      exact absurd hgh.symm h6
    · simp only [if_true, if_neg (hNf g h3)] at hgh
      exact absurd hgh h4
    · simp only [if_neg hNff, if_neg (hNf g h3)] at hgh
      exact absurd hgh h4
    · simp only [if_neg (hNf g h3), if_neg (hNf h h5)] at hgh
      exact inj_of_nodup hm.unique.surfs h3 h5 hgh

end

theorem switch_of {m : Mesh} {old new : Int} {scope : List Int} {s : List Surf × List Edge} {g : Surf} {volus : List Volu}
    (h1 : (posList Edge.index m.edges scope).foldlM (m := Except Fault)
      (scopeStep old new (posOf Surf.index m.surfs old) (posOf Surf.index m.surfs new)) (m.surfs, m.edges) = .ok s)
    (h2 : elemAt s.1 (posOf Surf.index s.1 new) = .ok g) (h3 : g.voluind.foldlM (m := Except Fault) (scopeVolu new) m.volus = .ok volus) :
    switchSurfScope m old new scope = .ok { m with surfs := s.1, edges := s.2, volus := volus } := by
  unfold switchSurfScope
  rw [h1]
  show Except.bind (elemAt s.1 _) _ = _
  rw [h2]
  show Except.map _ (List.foldlM (m := Except Fault) _ _ g.voluind) = _
  rw [h3]
  rfl

theorem split_run {m : Mesh} (hm : Sound m) {i : Nat} (hi : i < m.surfs.length) {N : Int} (hN : ∀ g ∈ m.surfs, g.index < N)
    {r rest : List Int} (hmem : ∀ e, e ∈ m.surfs[i].edgeind ↔ e ∈ r ∨ e ∈ rest) (hdis : ∀ e ∈ rest, e ∉ r) (hr : rest.Nodup) :
    ∃ l volus, (∀ e, e ∈ l ↔ e ∈ rest) ∧ Pushed N m.surfs[i].voluind m.volus volus ∧
      switchSurfScope { m with surfs := (m.surfs.modify i fun f => { f with edgeind := r }) ++
        [{ m.surfs[i] with index := N, edgeind := rest }] } m.surfs[i].index N rest = .ok (splitMesh m m.surfs[i] N r rest l volus) := by
  have hf : m.surfs[i] ∈ m.surfs := List.getElem_mem _
  have hmod := modify_map hm.unique.surfs hi fun f => { f with edgeind := r }
  rw [hmod]
  generalize hg : m.surfs[i] = f at *
  have hNf : ∀ a ∈ m.surfs, a.index ≠ N := fun a ha => by have := hN a ha; omega
  have hsi := split_surfs (m := m) (f := f) (N := N) (r := r) (rest := rest) (l := rest) (volus := [])
  obtain ⟨extra, h1, h2⟩ := scope_fold hm hf hNf (r := r) (surfs0 := (splitMesh m f N r rest rest []).surfs) hsi rfl rest [] [] rest
    (by simpa using hr) fun e he => ⟨(hmem e).2 (Or.inr he), hdis e he⟩
  obtain ⟨volus, h3, h4⟩ := push_fold (N := N) (fun volus c hi hc => scopeVolu_ok hm.unique.volus (fun c hc => by
    obtain ⟨x, hx, rfl⟩ := List.mem_map.1 hc
    exact hm.pos.volus _ ⟨x, hx, rfl⟩) hi hc) f.voluind m.volus rfl (fun c hc => by
      by_cases h : c = 0
      · exact Or.inr h
      · obtain ⟨x, hx, rfl⟩ := hm.noDangling.surfVolu f.index c ⟨f, hf, rfl, hc⟩ h
        exact Or.inl (List.mem_map.2 ⟨x, hx, rfl⟩))
  refine ⟨rest ++ extra, volus, fun e => ?_, h4, ?_⟩
  · rw [List.mem_append]
    have := h1 e
    simp only [List.not_mem_nil, false_or] at this
    tauto
  · have h2' : (posList Edge.index m.edges rest).foldlM (m := Except Fault)
        (scopeStep f.index N (posOf Surf.index (splitMesh m f N r rest rest []).surfs f.index)
          (posOf Surf.index (splitMesh m f N r rest rest []).surfs N)) ((splitMesh m f N r rest rest []).surfs, m.edges) =
        .ok ((splitMesh m f N r rest (rest ++ extra) volus).surfs, (splitMesh m f N r rest (rest ++ extra) volus).edges) := by
      simpa [splitMesh] using h2
    obtain ⟨y, g1, g2, g3⟩ := elemAt_posOf_ok (ix := Surf.index) (l := (splitMesh m f N r rest (rest ++ extra) volus).surfs) (k := N)
      ⟨_, List.mem_append_right _ (List.mem_singleton.2 rfl), rfl⟩
    have hsound : ((splitMesh m f N r rest (rest ++ extra) volus).surfs.map Surf.index).Nodup := by
      rw [split_surfs]
      refine List.nodup_append'.2 ⟨hm.unique.surfs, by simp, fun a ha ha' => ?_⟩
      obtain ⟨g, hg, rfl⟩ := List.mem_map.1 ha
      simp only [List.mem_cons, List.not_mem_nil, or_false] at ha'
      exact hNf _ hg ha'
    have hy : y = { f with index := N, edgeind := rest ++ extra } :=
      inj_of_nodup hsound g2 (List.mem_append_right _ (List.mem_singleton.2 rfl)) g3
    subst hy
    exact switch_of (m := { m with surfs := (splitMesh m f N r rest rest []).surfs }) h2' g1 h3

end RSVS.SplitSurf
