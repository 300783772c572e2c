import Verif.Spec.Arrive
import Verif.Props.Spawn
import Mathlib.Tactic.IntervalCases

/-!
# Properties of the snakes spawned where snaxels arrive: C91
-/

namespace RSVS.Props

open RSVS.Spec RSVS.Mesh RSVS.Spawn

variable {K : Type}

private theorem spawn_any [Field K] (m : Mesh) (v : Int) (base : Nat) (hs : Sound m) (h2 : TwoVerts m)
    (ho : OffBorder m v) :
    ∃ n : Snake K, spawnNew m base v = .ok n ∧ n.base = base ∧ n.flipped = false ∧ Sound n.conn ∧ TwoVerts n.conn ∧
      InStep n ∧ DualRing m v n ∧ InsideOnly m v n := by
  rcases ho.cells with ⟨h3, h0⟩ | ⟨h3, hc⟩
  · obtain ⟨n, h1, h2, h3, h4, h5, h6, h7, -, h8⟩ := C90_space (K := K) m v base hs h2 ho.vert ho.ring h3 h0
    exact ⟨n, h1, h2, h3, h4, h5, h6, h7, h8⟩
  · obtain ⟨n, h1, h2, h3, h4, h5, h6, h7, -, h8⟩ := C90_plane (K := K) m v base hs h2 ho.vert ho.ring h3 hc
    exact ⟨n, h1, h2, h3, h4, h5, h6, h7, h8⟩

/-- A snake made of the snakes around the vertices of `P`. -/
private structure PartOf [Field K] (m : Mesh) (base : Nat) (P : Int → Prop) (s : Snake K) : Prop where
  base : s.base = base
  flipped : s.flipped = false
  length : s.vertIn.length = m.verts.length
  step : InStep s
  sound : Sound s.conn
  two : TwoVerts s.conn
  inside : ∀ i, InsideAt s i ↔ ∃ y, m.verts[i]? = some y ∧ P y.index
  values : ∀ x ∈ s.snaxs, x.d = 0 ∧ x.v = 1 / 2
  around : AroundEach m P s.snaxs Snax.fromvert Snax.tovert

private theorem values_of [Field K] {l l' : List (Snax K)}
    (h : l.map (fun x => (x.d, x.v, x.fromvert, x.tovert, x.edgeind)) =
      l'.map fun x => (x.d, x.v, x.fromvert, x.tovert, x.edgeind)) {x : Snax K} (hx : x ∈ l) :
    ∃ y ∈ l', x.d = y.d ∧ x.v = y.v ∧ x.fromvert = y.fromvert ∧ x.tovert = y.tovert ∧ x.edgeind = y.edgeind := by
  have : (x.d, x.v, x.fromvert, x.tovert, x.edgeind) ∈ l'.map fun x => (x.d, x.v, x.fromvert, x.tovert, x.edgeind) :=
    h ▸ List.mem_map.mpr ⟨x, hx, rfl⟩
  obtain ⟨y, hy, e⟩ := List.mem_map.mp this
  simp only [Prod.mk.injEq] at e
  exact ⟨y, hy, e.1.symm, e.2.1.symm, e.2.2.1.symm, e.2.2.2.1.symm, e.2.2.2.2.symm⟩

private theorem near_map [Field K] {l l' : List (Snax K)}
    (h : l.map (fun x => (x.d, x.v, x.fromvert, x.tovert, x.edgeind)) =
      l'.map fun x => (x.d, x.v, x.fromvert, x.tovert, x.edgeind)) :
    (l.map fun x => (x.fromvert, x.edgeind)) = l'.map fun x => (x.fromvert, x.edgeind) := by
  have := congrArg (List.map fun p : K × K × Int × Int × Int => (p.2.2.1, p.2.2.2.2)) h
  simpa [List.map_map, Function.comp_def] using this

private theorem far_map [Field K] {l l' : List (Snax K)}
    (h : l.map (fun x => (x.d, x.v, x.fromvert, x.tovert, x.edgeind)) =
      l'.map fun x => (x.d, x.v, x.fromvert, x.tovert, x.edgeind)) :
    (l.map fun x => (x.tovert, x.edgeind)) = l'.map fun x => (x.tovert, x.edgeind) := by
  have := congrArg (List.map fun p : K × K × Int × Int × Int => (p.2.2.2.1, p.2.2.2.2)) h
  simpa [List.map_map, Function.comp_def] using this

private theorem part_step [Field K] {m : Mesh} {base : Nat} {P : Int → Prop} {s : Snake K} (hs : Sound m)
    (h2 : TwoVerts m) (hp : PartOf m base P s) {u : Int} (ho : OffBorder m u) (hu : ¬ P u) :
    ∃ r, spawnAtVertex s m u = .ok r ∧ PartOf m base (fun x => P x ∨ x = u) r := by
  obtain ⟨n, n1, n2, n3, n4, n5, n6, n7, n8⟩ := spawn_any (K := K) m u s.base hs h2 ho
  obtain ⟨r, r1, r2, r3, -, r4, r5, r6, r7, ⟨new, r8, r9⟩, r10, -⟩ := C90_joined s n m u n1 n2 hp.length hp.step hp.sound
    n6 n4 n8
  refine ⟨r, r1, r5.trans hp.base, r4.trans hp.flipped, r6.trans hp.length, r2, r3, r7 hp.two n5, ?_, ?_, ?_, ?_, ?_⟩
  · intro i
    rw [r10 ?_ i, hp.inside]
    · constructor
      · rintro (⟨y, hy, h⟩ | ⟨y, hy, h⟩)
        · exact ⟨y, hy, .inl h⟩
        · exact ⟨y, hy, .inr h⟩
      · rintro ⟨y, hy, h | h⟩
        · exact .inl ⟨y, hy, h⟩
        · exact .inr ⟨y, hy, h⟩
    · rintro i y hy rfl hi
      obtain ⟨y', hy', h⟩ := (hp.inside i).mp hi
      rw [hy] at hy'; cases hy'
      exact hu h
  · rw [r8]
    intro x hx
    rcases List.mem_append.mp hx with hx | hx
    · exact hp.values x hx
    · obtain ⟨y, hy, h1, h2, -⟩ := values_of r9 hx
      have := n7.start y hy
      exact ⟨h1.trans this.2.1, h2.trans this.2.2⟩
  · rw [r8, List.map_append, near_map r9, List.nodup_append]
    refine ⟨hp.around.once, ?_, ?_⟩
    · have h := n7.onEdges.1
      have : (n.snaxs.map fun x => (x.fromvert, x.edgeind)) = (n.snaxs.map Snax.edgeind).map fun e => (u, e) := by
        rw [List.map_map]
        apply List.map_congr_left
        intro x hx
        simp [(n7.start x hx).1]
      rw [this]
      exact h.map fun a b h => by simpa using h
    · rintro ⟨a, e⟩ ha ⟨b, e'⟩ hb heq
      cases heq
      obtain ⟨hpa, -⟩ := (hp.around.edges a e).mp ha
      obtain ⟨x, hx, h⟩ := List.mem_map.mp hb
      have := (n7.start x hx).1
      simp only [Prod.mk.injEq] at h
      rw [← h.1, this] at hpa
      exact hu hpa
  · intro a e
    rw [r8, List.map_append, List.mem_append, hp.around.edges, near_map r9]
    have : (a, e) ∈ (n.snaxs.map fun x => (x.fromvert, x.edgeind)) ↔ a = u ∧ VertEdge m a e := by
      constructor
      · intro h
        obtain ⟨x, hx, h⟩ := List.mem_map.mp h
        simp only [Prod.mk.injEq] at h
        have h' : a = u := h.1.symm.trans (n7.start x hx).1
        refine ⟨h', ?_⟩
        rw [h']
        exact (n7.onEdges.2 e).mp (List.mem_map.mpr ⟨x, hx, h.2⟩)
      · rintro ⟨rfl, he⟩
        obtain ⟨x, hx, h⟩ := List.mem_map.mp ((n7.onEdges.2 e).mpr he)
        exact List.mem_map.mpr ⟨x, hx, by simp [h, (n7.start x hx).1]⟩
    rw [this]
    tauto
  · rw [r8]
    intro x hx
    rcases List.mem_append.mp hx with hx | hx
    · exact hp.around.ends x hx
    · obtain ⟨y, hy, -, -, h3, h4, h5⟩ := values_of r9 hx
      obtain ⟨ed, hed, h6, h7⟩ := n7.other y hy
      rw [h3, h4, h5, (n7.start y hy).1]
      exact ⟨ed, hed, h6, h7⟩

private theorem part_empty [Field K] (m : Mesh) (base : Nat) : PartOf (K := K) m base (fun _ => False) (emptySnake m base) := by
  refine ⟨rfl, rfl, by simp [emptySnake], ⟨rfl, rfl, rfl⟩,
    show Sound { verts := [], edges := [], surfs := [], volus := [] } from sound_of_checked (by decide +kernel), ?_, ?_, ?_, ?_, ?_, ?_⟩
  · rintro x hx; cases hx
  · intro i
    simp only [InsideAt, emptySnake, List.getElem?_replicate, and_false, exists_false, iff_false]
    rintro ⟨b, hb, h⟩
    split at hb <;> simp at hb
    subst hb; simp at h
  · rintro x hx; cases hx
  · exact List.nodup_nil
  · intro u e; simp [emptySnake]
  · rintro x hx; cases hx

private theorem part_fold [Field K] {m : Mesh} {base : Nat} (hs : Sound m) (h2 : TwoVerts m) : ∀ (l : List Int)
    {P : Int → Prop} {s : Snake K}, PartOf m base P s → l.Nodup → (∀ u ∈ l, OffBorder m u ∧ ¬ P u) →
    ∃ r, l.foldlM (m := Except Fault) (fun s u => spawnAtVertex s m u) s = .ok r ∧
      PartOf m base (fun x => P x ∨ x ∈ l) r
  | [], P, s, hp, _, _ => ⟨s, rfl, by simpa using hp⟩
  | u :: l, P, s, hp, hn, h => by
    obtain ⟨r, hr, hp'⟩ := part_step hs h2 hp (h u (by simp)).1 (h u (by simp)).2
    obtain ⟨q, hq, hpq⟩ := part_fold hs h2 l hp' (List.nodup_cons.mp hn).2 (by
      intro x hx
      refine ⟨(h x (by simp [hx])).1, ?_⟩
      rintro (hpx | rfl)
      · exact (h x (by simp [hx])).2 hpx
      · exact (List.nodup_cons.mp hn).1 hx)
    refine ⟨q, ?_, ?_⟩
    · rw [List.foldlM_cons, hr]
      exact hq
    · have : (fun x => (P x ∨ x = u) ∨ x ∈ l) = fun x => P x ∨ x ∈ u :: l := by
        funext x; simp [or_assoc]
      rwa [this] at hpq

/-- The lists of `arrivedLoop`. -/
private theorem arrivedLoop_ok {m : Mesh} {snaxs : List (Snax K)} {dir : Int} (hn : (snaxs.map Snax.index).Nodup)
    (hu : (m.verts.map Vert.index).Nodup) (hv : ∀ s ∈ snaxs, HasVert m (arrivedAt dir s)) : ∀ (l : Impacts),
    (∀ p ∈ l, p.2 = dir → ∃ s ∈ snaxs, s.index = p.1) →
    ∃ r, arrivedLoop snaxs m dir l = .ok r ∧
      (∀ u, u ∈ r.1 ↔ ∃ s ∈ snaxs, (s.index, dir) ∈ l ∧ arrivedAt dir s = u ∧ ∃ x ∈ m.verts, x.index = u ∧ x.isBorder = false) ∧
      (∀ a, a ∈ r.2 ↔ ∃ s ∈ snaxs, (s.index, dir) ∈ l ∧ s.index = a ∧
        ∃ x ∈ m.verts, x.index = arrivedAt dir s ∧ x.isBorder = true)
  | [], _ => ⟨([], []), rfl, by simp, by simp⟩
  | (a, b) :: l, h => by
    obtain ⟨r, hr, h1, h2⟩ := arrivedLoop_ok hn hu hv l fun p hp => h p (by simp [hp])
    unfold arrivedLoop
    by_cases hb : b = dir
    · subst hb
      obtain ⟨s, hs, hsm, hsi⟩ := isearch_ok (ix := Snax.index) (h (a, b) (by simp) rfl)
      obtain ⟨x, hx, hxm, hxi⟩ := isearch_ok (ix := Vert.index) (hv s hsm)
      have same : ∀ s' ∈ snaxs, s'.index = a → s' = s := fun s' hs' e => inj_of_nodup hn hs' hsm (e.trans hsi.symm)
      have samev : ∀ x' ∈ m.verts, x'.index = arrivedAt b s → x' = x :=
        fun x' hx' e => inj_of_nodup hu hx' hxm (e.trans hxi.symm)
      rw [if_pos rfl, hs]
      simp only [Except.bind]
      rw [hx, hr]
      refine ⟨_, rfl, ?_, ?_⟩
      · intro u
        by_cases hbd : x.isBorder = true
        · simp only [hbd, if_true]
          rw [h1]
          constructor
          · rintro ⟨s', hs', hm, hr⟩; exact ⟨s', hs', by simp [hm], hr⟩
          · rintro ⟨s', hs', hm, hat, x', hx', hi, hf⟩
            rcases List.mem_cons.mp hm with hm | hm
            · simp only [Prod.mk.injEq] at hm
              have := same s' hs' hm.1
              subst this
              rw [samev x' hx' (hi.trans hat.symm), hbd] at hf
              cases hf
            · exact ⟨s', hs', hm, hat, x', hx', hi, hf⟩
        · simp only [hbd, Bool.false_eq_true, if_false, List.mem_cons]
          rw [h1]
          constructor
          · rintro (rfl | ⟨s', hs', hm, hr⟩)
            · exact ⟨s, hsm, by simp [hsi], rfl, x, hxm, hxi, by simpa using hbd⟩
            · exact ⟨s', hs', by simp [hm], hr⟩
          · rintro ⟨s', hs', hm, hat, hr⟩
            rcases hm with hm | hm
            · simp only [Prod.mk.injEq] at hm
              rw [same s' hs' hm.1] at hat
              exact .inl hat.symm
            · exact .inr ⟨s', hs', hm, hat, hr⟩
      · intro c
        by_cases hbd : x.isBorder = true
        · simp only [hbd, if_true, List.mem_cons]
          rw [h2]
          constructor
          · rintro (rfl | ⟨s', hs', hm, hr⟩)
            · exact ⟨s, hsm, by simp [hsi], hsi, x, hxm, hxi, hbd⟩
            · exact ⟨s', hs', by simp [hm], hr⟩
          · rintro ⟨s', hs', hm, hat, hr⟩
            rcases hm with hm | hm
            · simp only [Prod.mk.injEq] at hm
              exact .inl (hat.symm.trans hm.1)
            · exact .inr ⟨s', hs', hm, hat, hr⟩
        · simp only [hbd, Bool.false_eq_true, if_false]
          rw [h2]
          constructor
          · rintro ⟨s', hs', hm, hr⟩; exact ⟨s', hs', by simp [hm], hr⟩
          · rintro ⟨s', hs', hm, hat, x', hx', hi, hf⟩
            rcases List.mem_cons.mp hm with hm | hm
            · simp only [Prod.mk.injEq] at hm
              have := same s' hs' hm.1
              subst this
              rw [samev x' hx' hi] at hf
              exact absurd hf hbd
            · exact ⟨s', hs', hm, hat, x', hx', hi, hf⟩
    · rw [if_neg hb]
      refine ⟨r, hr, fun u => ?_, fun c => ?_⟩
      · rw [h1]
        constructor
        · rintro ⟨s', hs', hm, hr⟩; exact ⟨s', hs', by simp [hm], hr⟩
        · rintro ⟨s', hs', hm, hr⟩
          rcases List.mem_cons.mp hm with hm | hm
          · simp only [Prod.mk.injEq] at hm; exact absurd hm.2.symm hb
          · exact ⟨s', hs', hm, hr⟩
      · rw [h2]
        constructor
        · rintro ⟨s', hs', hm, hr⟩; exact ⟨s', hs', by simp [hm], hr⟩
        · rintro ⟨s', hs', hm, hr⟩
          rcases List.mem_cons.mp hm with hm | hm
          · simp only [Prod.mk.injEq] at hm; exact absurd hm.2.symm hb
          · exact ⟨s', hs', hm, hr⟩

/-- One direction. -/
private theorem dir_ok [Field K] {m : Mesh} {full : Snake K} {impacts : Impacts} {dir : Int} (hs : Sound m)
    (h2 : TwoVerts m) (hb : BordersMarked m) (hn : (full.snaxs.map Snax.index).Nodup)
    (hv : ∀ s ∈ full.snaxs, HasVert m (arrivedAt dir s))
    (hi : ∀ p ∈ impacts, p.2 = dir → ∃ s ∈ full.snaxs, s.index = p.1) (no : List Int) :
    ∃ part fr l, spawnArrivedDir full m impacts dir no = .ok (part, fr, no ++ l) ∧
      (∀ u, u ∈ l ↔ ∃ s ∈ full.snaxs, (s.index, dir) ∈ impacts ∧ arrivedAt dir s = u ∧
        ∃ x ∈ m.verts, x.index = u ∧ x.isBorder = false) ∧
      PartOf m full.base (fun u => u ∈ l ∧ u ∉ no) part ∧
      (∀ a, a ∈ fr ↔ ∃ s ∈ full.snaxs, (s.index, dir) ∈ impacts ∧ s.index = a ∧
        ∃ x ∈ m.verts, x.index = arrivedAt dir s ∧ x.isBorder = true) := by
  obtain ⟨r, hr, h1, h3⟩ := arrivedLoop_ok hn hs.unique.verts hv impacts hi
  obtain ⟨q, hq, hp⟩ := part_fold (K := K) (m := m) (base := full.base) hs h2
    ((sortUnique r.1).filter fun u => !no.contains u) (part_empty m full.base)
    ((Order.nodup_sortUnique _).filter _) (by
      intro u hu
      refine ⟨?_, fun h => h⟩
      obtain ⟨hu, -⟩ := List.mem_filter.mp hu
      rw [mem_sortUnique, h1] at hu
      obtain ⟨s, hs', -, -, x, hx, rfl, hf⟩ := hu
      exact hb x hx hf)
  refine ⟨q, r.2, sortUnique r.1, ?_, fun u => by rw [mem_sortUnique, h1], ?_, h3⟩
  · unfold spawnArrivedDir
    rw [hr]
    simp only [Except.bind]
    rw [hq]
    rfl
  · have : (fun x => False ∨ x ∈ (sortUnique r.1).filter fun u => !no.contains u) =
        fun u => u ∈ sortUnique r.1 ∧ u ∉ no := by
      funext x; simp [List.mem_filter]
    rwa [this] at hp

/-- C91: where snaxels arrive new snakes are made: on each edge of each vertex reached one snaxel, moving away from it on
the far side; snaxels that reach a vertex on the border are frozen; layers and connectivity stay sound.  When some vertex
that no snaxel went back to is inside, and none that snaxels came to is, then the vertices inside lose those that snaxels
went back to and gain those that snaxels came to.  Missing: without the former condition this fails (below). -/
theorem C91_arrived_partial [Field K] (m : Mesh) (full : Snake K) (impacts : Impacts) (hs : Sound m) (h2 : TwoVerts m)
    (hb : BordersMarked m) (hf : InStep full) (hc : Sound full.conn) (h2' : TwoVerts full.conn)
    (hl : full.vertIn.length = m.verts.length) (hv : ∀ s ∈ full.snaxs, HasVert m s.fromvert ∧ HasVert m s.tovert)
    (hi : ∀ p ∈ impacts, p.2 < 0 → ∃ s ∈ full.snaxs, s.index = p.1) :
    ∃ r fr, spawnArrived full m impacts = .ok (r, fr) ∧ InStep r ∧ Sound r.conn ∧ TwoVerts r.conn ∧
      (∀ a, a ∈ fr ↔ ∃ s ∈ full.snaxs, s.index = a ∧ ∃ x ∈ m.verts, x.isBorder = true ∧
        ((x.index = s.fromvert ∧ (a, -1) ∈ impacts) ∨ (x.index = s.tovert ∧ (a, -2) ∈ impacts))) ∧
      (∃ back to_, r.snaxs = full.snaxs ++ back ++ to_ ∧
        AroundEach m (WentBack m full impacts) back Snax.tovert Snax.fromvert ∧
        (∀ x ∈ back, x.d = 1 ∧ x.v = -(1 / 2)) ∧
        AroundEach m (CameTo m full impacts) to_ Snax.fromvert Snax.tovert ∧
        ∀ x ∈ to_, x.d = 0 ∧ x.v = 1 / 2) ∧
      ((∃ i y, m.verts[i]? = some y ∧ InsideAt full i ∧ ¬ WentBack m full impacts y.index) →
        (∀ i y, m.verts[i]? = some y → CameTo m full impacts y.index → ¬ InsideAt full i) →
        ∀ i y, m.verts[i]? = some y →
          (InsideAt r i ↔ (InsideAt full i ∧ ¬ WentBack m full impacts y.index) ∨ CameTo m full impacts y.index)) := by
  have hn : (full.snaxs.map Snax.index).Nodup := by rw [hf.verts]; exact hc.unique.verts
  obtain ⟨pb, frb, lb, b1, b2, b3, b4⟩ := dir_ok (dir := -1) hs h2 hb hn
    (fun s hs' => by simpa [arrivedAt] using (hv s hs').1) (fun p hp e => hi p hp (by omega)) [0]
  obtain ⟨pf, frf, lf, f1, f2, f3, f4⟩ := dir_ok (dir := -2) hs h2 hb hn
    (fun s hs' => by simpa [arrivedAt] using (hv s hs').2) (fun p hp e => hi p hp (by omega)) ([0] ++ lb)
  have hpos : ∀ u, (∃ x ∈ m.verts, x.index = u ∧ x.isBorder = false) → u ≠ 0 := by
    rintro u ⟨x, hx, rfl, -⟩ h
    exact absurd (hs.pos.verts _ ⟨x, hx, h⟩) (by omega)
  have hB : (fun u => u ∈ lb ∧ u ∉ [(0 : Int)]) = WentBack m full impacts := by
    funext u
    rw [b2]
    simp only [arrivedAt, if_pos, List.mem_singleton]
    apply propext
    constructor
    · rintro ⟨h, -⟩; exact h
    · intro h
      refine ⟨h, ?_⟩
      obtain ⟨s, -, -, -, h⟩ := h
      exact hpos u h
  have hlb : ∀ u, u ∈ lb ↔ WentBack m full impacts u := by
    intro u
    rw [b2]
    simp only [arrivedAt, if_pos]
    rfl
  have hF : (fun u => u ∈ lf ∧ u ∉ [(0 : Int)] ++ lb) = CameTo m full impacts := by
    funext u
    rw [f2]
    simp only [arrivedAt, List.mem_append, List.mem_singleton, hlb, show ¬ ((-2 : Int) = -1) by omega, if_false]
    apply propext
    constructor
    · rintro ⟨h, h'⟩; exact ⟨h, fun hw => h' (.inr hw)⟩
    · rintro ⟨h, h'⟩
      refine ⟨h, ?_⟩
      rintro (h0 | hw)
      · obtain ⟨s, -, -, -, h⟩ := h
        exact hpos u h h0
      · exact h' hw
  rw [hB] at b3
  rw [hF] at f3
  have hflip : InStep pb.flip := by
    refine ⟨?_, b3.step.edges, b3.step.surfs⟩
    show (pb.snaxs.map flipSnax).map Snax.index = _
    rw [List.map_map]
    exact b3.step.verts
  obtain ⟨r1, j1, j2, j3, -, j4, j5, j6, j7, ⟨n1, j8, j9⟩, j10, j11⟩ := join_all full pb.flip b3.base.symm
    (hl.trans b3.length.symm) hf hc hflip b3.sound
  obtain ⟨r2, k1, k2, k3, -, k4, k5, k6, k7, ⟨n2, k8, k9⟩, k10, k11⟩ := join_all r1 pf (j5.trans f3.base.symm)
    (j6.trans (hl.trans f3.length.symm)) j2 j3 f3.step f3.sound
  refine ⟨r2, frb ++ frf, ?_, k2, k3, k7 (j7 h2' b3.two) f3.two, ?_, ?_, ?_⟩
  · unfold spawnArrived
    rw [b1]; simp only [Except.bind]
    rw [f1]; simp only
    rw [j1]; simp only
    rw [k1]; rfl
  · intro a
    rw [List.mem_append, b4, f4]
    simp only [arrivedAt, if_pos, show ¬ ((-2 : Int) = -1) by omega, if_false]
    constructor
    · rintro (⟨s, hs', hm, rfl, x, hx, he, hbd⟩ | ⟨s, hs', hm, rfl, x, hx, he, hbd⟩)
      · exact ⟨s, hs', rfl, x, hx, hbd, .inl ⟨he, hm⟩⟩
      · exact ⟨s, hs', rfl, x, hx, hbd, .inr ⟨he, hm⟩⟩
    · rintro ⟨s, hs', rfl, x, hx, hbd, ⟨he, hm⟩ | ⟨he, hm⟩⟩
      · exact .inl ⟨s, hs', hm, rfl, x, hx, he, hbd⟩
      · exact .inr ⟨s, hs', hm, rfl, x, hx, he, hbd⟩
  · refine ⟨n1, n2, by rw [k8, j8], ?_, ?_, ?_, ?_⟩
    · have hm : (pb.flip.snaxs.map fun x => (x.tovert, x.edgeind)) = pb.snaxs.map fun x => (x.fromvert, x.edgeind) := by
        show (pb.snaxs.map flipSnax).map _ = _
        rw [List.map_map]; rfl
      refine ⟨?_, ?_, ?_⟩
      · rw [far_map j9, hm]; exact b3.around.once
      · intro u e; rw [far_map j9, hm]; exact b3.around.edges u e
      · intro x hx
        obtain ⟨y, hy, -, -, h3, h4, h5⟩ := values_of j9 hx
        obtain ⟨z, hz, rfl⟩ := List.mem_map.mp hy
        rw [h3, h4, h5]
        exact b3.around.ends z hz
    · intro x hx
      obtain ⟨y, hy, h1, h2, -⟩ := values_of j9 hx
      obtain ⟨z, hz, rfl⟩ := List.mem_map.mp hy
      rw [h1, h2]
      simp [flipSnax, b3.values z hz]
    · refine ⟨?_, ?_, ?_⟩
      · rw [near_map k9]; exact f3.around.once
      · intro u e; rw [near_map k9]; exact f3.around.edges u e
      · intro x hx
        obtain ⟨y, hy, -, -, h3, h4, h5⟩ := values_of k9 hx
        rw [h3, h4, h5]
        exact f3.around.ends y hy
    · intro x hx
      obtain ⟨y, hy, h1, h2, -⟩ := values_of k9 hx
      rw [h1, h2]; exact f3.values y hy
  · rintro ⟨i0, y0, hy0, hin0, hw0⟩ hnew i y hy
    have hfl : ∀ (i : Nat) (y : Vert), m.verts[i]? = some y → (InsideAt pb.flip i ↔ ¬ WentBack m full impacts y.index) := by
      intro i y hy
      have h1 : InsideAt pb i ↔ WentBack m full impacts y.index := by
        rw [b3.inside]
        constructor
        · rintro ⟨y', hy', h⟩; rw [hy] at hy'; cases hy'; exact h
        · intro h; exact ⟨y, hy, h⟩
      rw [← h1]
      unfold InsideAt
      have hil : i < pb.vertIn.length := by
        rw [b3.length]; exact (List.getElem?_eq_some_iff.mp hy).1
      simp only [Snake.flip, List.getElem?_eq_getElem hil, Option.some.injEq, b3.flipped]
      constructor
      · rintro ⟨b, rfl, hb⟩ ⟨b', rfl, hb'⟩
        simp at hb hb'; rw [hb] at hb'; cases hb'
      · intro h
        refine ⟨_, rfl, ?_⟩
        by_contra hne
        exact h ⟨_, rfl, by simpa using hne⟩
    have hdep : ¬ Independent full pb.flip := fun h => h i0 ⟨hin0, (hfl i0 y0 hy0).mpr hw0⟩
    have h1 : ∀ (i : Nat) (y : Vert), m.verts[i]? = some y →
        (InsideAt r1 i ↔ InsideAt full i ∧ ¬ WentBack m full impacts y.index) := by
      intro i y hy
      rw [j11 hdep i, hfl i y hy]
    have hind : Independent r1 pf := by
      rintro i ⟨ha, hb'⟩
      obtain ⟨y, hy, h⟩ := (f3.inside i).mp hb'
      exact hnew i y hy h ((h1 i y hy).mp ha).1
    rw [k10 hind i, h1 i y hy, f3.inside]
    constructor
    · rintro (h | ⟨y', hy', h⟩)
      · exact .inl h
      · rw [hy] at hy'; cases hy'; exact .inr h
    · rintro (h | h)
      · exact .inl h
      · exact .inr ⟨y, hy, h⟩

/-! ### Examples -/

/-- Three triangles around vertex 4, which is the only one off the border. -/
def markedPlate : Mesh := { plate with verts := plate.verts.map fun x => { x with isBorder := decide (x.index ≠ 4) } }

private theorem markedPlate_ok : Sound markedPlate ∧ TwoVerts markedPlate ∧ BordersMarked markedPlate := by
  refine ⟨sound_of_checked (by decide +kernel), by unfold TwoVerts; decide +kernel, ?_⟩
  have h : ∀ x ∈ markedPlate.verts, x.isBorder = false → x.index = 4 := by decide +kernel
  intro x hx hb
  rw [h x hx hb]
  exact ⟨by unfold HasVert; decide +kernel, ringed_list (by decide +kernel) (by decide +kernel),
    .inr ⟨by decide +kernel, 0, voluAt_list.mpr (by decide +kernel)⟩⟩

/-- A snaxel on its way from vertex 1, which is inside, that arrives at vertex 4. -/
private def arriving : Snake ℚ :=
  { snaxs := [{ index := 1, d := 1, v := 1 / 2, fromvert := 1, tovert := 4, edgeind := 4, orderedge := 1 }], snaxedges := []
    snaxsurfs := [], conn := { verts := [{ index := 1, edgeind := [], coord := [1, 1, 0] }], edges := [], surfs := [], volus := [] }
    base := 0, vertIn := [true, false, false, false], flipped := false }

example : Sound markedPlate ∧ TwoVerts markedPlate ∧ BordersMarked markedPlate ∧ InStep arriving ∧ Sound arriving.conn ∧
    TwoVerts arriving.conn ∧ arriving.vertIn.length = markedPlate.verts.length ∧
    (∀ s ∈ arriving.snaxs, HasVert markedPlate s.fromvert ∧ HasVert markedPlate s.tovert) ∧
    snaxImpactDetection (1 / 1000) arriving.snaxs (fun e => if e = 4 then [0] else []) = .ok [(1, -2)] ∧
    (∃ i y, markedPlate.verts[i]? = some y ∧ InsideAt arriving i ∧ ¬ WentBack markedPlate arriving [(1, -2)] y.index) ∧
    (∀ i y, markedPlate.verts[i]? = some y → CameTo markedPlate arriving [(1, -2)] y.index → ¬ InsideAt arriving i) ∧
    CameTo markedPlate arriving [(1, -2)] 4 ∧
    (spawnArrived arriving markedPlate [(1, -2)]).toOption.map (fun r => (r.1.vertIn, r.1.snaxs.map Snax.edgeind)) =
      some ([true, false, false, true], [4, 4, 5, 6]) := by
  have hno : ∀ u, ¬ WentBack markedPlate arriving [(1, -2)] u := by
    rintro u ⟨a, -, h, -⟩
    simp at h
  refine ⟨markedPlate_ok.1, markedPlate_ok.2.1, markedPlate_ok.2.2, ⟨rfl, rfl, rfl⟩, sound_of_checked (by decide +kernel),
    by unfold TwoVerts; decide +kernel, by decide +kernel, by unfold HasVert; decide +kernel, by decide +kernel,
    ⟨0, _, rfl, ⟨true, rfl, rfl⟩, hno _⟩, ?_, ⟨⟨_, List.mem_singleton.mpr rfl, by decide +kernel, rfl, by decide +kernel⟩, hno _⟩,
    by decide +kernel⟩
  rintro i y hy ⟨⟨a, ha, -, hto, -⟩, -⟩ ⟨b, hb, hb'⟩
  cases List.mem_singleton.mp ha
  have h : ∀ i < 4, ∀ y, markedPlate.verts[i]? = some y → 4 = y.index → i = 3 := by
    intro i hi
    have h3 : ∀ i < 4, ∀ y ∈ markedPlate.verts[i]?, 4 = y.index → i = 3 := by decide +kernel
    intro y hy; exact h3 i hi y hy
  have hi : i < 4 := (List.getElem?_eq_some_iff.mp hy).1
  have := h i hi y hy hto
  subst this
  have : b = false := (Option.some.inj hb).symm
  subst this
  cases hb'

/-- A snake around vertex 4 whose snaxels go back to it. -/
def shrinking : Snake ℚ :=
  { snaxs := [{ index := 1, d := 0, v := -1, fromvert := 4, tovert := 1, edgeind := 4, orderedge := 1 },
      { index := 2, d := 0, v := -1, fromvert := 4, tovert := 2, edgeind := 5, orderedge := 1 },
      { index := 3, d := 0, v := -1, fromvert := 4, tovert := 3, edgeind := 6, orderedge := 1 }]
    snaxedges := [⟨1, 1⟩, ⟨2, 2⟩, ⟨3, 3⟩], snaxsurfs := [⟨1, 0⟩]
    conn := {
      verts := [{ index := 1, edgeind := [1, 3], coord := [1, 1, 0] }, { index := 2, edgeind := [1, 2], coord := [1, 1, 0] },
        { index := 3, edgeind := [2, 3], coord := [1, 1, 0] }]
      edges := [{ index := 1, vertind := [1, 2], surfind := [1, 0] }, { index := 2, vertind := [2, 3], surfind := [1, 0] },
        { index := 3, vertind := [1, 3], surfind := [1, 0] }]
      surfs := [{ index := 1, edgeind := [1, 2, 3], voluind := [0, 0] }], volus := [] }
    base := 0, vertIn := [false, false, false, true], flipped := false }

/-- C91 violated: when all the vertices inside are left at once, every vertex of the mesh is taken to be inside. -/
theorem C91_violated : ∃ (m : Mesh) (full r : Snake ℚ) (impacts : Impacts) (subs : Int → List Nat) (fr : List Int),
    Sound m ∧ TwoVerts m ∧ BordersMarked m ∧ InStep full ∧ Sound full.conn ∧ TwoVerts full.conn ∧
    full.vertIn.length = m.verts.length ∧ (∀ s ∈ full.snaxs, HasVert m s.fromvert ∧ HasVert m s.tovert) ∧
    snaxImpactDetection (1 / 1000) full.snaxs subs = .ok impacts ∧ spawnArrived full m impacts = .ok (r, fr) ∧
    (∀ i y, m.verts[i]? = some y → InsideAt full i → WentBack m full impacts y.index) ∧
    (∀ u, ¬ CameTo m full impacts u) ∧ ∀ i < m.verts.length, InsideAt r i := by
  have h : ∃ r, spawnArrived shrinking markedPlate [(1, -1), (2, -1), (3, -1)] = .ok r ∧
      r.1.vertIn = [true, true, true, true] ∧ r.1.flipped = false := by
    have h : (spawnArrived shrinking markedPlate [(1, -1), (2, -1), (3, -1)]).toOption.map
        (fun r => (r.1.vertIn, r.1.flipped)) = some ([true, true, true, true], false) := by decide +kernel
    cases hr : spawnArrived shrinking markedPlate [(1, -1), (2, -1), (3, -1)] with
    | error e => rw [hr] at h; cases h
    | ok r =>
      rw [hr] at h
      have h := Option.some.inj h
      simp only [Prod.mk.injEq] at h
      exact ⟨r, rfl, h.1, h.2⟩
  obtain ⟨⟨r, fr⟩, hr, hin, hfl⟩ := h
  refine ⟨markedPlate, shrinking, r, [(1, -1), (2, -1), (3, -1)],
    (fun e => if e = 4 then [0] else if e = 5 then [1] else if e = 6 then [2] else []), fr, markedPlate_ok.1, markedPlate_ok.2.1,
    markedPlate_ok.2.2, ⟨rfl, rfl, rfl⟩, sound_of_checked (by decide +kernel), by unfold TwoVerts; decide +kernel,
    by decide +kernel, by unfold HasVert; decide +kernel, by decide +kernel, hr, ?_, ?_, ?_⟩
  · rintro i y hy ⟨b, hb, hb'⟩
    have hi : i < 4 := (List.getElem?_eq_some_iff.mp hy).1
    have h3 : ∀ i < 4, ∀ b ∈ shrinking.vertIn[i]?, (b ^^ shrinking.flipped) = true → i = 3 := by decide +kernel
    have := h3 i hi b hb hb'
    subst this
    have h4 : ∀ y ∈ markedPlate.verts[3]?, y.index = 4 ∧ y ∈ markedPlate.verts ∧ y.isBorder = false := by decide +kernel
    obtain ⟨e, hm, hbd⟩ := h4 y hy
    rw [e]
    exact ⟨_, List.mem_cons_self, by decide +kernel, rfl, y, hm, e, hbd⟩
  · rintro u ⟨⟨a, -, h, -⟩, -⟩
    simp at h
  · intro i hi
    have hi : i < 4 := hi
    unfold InsideAt
    rw [show r.vertIn = [true, true, true, true] from hin, show r.flipped = false from hfl]
    exact ⟨true, by interval_cases i <;> rfl, rfl⟩

end RSVS.Props
