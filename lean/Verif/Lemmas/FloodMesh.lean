import Verif.Lemmas.Flood
import Verif.Lemmas.MeshDetach
import Verif.Spec.Flood

/-!
# The flood fills on meshes
-/

namespace RSVS

open RSVS.Spec

theorem mapM_ok_of {α β : Type} {f : α → Res β} :
    ∀ {l : List α}, (∀ x ∈ l, ∃ y, f x = .ok y) →
      ∃ ys, l.mapM f = .ok ys ∧ ∀ y, y ∈ ys ↔ ∃ x ∈ l, f x = .ok y := by
  intro l
  induction l with
  | nil => intro _; exact ⟨[], rfl, by simp⟩
  | cons a l ih =>
    intro h
    obtain ⟨y, hy⟩ := h a (by simp)
    obtain ⟨ys, h1, h2⟩ := ih (fun x hx => h x (by simp [hx]))
    refine ⟨y :: ys, ?_, ?_⟩
    · rw [List.mapM_cons, hy, h1]; rfl
    · intro z
      simp only [List.mem_cons, h2]
      constructor
      · rintro (rfl | ⟨x, hx, hz⟩)
        · exact ⟨a, Or.inl rfl, hy⟩
        · exact ⟨x, Or.inr hx, hz⟩
      · rintro ⟨x, rfl | hx, hz⟩
        · left; rw [hy] at hz; cases hz; rfl
        · exact Or.inr ⟨x, hx, hz⟩

/-- Positions and indices: connection by positions is connection by indices. -/
theorem conn_transfer {nbrs : Nat → Res (List Nat)} {n : Nat} {pre : Nat → Bool}
    {ids : List Int} (hnd : ids.Nodup) {Step : Int → Int → Prop}
    (h1 : ∀ u w a b, ids[u]? = some a → ids[w]? = some b → FloodAdj nbrs n pre u w → Step a b)
    (h0 : ∀ u w, FloodAdj nbrs n pre u w → w < ids.length)
    (h2 : ∀ a b, Step a b → ∃ (u w : Nat), ids[u]? = some a ∧ ids[w]? = some b ∧
      (u = w ∨ FloodAdj nbrs n pre u w))
    {u w : Nat} {a b : Int} (hu : ids[u]? = some a) (hw : ids[w]? = some b) :
    FloodConn nbrs n pre u w ↔ Relation.ReflTransGen Step a b := by
  have hinj : ∀ (i j : Nat) (x : Int), ids[i]? = some x → ids[j]? = some x → i = j := by
    intro i j x hi hj
    obtain ⟨hi', hi⟩ := List.getElem?_eq_some_iff.mp hi
    obtain ⟨hj', hj⟩ := List.getElem?_eq_some_iff.mp hj
    exact (List.Nodup.getElem_inj_iff hnd).mp (hi.trans hj.symm)
  constructor
  · intro h
    induction h generalizing b with
    | refl => rw [hu] at hw; cases hw; exact Relation.ReflTransGen.refl
    | @tail x y hx hxy ih =>
      have hxl : x < ids.length := by
        rcases Relation.ReflTransGen.cases_tail hx with rfl | ⟨z, _, hz⟩
        · exact (List.getElem?_eq_some_iff.mp hu).1
        · exact h0 _ _ hz
      have hxs : ids[x]? = some ids[x] := List.getElem?_eq_getElem hxl
      exact Relation.ReflTransGen.tail (ih hxs) (h1 x y _ _ hxs hw hxy)
  · intro h
    induction h generalizing w with
    | refl => rw [hinj u w a hu hw]; exact Relation.ReflTransGen.refl
    | @tail x y hx hxy ih =>
      obtain ⟨u', w', hu', hw', hc⟩ := h2 x y hxy
      have hww := hinj w' w y hw' hw
      have h3 := ih hu'
      rcases hc with hc | hc
      · rw [← hww, ← hc]; exact h3
      · rw [← hww]; exact Relation.ReflTransGen.tail h3 hc

namespace Mesh

theorem two_cases {l : List Int} (h : l.length = 2) : ∃ a b, l = [a, b] := by
  match l, h with
  | [a, b], _ => exact ⟨a, b, rfl⟩

/-- The other end of an edge in a sound mesh. -/
theorem otherVert_ok {m : Mesh} (hm : Sound m) (h2 : TwoVerts m) {v e : Int}
    (hve : VertEdge m v e) :
    ∃ q, m.otherVert v e = .ok q ∧ ∃ h : q < m.verts.length,
      EdgeVert m e (m.verts[q].index) ∧ EdgeVert m e v ∧
      ∀ b, EdgeVert m e b → b = v ∨ b = m.verts[q].index := by
  have he : HasEdge m e := by
    apply hm.noDangling.vertEdge v e hve
    rintro rfl
    exact hm.zeroOutside.vertEdge v hve
  have hv : HasVert m v := by obtain ⟨x, hx, hi, _⟩ := hve; exact ⟨x, hx, hi⟩
  have hev : EdgeVert m e v := (hm.sym.vertEdge v e hv he).mp hve
  obtain ⟨x, hxe, hx, hxi⟩ := elemAt_posOf_ok (ix := Edge.index) he
  have huniq : ∀ b, EdgeVert m e b → b ∈ x.vertind := by
    rintro b ⟨y, hy, hyi, hb⟩
    have : y = x := inj_of_nodup hm.unique.edges hy hx (by rw [hyi, hxi])
    rw [← this]; exact hb
  obtain ⟨a, b, hab⟩ := two_cases (h2 x hx)
  have hva := huniq v hev
  rw [hab] at hva
  have key : ∀ c, c ∈ x.vertind → (∀ d, d ∈ x.vertind → d = v ∨ d = c) →
      vecGet x.vertind (if a = v then 1 else 0) = .ok c →
      ∃ q, m.otherVert v e = .ok q ∧ ∃ h : q < m.verts.length,
        EdgeVert m e (m.verts[q].index) ∧ EdgeVert m e v ∧
        ∀ b, EdgeVert m e b → b = v ∨ b = m.verts[q].index := by
    intro c hc hcd hget
    have hec : EdgeVert m e c := ⟨x, hx, hxi, hc⟩
    have hc0 : c ≠ 0 := by rintro rfl; exact hm.zeroOutside.edgeVert e hec
    obtain ⟨p, hp, hpl, hpi⟩ := posOf_mem (ix := Vert.index) (hm.noDangling.edgeVert e c hec hc0)
    refine ⟨p, ?_, hpl, by rw [hpi]; exact hec, hev, ?_⟩
    · unfold otherVert
      show (isearch Edge.index m.edges e >>= _) = _
      unfold isearch
      rw [hxe]
      show (vecGet x.vertind 0 >>= _) = _
      have h0 : vecGet x.vertind 0 = .ok a := by rw [hab]; rfl
      rw [h0]
      show (vecGet x.vertind (if a = v then 1 else 0) >>= _) = _
      rw [hget]
      show (if posOf Vert.index m.verts c = -1 then _ else _) = _
      rw [if_neg (by rw [hp]; omega), hp]
      simp
      rfl
    · intro b hb
      rw [hpi]
      exact hcd b (huniq b hb)
  by_cases hav : a = v
  · refine key b (by rw [hab]; simp) ?_ ?_
    · intro d hd; rw [hab] at hd; simp at hd; rw [← hav]; exact hd
    · rw [if_pos hav, hab]; rfl
  · have hbv : v = b := by
      simp at hva
      rcases hva with h | h
      · exact absurd h.symm hav
      · exact h
    refine key a (by rw [hab]; simp) ?_ ?_
    · intro d hd; rw [hab] at hd; simp at hd; rw [hbv]; exact hd.symm
    · rw [if_neg hav, hab]; rfl

/-- What is pushed from a vertex, following only the edges in `keep`. -/
theorem pushed_ok {m : Mesh} (hm : Sound m) (h2 : TwoVerts m) (keep : Int → Bool) {q : Nat}
    (hq : q < m.verts.length) :
    ∃ l, ((m.verts[q].edgeind.filter keep).mapM (m.otherVert m.verts[q].index)) = .ok l ∧
      (∀ w ∈ l, w < m.verts.length) ∧
      (∀ w ∈ l, ∀ h : w < m.verts.length, ∃ e, keep e = true ∧ EdgeVert m e m.verts[q].index ∧
        EdgeVert m e m.verts[w].index) ∧
      (∀ e b, keep e = true → EdgeVert m e m.verts[q].index → EdgeVert m e b →
        b = m.verts[q].index ∨ ∃ w ∈ l, ∃ h : w < m.verts.length, m.verts[w].index = b) := by
  have hve : ∀ e ∈ m.verts[q].edgeind, VertEdge m m.verts[q].index e :=
    fun e he => ⟨_, List.getElem_mem hq, rfl, he⟩
  obtain ⟨l, h1, h3⟩ := mapM_ok_of (f := m.otherVert m.verts[q].index)
    (l := m.verts[q].edgeind.filter keep) (by
      intro e he
      obtain ⟨w, hw, _⟩ := otherVert_ok hm h2 (hve e (List.mem_of_mem_filter he))
      exact ⟨w, hw⟩)
  refine ⟨l, h1, ?_, ?_, ?_⟩
  · intro w hw
    obtain ⟨e, he, hew⟩ := (h3 w).mp hw
    obtain ⟨w', hw', hl, _⟩ := otherVert_ok hm h2 (hve e (List.mem_of_mem_filter he))
    rw [hew] at hw'; cases hw'; exact hl
  · intro w hw _
    obtain ⟨e, he, hew⟩ := (h3 w).mp hw
    obtain ⟨w', hw', hl, ha, hb, _⟩ := otherVert_ok hm h2 (hve e (List.mem_of_mem_filter he))
    rw [hew] at hw'; cases hw'
    exact ⟨e, (List.mem_filter.mp he).2, hb, ha⟩
  · intro e b hk hea heb
    have hE : HasEdge m e := by obtain ⟨x, hx, hi, _⟩ := hea; exact ⟨x, hx, hi⟩
    have hvv : VertEdge m m.verts[q].index e :=
      (hm.sym.vertEdge _ e ⟨_, List.getElem_mem hq, rfl⟩ hE).mpr hea
    obtain ⟨y, hy, hyi, hye⟩ := id hvv
    have : y = m.verts[q] := inj_of_nodup hm.unique.verts hy (List.getElem_mem hq) hyi
    rw [this] at hye
    obtain ⟨w, hw, hl, _, _, hall⟩ := otherVert_ok hm h2 hvv
    rcases hall b heb with h | h
    · exact Or.inl h
    · right
      exact ⟨w, (h3 w).mpr ⟨e, List.mem_filter.mpr ⟨hye, hk⟩, hw⟩, hl, h.symm⟩

/-- The positions of the vertices, their indices. -/
theorem ids_get {m : Mesh} {u : Nat} {a : Int} :
    (m.verts.map Vert.index)[u]? = some a ↔ ∃ h : u < m.verts.length, m.verts[u].index = a := by
  rw [List.getElem?_map, Option.map_eq_some_iff]
  constructor
  · rintro ⟨x, hx, rfl⟩
    obtain ⟨h, rfl⟩ := List.getElem?_eq_some_iff.mp hx
    exact ⟨h, rfl⟩
  · rintro ⟨h, rfl⟩
    exact ⟨_, List.getElem?_eq_getElem h, rfl⟩

/-- The facts about a flood fill over vertices needed for the generic result. -/
structure VertFlood (m : Mesh) (keep : Int → Bool) (nbrs : Nat → Res (List Nat)) : Prop where
  eq : ∀ q, (h : q < m.verts.length) →
    nbrs q = (m.verts[q].edgeind.filter keep).mapM (m.otherVert m.verts[q].index)

theorem VertFlood.ok {m : Mesh} {keep : Int → Bool} {nbrs : Nat → Res (List Nat)}
    (hf : VertFlood m keep nbrs) (hm : Sound m) (h2 : TwoVerts m) :
    ∀ u < m.verts.length, ∃ l, nbrs u = .ok l ∧ ∀ w ∈ l, w < m.verts.length := by
  intro u hu
  obtain ⟨l, h1, h3, _⟩ := pushed_ok hm h2 keep hu
  exact ⟨l, by rw [hf.eq u hu]; exact h1, h3⟩

theorem VertFlood.adj_edge {m : Mesh} {keep : Int → Bool} {nbrs : Nat → Res (List Nat)}
    (hf : VertFlood m keep nbrs) (hm : Sound m) (h2 : TwoVerts m) {pre : Nat → Bool} {u w : Nat}
    (ha : FloodAdj nbrs m.verts.length pre u w) :
    ∃ (hu : u < m.verts.length) (hw : w < m.verts.length),
      ∃ e, keep e = true ∧ EdgeVert m e m.verts[u].index ∧ EdgeVert m e m.verts[w].index := by
  obtain ⟨hu, hw, _, _, l, hl, hwl⟩ := ha
  refine ⟨hu, hw, ?_⟩
  obtain ⟨l', h1, _, h3, _⟩ := pushed_ok hm h2 keep hu
  rw [hf.eq u hu, h1] at hl
  cases hl
  exact h3 w hwl hw

theorem VertFlood.edge_adj {m : Mesh} {keep : Int → Bool} {nbrs : Nat → Res (List Nat)}
    (hf : VertFlood m keep nbrs) (hm : Sound m) (h2 : TwoVerts m) {pre : Nat → Bool} {u w : Nat}
    (hu : u < m.verts.length) (hw : w < m.verts.length) (pu : pre u = false) (pw : pre w = false)
    {e : Int} (hk : keep e = true) (heu : EdgeVert m e m.verts[u].index)
    (hew : EdgeVert m e m.verts[w].index) :
    u = w ∨ FloodAdj nbrs m.verts.length pre u w := by
  obtain ⟨l, h1, _, _, h4⟩ := pushed_ok hm h2 keep hu
  have hinj : ∀ i j : Nat, ∀ (hi : i < m.verts.length) (hj : j < m.verts.length),
      m.verts[i].index = m.verts[j].index → i = j := by
    intro i j hi hj h
    have := (List.Nodup.getElem_inj_iff hm.unique.verts (i := i) (j := j)
      (hi := by simpa using hi) (hj := by simpa using hj)).mp (by simpa using h)
    exact this
  rcases h4 e _ hk heu hew with h | ⟨w', hw', hl', h⟩
  · exact Or.inl (hinj u w hu hw h.symm)
  · right
    have : w' = w := hinj w' w hl' hw h
    rw [this] at hw'
    exact ⟨hu, hw, pu, pw, l, by rw [hf.eq u hu]; exact h1, hw'⟩

theorem VertFlood.sym {m : Mesh} {keep : Int → Bool} {nbrs : Nat → Res (List Nat)}
    (hf : VertFlood m keep nbrs) (hm : Sound m) (h2 : TwoVerts m) (pre : Nat → Bool) :
    ∀ u w, FloodAdj nbrs m.verts.length pre u w → FloodAdj nbrs m.verts.length pre w u := by
  intro u w ha
  obtain ⟨hu, hw, e, hk, h3, h4⟩ := hf.adj_edge hm h2 ha
  rcases hf.edge_adj hm h2 hw hu ha.2.2.2.1 ha.2.2.1 hk h4 h3 with h | h
  · rw [h] at ha ⊢; exact ha
  · exact h

theorem VertFlood.conn {m : Mesh} {keep : Int → Bool} {nbrs : Nat → Res (List Nat)}
    (hf : VertFlood m keep nbrs) (hm : Sound m) (h2 : TwoVerts m) {pre : Nat → Bool}
    {In : Int → Prop}
    (hin : ∀ u (h : u < m.verts.length), In m.verts[u].index ↔ pre u = false)
    {u w : Nat} (hu : u < m.verts.length) (hw : w < m.verts.length) :
    FloodConn nbrs m.verts.length pre u w ↔
      VertJoined m (fun e => keep e = true) In m.verts[u].index m.verts[w].index := by
  unfold VertJoined
  refine conn_transfer (ids := m.verts.map Vert.index) hm.unique.verts ?_ ?_ ?_
    (ids_get.mpr ⟨hu, rfl⟩) (ids_get.mpr ⟨hw, rfl⟩)
  · intro u w a b ha hb hadj
    obtain ⟨hu, rfl⟩ := ids_get.mp ha
    obtain ⟨hw, rfl⟩ := ids_get.mp hb
    obtain ⟨_, _, e, hk, h3, h4⟩ := hf.adj_edge hm h2 hadj
    exact ⟨(hin u hu).mpr hadj.2.2.1, (hin w hw).mpr hadj.2.2.2.1, e, hk, h3, h4⟩
  · intro u w h; simpa using h.2.1
  · rintro a b ⟨ia, ib, e, hk, h3, h4⟩
    have get : ∀ c, EdgeVert m e c → ∃ (i : Nat) (h : i < m.verts.length), m.verts[i].index = c := by
      intro c hc
      have h0 : c ≠ 0 := by rintro rfl; exact hm.zeroOutside.edgeVert e hc
      obtain ⟨p, _, hp, hpi⟩ := posOf_mem (ix := Vert.index) (hm.noDangling.edgeVert e c hc h0)
      exact ⟨p, hp, hpi⟩
    obtain ⟨u, hu, rfl⟩ := get a h3
    obtain ⟨w, hw, rfl⟩ := get b h4
    exact ⟨u, w, ids_get.mpr ⟨hu, rfl⟩, ids_get.mpr ⟨hw, rfl⟩,
      hf.edge_adj hm h2 hu hw ((hin u hu).mp ia) ((hin w hw).mp ib) hk h3 h4⟩

theorem vertNbrs_flood {m : Mesh} : VertFlood m (fun _ => true) m.vertNbrs := by
  constructor
  intro q hq
  unfold vertNbrs
  rw [elemAt_nat _ _ hq, List.filter_true]
  rfl

theorem snakeNbrs_flood {m : Mesh} {snaxs : List FloodSnax} :
    VertFlood m (freeEdge snaxs) (m.snakeNbrs snaxs) := by
  constructor
  intro q hq
  unfold snakeNbrs
  rw [elemAt_nat _ _ hq]
  rfl

/-- Result of `ConnectedVertex`. -/
theorem connectedVertex_spec {m : Mesh} (hm : Sound m) (h2 : TwoVerts m) {block : List Int}
    (hb : block.length = 0 ∨ block.length = m.verts.length) :
    ∃ labels n, m.connectedVertex block = .ok (labels, n) ∧
      labels.length = m.verts.length ∧ 0 ≤ n ∧
      (∀ (k : Nat) (b : Int), block[k]? = some b → b ≠ 0 → labels[k]? = some b) ∧
      (∀ v, FreeVert m block v → ∃ l, VertLabel m labels v l ∧ 1 ≤ l ∧ l ≤ n) ∧
      (∀ v w l l', FreeVert m block v → FreeVert m block w → VertLabel m labels v l →
        VertLabel m labels w l' →
        (l = l' ↔ VertJoined m (fun _ => True) (FreeVert m block) v w)) ∧
      (∀ l, 1 ≤ l → l ≤ n → ∃ v, FreeVert m block v ∧ VertLabel m labels v l) := by
  let pre : Nat → Bool := fun i => decide (block.getD i 0 ≠ 0)
  obtain ⟨label, n, h1, hr⟩ := floodRun_spec (nbrs := m.vertNbrs) (n := m.verts.length)
    (pre := pre) hb (fun _ => rfl) (vertNbrs_flood.sym hm h2 pre)
    (fun u hu _ => vertNbrs_flood.ok hm h2 u hu)
  have hfree : ∀ k (h : k < m.verts.length), FreeVert m block m.verts[k].index ↔ pre k = false := by
    intro k hk
    have hpk : pre k = false ↔ (block[k]? = none ∨ block[k]? = some 0) := by
      show decide (block.getD k 0 ≠ 0) = false ↔ _
      rw [List.getD_eq_getElem?_getD]
      cases hbk : block[k]? with
      | none => simp
      | some b => simp
    rw [hpk]
    constructor
    · rintro ⟨k', x, hx, hxi, h⟩
      obtain ⟨hk', rfl⟩ := List.getElem?_eq_some_iff.mp hx
      have : k' = k := (List.Nodup.getElem_inj_iff hm.unique.verts (i := k') (j := k)
        (hi := by simpa using hk') (hj := by simpa using hk)).mp (by simpa using hxi)
      rw [← this]; exact h
    · intro h
      exact ⟨k, _, List.getElem?_eq_getElem hk, rfl, h⟩
  have hlab : ∀ k, k < m.verts.length →
      ((List.range m.verts.length).map label)[k]? = some (label k) := by
    intro k hk
    rw [List.getElem?_map, List.getElem?_range hk]; rfl
  have hvl : ∀ k (h : k < m.verts.length), ∀ l,
      VertLabel m ((List.range m.verts.length).map label) m.verts[k].index l ↔ l = label k := by
    intro k hk l
    constructor
    · rintro ⟨k', x, hx, hxi, h⟩
      obtain ⟨hk', rfl⟩ := List.getElem?_eq_some_iff.mp hx
      have : k' = k := (List.Nodup.getElem_inj_iff hm.unique.verts (i := k') (j := k)
        (hi := by simpa using hk') (hj := by simpa using hk)).mp (by simpa using hxi)
      rw [hlab k' hk', this] at h
      exact (Option.some.inj h).symm
    · rintro rfl
      exact ⟨k, _, List.getElem?_eq_getElem hk, rfl, hlab k hk⟩
  have hpos : ∀ v, FreeVert m block v → ∃ k, ∃ h : k < m.verts.length,
      m.verts[k].index = v ∧ pre k = false := by
    intro v hv
    obtain ⟨k, x, hx, hxi, h⟩ := id hv
    obtain ⟨hk, rfl⟩ := List.getElem?_eq_some_iff.mp hx
    refine ⟨k, hk, hxi, (hfree k hk).mp ?_⟩
    rw [hxi]; exact hv
  refine ⟨_, n, h1, by simp, hr.nonneg, ?_, ?_, ?_, ?_⟩
  · intro k b hkb hb0
    have hkl : k < m.verts.length := by
      have := (List.getElem?_eq_some_iff.mp hkb).1
      omega
    rw [hlab k hkl, hr.fixed k]
    · show some (block.getD k 0) = _
      rw [List.getD_eq_getElem?_getD, hkb]; rfl
    · show decide (block.getD k 0 ≠ 0) = true
      rw [List.getD_eq_getElem?_getD, hkb]; simpa using hb0
  · intro v hv
    obtain ⟨k, hk, rfl, hp⟩ := hpos v hv
    exact ⟨label k, (hvl k hk _).mpr rfl, hr.range k hk hp⟩
  · intro v w l l' hv hw hl hl'
    obtain ⟨k, hk, rfl, hp⟩ := hpos v hv
    obtain ⟨k', hk', rfl, hp'⟩ := hpos w hw
    rw [hvl k hk] at hl
    rw [hvl k' hk'] at hl'
    rw [hl, hl', hr.iff k hk k' hk' hp hp', vertNbrs_flood.conn hm h2 hfree hk hk']
    simp only []
  · intro l h1 h2
    obtain ⟨k, hk, hp, hl⟩ := hr.used l h1 h2
    exact ⟨m.verts[k].index, (hfree k hk).mpr hp, (hvl k hk l).mpr hl.symm⟩

end Mesh

end RSVS
