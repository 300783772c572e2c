import Verif.Lemmas.FloodMesh

/-!
# The flood fill on volumes
-/

namespace RSVS.Mesh

open RSVS.Spec

/-- The position of a surface and whether it is open. -/
theorem openFace_iff {m : Mesh} (hm : Sound m) {bound : List Bool} {p : Nat}
    (hp : p < m.surfs.length) :
    OpenFace m bound m.surfs[p].index ↔ bound[p]? ≠ some true := by
  constructor
  · rintro ⟨k, x, hx, hxi, h⟩
    obtain ⟨hk, rfl⟩ := List.getElem?_eq_some_iff.mp hx
    have : k = p := (List.Nodup.getElem_inj_iff hm.unique.surfs (i := k) (j := p)
      (hi := by simpa using hk) (hj := by simpa using hp)).mp (by simpa using hxi)
    rw [← this]; exact h
  · intro h
    exact ⟨p, _, List.getElem?_eq_getElem hp, rfl, h⟩

/-- What is across a face in a sound mesh. -/
theorem acrossFace_ok {m : Mesh} (hm : Sound m) (h2 : TwoVolus m) {bound : List Bool} {c s : Int}
    (hcs : VoluSurf m c s) :
    ∃ l, m.acrossFace bound c s = .ok l ∧
      (∀ q ∈ l, ∃ h : q < m.volus.length, SurfVolu m s m.volus[q].index ∧ OpenFace m bound s) ∧
      (∀ b, b ≠ 0 → SurfVolu m s b → OpenFace m bound s → b = c ∨
        ∃ q ∈ l, ∃ h : q < m.volus.length, m.volus[q].index = b) := by
  have hs : HasSurf m s := by
    apply hm.noDangling.voluSurf c s hcs
    rintro rfl
    exact hm.zeroOutside.voluSurf c hcs
  have hc : HasVolu m c := by obtain ⟨x, hx, hi, _⟩ := hcs; exact ⟨x, hx, hi⟩
  have hsc : SurfVolu m s c := (hm.sym.surfVolu s c hs hc).mpr hcs
  obtain ⟨p, hp, hpl, hpi⟩ := posOf_mem (ix := Surf.index) hs
  have hopen := openFace_iff hm (bound := bound) hpl
  rw [hpi] at hopen
  have huniq : ∀ b, SurfVolu m s b → b ∈ m.surfs[p].voluind := by
    rintro b ⟨y, hy, hyi, hb⟩
    have : y = m.surfs[p] :=
      inj_of_nodup hm.unique.surfs hy (List.getElem_mem hpl) (by rw [hyi, hpi])
    rw [← this]; exact hb
  obtain ⟨a, b, hab⟩ := two_cases (h2 _ (List.getElem_mem hpl))
  have hget : bound[p]? = some true ↔ (bound ≠ [] ∧ bound.getD p false = true) := by
    rw [List.getD_eq_getElem?_getD]
    cases hb : bound[p]? with
    | none => simp
    | some t =>
      have hlt := (List.getElem?_eq_some_iff.mp hb).1
      have hne : bound ≠ [] := by rintro rfl; simp at hlt
      simp [hne]
  unfold acrossFace
  simp only [hp, Int.toNat_natCast]
  rw [if_neg (by omega)]
  by_cases hbd : bound ≠ [] ∧ bound.getD p false = true
  · rw [if_pos hbd]
    refine ⟨[], rfl, by simp, ?_⟩
    intro b _ _ ho
    exact absurd (hget.mpr hbd) (hopen.mp ho)
  · rw [if_neg hbd]
    have ho : OpenFace m bound s := hopen.mpr (fun h => hbd (hget.mp h))
    show ∃ l, (elemAt m.surfs (p : Int) >>= _) = _ ∧ _
    rw [elemAt_nat _ _ hpl]
    have h0 : vecGet m.surfs[p].voluind 0 = .ok a := by rw [hab]; rfl
    show ∃ l, (vecGet m.surfs[p].voluind 0 >>= _) = _ ∧ _
    rw [h0]
    show ∃ l, (vecGet m.surfs[p].voluind (if a = c then 1 else 0) >>= _) = _ ∧ _
    have hca := huniq c hsc
    rw [hab] at hca
    have key : ∀ d, d ∈ m.surfs[p].voluind → (∀ b, b ∈ m.surfs[p].voluind → b = c ∨ b = d) →
        vecGet m.surfs[p].voluind (if a = c then 1 else 0) = .ok d →
        ∃ l, (vecGet m.surfs[p].voluind (if a = c then 1 else 0) >>= fun x =>
            if x = 0 then Except.ok []
            else if posOf Volu.index m.volus x = -1 then .error .throws
              else Except.ok [(posOf Volu.index m.volus x).toNat]) = Except.ok l ∧
          (∀ q ∈ l, ∃ h : q < m.volus.length,
            SurfVolu m s m.volus[q].index ∧ OpenFace m bound s) ∧
          (∀ b, b ≠ 0 → SurfVolu m s b → OpenFace m bound s → b = c ∨
            ∃ q ∈ l, ∃ h : q < m.volus.length, m.volus[q].index = b) := by
      intro d hd hall hdget
      have hsd : SurfVolu m s d := ⟨_, List.getElem_mem hpl, hpi, hd⟩
      rw [hdget]
      by_cases hd0 : d = 0
      · refine ⟨[], ?_, by simp, ?_⟩
        · show (if d = 0 then _ else _) = _
          rw [if_pos hd0]
        · intro b hb0 hb _
          rcases hall b (huniq b hb) with h | h
          · exact Or.inl h
          · rw [hd0] at h; exact absurd h hb0
      · obtain ⟨q, hq, hql, hqi⟩ := posOf_mem (ix := Volu.index)
          (hm.noDangling.surfVolu s d hsd hd0)
        refine ⟨[q], ?_, ?_, ?_⟩
        · show (if d = 0 then _ else _) = _
          rw [if_neg hd0, if_neg (by rw [hq]; omega), hq]
          simp
        · intro q' hq'
          simp only [List.mem_singleton] at hq'
          subst hq'
          exact ⟨hql, by rw [hqi]; exact hsd, ho⟩
        · intro b _ hb _
          rcases hall b (huniq b hb) with h | h
          · exact Or.inl h
          · exact Or.inr ⟨q, by simp, hql, by rw [hqi, h]⟩
    by_cases hav : a = c
    · refine key b (by rw [hab]; simp) ?_ ?_
      · intro d hd; rw [hab] at hd; simp at hd; rw [← hav]; exact hd
      · rw [if_pos hav, hab]; rfl
    · have hbv : c = b := by
        simp at hca
        rcases hca with h | h
        · exact absurd h.symm hav
        · exact h
      refine key a (by rw [hab]; simp) ?_ ?_
      · intro d hd; rw [hab] at hd; simp at hd; rw [hbv]; exact hd.symm
      · rw [if_neg hav, hab]; rfl

/-- What is pushed from a volume. -/
theorem voluNbrs_ok {m : Mesh} (hm : Sound m) (h2 : TwoVolus m) {bound : List Bool} {q : Nat}
    (hq : q < m.volus.length) :
    ∃ l, m.voluNbrs bound q = .ok l ∧ (∀ w ∈ l, w < m.volus.length) ∧
      (∀ w ∈ l, ∀ h : w < m.volus.length, ∃ s, OpenFace m bound s ∧
        SurfVolu m s m.volus[q].index ∧ SurfVolu m s m.volus[w].index) ∧
      (∀ s b, OpenFace m bound s → SurfVolu m s m.volus[q].index → b ≠ 0 → SurfVolu m s b →
        b = m.volus[q].index ∨ ∃ w ∈ l, ∃ h : w < m.volus.length, m.volus[w].index = b) := by
  have hvs : ∀ s ∈ m.volus[q].surfind, VoluSurf m m.volus[q].index s :=
    fun s hs => ⟨_, List.getElem_mem hq, rfl, hs⟩
  have hback : ∀ s, VoluSurf m m.volus[q].index s → SurfVolu m s m.volus[q].index := by
    intro s hs
    have hss : HasSurf m s := by
      apply hm.noDangling.voluSurf _ s hs
      rintro rfl
      exact hm.zeroOutside.voluSurf _ hs
    exact (hm.sym.surfVolu s _ hss ⟨_, List.getElem_mem hq, rfl⟩).mpr hs
  obtain ⟨ls, h1, h3⟩ := mapM_ok_of (f := m.acrossFace bound m.volus[q].index)
    (l := m.volus[q].surfind) (by
      intro s hs
      obtain ⟨l, hl, _⟩ := acrossFace_ok hm h2 (bound := bound) (hvs s hs)
      exact ⟨l, hl⟩)
  refine ⟨ls.flatten, ?_, ?_, ?_, ?_⟩
  · unfold voluNbrs
    rw [elemAt_nat _ _ hq]
    show (List.mapM (m.acrossFace bound m.volus[q].index) m.volus[q].surfind >>= _) = _
    rw [h1]
    rfl
  · intro w hw
    obtain ⟨l, hl, hwl⟩ := List.mem_flatten.mp hw
    obtain ⟨s, hs, hsl⟩ := (h3 l).mp hl
    obtain ⟨l', hl', ha, _⟩ := acrossFace_ok hm h2 (bound := bound) (hvs s hs)
    rw [hsl] at hl'; cases hl'
    exact (ha w hwl).1
  · intro w hw _
    obtain ⟨l, hl, hwl⟩ := List.mem_flatten.mp hw
    obtain ⟨s, hs, hsl⟩ := (h3 l).mp hl
    obtain ⟨l', hl', ha, _⟩ := acrossFace_ok hm h2 (bound := bound) (hvs s hs)
    rw [hsl] at hl'; cases hl'
    obtain ⟨_, hb, hc⟩ := ha w hwl
    exact ⟨s, hc, hback s (hvs s hs), hb⟩
  · intro s b ho hsq hb0 hsb
    have hS : HasSurf m s := by obtain ⟨x, hx, hi, _⟩ := hsq; exact ⟨x, hx, hi⟩
    have hvv : VoluSurf m m.volus[q].index s :=
      (hm.sym.surfVolu s _ hS ⟨_, List.getElem_mem hq, rfl⟩).mp hsq
    obtain ⟨y, hy, hyi, hye⟩ := id hvv
    have : y = m.volus[q] := inj_of_nodup hm.unique.volus hy (List.getElem_mem hq) hyi
    rw [this] at hye
    obtain ⟨l, hl, _, hall⟩ := acrossFace_ok hm h2 (bound := bound) hvv
    rcases hall b hb0 hsb ho with h | ⟨w, hw, hwl, h⟩
    · exact Or.inl h
    · exact Or.inr ⟨w, List.mem_flatten.mpr ⟨l, (h3 l).mpr ⟨s, hye, hl⟩, hw⟩, hwl, h⟩

theorem cids_get {m : Mesh} {u : Nat} {a : Int} :
    (m.volus.map Volu.index)[u]? = some a ↔ ∃ h : u < m.volus.length, m.volus[u].index = a := by
  rw [List.getElem?_map, Option.map_eq_some_iff]
  constructor
  · rintro ⟨x, hx, rfl⟩
    obtain ⟨h, rfl⟩ := List.getElem?_eq_some_iff.mp hx
    exact ⟨h, rfl⟩
  · rintro ⟨h, rfl⟩
    exact ⟨_, List.getElem?_eq_getElem h, rfl⟩

theorem voluAdj_face {m : Mesh} (hm : Sound m) (h2 : TwoVolus m) {bound : List Bool}
    {pre : Nat → Bool} {u w : Nat} (ha : FloodAdj (m.voluNbrs bound) m.volus.length pre u w) :
    ∃ (hu : u < m.volus.length) (hw : w < m.volus.length), ∃ s, OpenFace m bound s ∧
      SurfVolu m s m.volus[u].index ∧ SurfVolu m s m.volus[w].index := by
  obtain ⟨hu, hw, _, _, l, hl, hwl⟩ := ha
  refine ⟨hu, hw, ?_⟩
  obtain ⟨l', h1, _, h3, _⟩ := voluNbrs_ok hm h2 (bound := bound) hu
  rw [h1] at hl
  cases hl
  exact h3 w hwl hw

theorem face_voluAdj {m : Mesh} (hm : Sound m) (h2 : TwoVolus m) {bound : List Bool}
    {pre : Nat → Bool} {u w : Nat} (hu : u < m.volus.length) (hw : w < m.volus.length)
    (pu : pre u = false) (pw : pre w = false) {s : Int} (hk : OpenFace m bound s)
    (hsu : SurfVolu m s m.volus[u].index) (hsw : SurfVolu m s m.volus[w].index) :
    u = w ∨ FloodAdj (m.voluNbrs bound) m.volus.length pre u w := by
  obtain ⟨l, h1, _, _, h4⟩ := voluNbrs_ok hm h2 (bound := bound) hu
  have hinj : ∀ i j : Nat, ∀ (hi : i < m.volus.length) (hj : j < m.volus.length),
      m.volus[i].index = m.volus[j].index → i = j := by
    intro i j hi hj h
    have := (List.Nodup.getElem_inj_iff hm.unique.volus (i := i) (j := j)
      (hi := by simpa using hi) (hj := by simpa using hj)).mp (by simpa using h)
    exact this
  have hw0 : m.volus[w].index ≠ 0 := by
    have := hm.pos.volus _ ⟨_, List.getElem_mem hw, rfl⟩
    omega
  rcases h4 s _ hk hsu hw0 hsw with h | ⟨w', hw', hl', h⟩
  · exact Or.inl (hinj u w hu hw h.symm)
  · right
    have : w' = w := hinj w' w hl' hw h
    rw [this] at hw'
    exact ⟨hu, hw, pu, pw, l, h1, hw'⟩

theorem voluAdj_sym {m : Mesh} (hm : Sound m) (h2 : TwoVolus m) {bound : List Bool}
    (pre : Nat → Bool) : ∀ u w, FloodAdj (m.voluNbrs bound) m.volus.length pre u w →
      FloodAdj (m.voluNbrs bound) m.volus.length pre w u := by
  intro u w ha
  obtain ⟨hu, hw, s, hk, h3, h4⟩ := voluAdj_face hm h2 ha
  rcases face_voluAdj hm h2 hw hu ha.2.2.2.1 ha.2.2.1 hk h4 h3 with h | h
  · rw [h] at ha ⊢; exact ha
  · exact h

theorem voluConn_iff {m : Mesh} (hm : Sound m) (h2 : TwoVolus m) {bound : List Bool}
    {pre : Nat → Bool} {In : Int → Prop}
    (hin : ∀ u (h : u < m.volus.length), In m.volus[u].index ↔ pre u = false)
    {u w : Nat} (hu : u < m.volus.length) (hw : w < m.volus.length) :
    FloodConn (m.voluNbrs bound) m.volus.length pre u w ↔
      VoluJoined m (OpenFace m bound) In m.volus[u].index m.volus[w].index := by
  unfold VoluJoined
  have hne : ∀ i (h : i < m.volus.length), m.volus[i].index ≠ 0 := by
    intro i hi
    have := hm.pos.volus _ ⟨_, List.getElem_mem hi, rfl⟩
    omega
  refine conn_transfer (ids := m.volus.map Volu.index) hm.unique.volus ?_ ?_ ?_
    (cids_get.mpr ⟨hu, rfl⟩) (cids_get.mpr ⟨hw, rfl⟩)
  · intro u w a b ha hb hadj
    obtain ⟨hu, rfl⟩ := cids_get.mp ha
    obtain ⟨hw, rfl⟩ := cids_get.mp hb
    obtain ⟨_, _, e, hk, h3, h4⟩ := voluAdj_face hm h2 hadj
    exact ⟨(hin u hu).mpr hadj.2.2.1, (hin w hw).mpr hadj.2.2.2.1, hne u hu, hne w hw,
      e, hk, h3, h4⟩
  · intro u w h; simpa using h.2.1
  · rintro a b ⟨ia, ib, ha0, hb0, s, hk, h3, h4⟩
    have get : ∀ c, c ≠ 0 → SurfVolu m s c →
        ∃ (i : Nat) (h : i < m.volus.length), m.volus[i].index = c := by
      intro c h0 hc
      obtain ⟨p, _, hp, hpi⟩ := posOf_mem (ix := Volu.index) (hm.noDangling.surfVolu s c hc h0)
      exact ⟨p, hp, hpi⟩
    obtain ⟨u, hu, rfl⟩ := get a ha0 h3
    obtain ⟨w, hw, rfl⟩ := get b hb0 h4
    exact ⟨u, w, cids_get.mpr ⟨hu, rfl⟩, cids_get.mpr ⟨hw, rfl⟩,
      face_voluAdj hm h2 hu hw ((hin u hu).mp ia) ((hin w hw).mp ib) hk h3 h4⟩

/-- Result of `ConnectedVolumes`. -/
theorem connectedVolumes_spec {m : Mesh} (hm : Sound m) (h2 : TwoVolus m) {block : List Int}
    {bound : List Bool} (hb : block.length = 0 ∨ block.length = m.volus.length)
    (hf : bound.length = 0 ∨ bound.length = m.surfs.length) :
    ∃ labels n, m.connectedVolumes block bound = .ok (labels, n) ∧
      labels.length = m.volus.length ∧ 0 ≤ n ∧
      (∀ (k : Nat) (b : Int), block[k]? = some b → b ≠ 0 → labels[k]? = some b) ∧
      (∀ v, FreeVolu m block v → ∃ l, VoluLabel m labels v l ∧ 1 ≤ l ∧ l ≤ n) ∧
      (∀ v w l l', FreeVolu m block v → FreeVolu m block w → VoluLabel m labels v l →
        VoluLabel m labels w l' →
        (l = l' ↔ VoluJoined m (OpenFace m bound) (FreeVolu m block) v w)) ∧
      (∀ l, 1 ≤ l → l ≤ n → ∃ v, FreeVolu m block v ∧ VoluLabel m labels v l) := by
  let pre : Nat → Bool := fun i => decide (block.getD i 0 ≠ 0)
  obtain ⟨label, n, h1, hr⟩ := floodRun_spec (nbrs := m.voluNbrs bound) (n := m.volus.length)
    (pre := pre) hb (fun _ => rfl) (voluAdj_sym hm h2 pre)
    (fun u hu _ => by
      obtain ⟨l, ha, hb, _⟩ := voluNbrs_ok hm h2 (bound := bound) hu
      exact ⟨l, ha, hb⟩)
  have hfree : ∀ k (h : k < m.volus.length), FreeVolu m block m.volus[k].index ↔ pre k = false := by
    intro k hk
    have hpk : pre k = false ↔ (block[k]? = none ∨ block[k]? = some 0) := by
      show decide (block.getD k 0 ≠ 0) = false ↔ _
      rw [List.getD_eq_getElem?_getD]
      cases hbk : block[k]? with
      | none => simp
      | some b => simp
    rw [hpk]
    constructor
    · rintro ⟨k', x, hx, hxi, h⟩
      obtain ⟨hk', rfl⟩ := List.getElem?_eq_some_iff.mp hx
      have : k' = k := (List.Nodup.getElem_inj_iff hm.unique.volus (i := k') (j := k)
        (hi := by simpa using hk') (hj := by simpa using hk)).mp (by simpa using hxi)
      rw [← this]; exact h
    · intro h
      exact ⟨k, _, List.getElem?_eq_getElem hk, rfl, h⟩
  have hlab : ∀ k, k < m.volus.length →
      ((List.range m.volus.length).map label)[k]? = some (label k) := by
    intro k hk
    rw [List.getElem?_map, List.getElem?_range hk]; rfl
  have hvl : ∀ k (h : k < m.volus.length), ∀ l,
      VoluLabel m ((List.range m.volus.length).map label) m.volus[k].index l ↔ l = label k := by
    intro k hk l
    constructor
    · rintro ⟨k', x, hx, hxi, h⟩
      obtain ⟨hk', rfl⟩ := List.getElem?_eq_some_iff.mp hx
      have : k' = k := (List.Nodup.getElem_inj_iff hm.unique.volus (i := k') (j := k)
        (hi := by simpa using hk') (hj := by simpa using hk)).mp (by simpa using hxi)
      rw [hlab k' hk', this] at h
      exact (Option.some.inj h).symm
    · rintro rfl
      exact ⟨k, _, List.getElem?_eq_getElem hk, rfl, hlab k hk⟩
  have hpos : ∀ v, FreeVolu m block v → ∃ k, ∃ h : k < m.volus.length,
      m.volus[k].index = v ∧ pre k = false := by
    intro v hv
    obtain ⟨k, x, hx, hxi, h⟩ := id hv
    obtain ⟨hk, rfl⟩ := List.getElem?_eq_some_iff.mp hx
    refine ⟨k, hk, hxi, (hfree k hk).mp ?_⟩
    rw [hxi]; exact hv
  refine ⟨(List.range m.volus.length).map label, n, ?_, by simp, hr.nonneg, ?_, ?_, ?_, ?_⟩
  · unfold connectedVolumes
    rw [if_neg (by omega), if_neg (by omega)]
    exact h1
  · intro k b hkb hb0
    have hkl : k < m.volus.length := by
      have := (List.getElem?_eq_some_iff.mp hkb).1
      omega
    rw [hlab k hkl, hr.fixed k]
    · show some (block.getD k 0) = _
      rw [List.getD_eq_getElem?_getD, hkb]; rfl
    · show decide (block.getD k 0 ≠ 0) = true
      rw [List.getD_eq_getElem?_getD, hkb]; simpa using hb0
  · intro v hv
    obtain ⟨k, hk, rfl, hp⟩ := hpos v hv
    exact ⟨label k, (hvl k hk _).mpr rfl, hr.range k hk hp⟩
  · intro v w l l' hv hw hl hl'
    obtain ⟨k, hk, rfl, hp⟩ := hpos v hv
    obtain ⟨k', hk', rfl, hp'⟩ := hpos w hw
    rw [hvl k hk] at hl
    rw [hvl k' hk'] at hl'
    rw [hl, hl', hr.iff k hk k' hk' hp hp', voluConn_iff hm h2 hfree hk hk']
  · intro l h1 h2
    obtain ⟨k, hk, hp, hl⟩ := hr.used l h1 h2
    exact ⟨m.volus[k].index, (hfree k hk).mpr hp, (hvl k hk l).mpr hl.symm⟩

end RSVS.Mesh
