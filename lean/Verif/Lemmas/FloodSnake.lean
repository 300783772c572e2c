import Verif.Lemmas.FloodMesh

/-!
# The flood fill of the snake
-/

namespace RSVS.Mesh

open RSVS.Spec

theorem mem_siblings {snaxs : List FloodSnax} {e : Int} {i : Nat} :
    i ∈ siblings snaxs e ↔ ∃ h : i < snaxs.length, snaxs[i].edgeind = e := by
  unfold siblings
  simp only [List.mem_filter, List.mem_range, decide_eq_true_eq]
  constructor
  · rintro ⟨h, h1⟩
    rw [List.getElem?_eq_getElem h] at h1
    exact ⟨h, Option.some.inj h1⟩
  · rintro ⟨h, h1⟩
    rw [List.getElem?_eq_getElem h]
    exact ⟨h, by rw [Option.map_some, h1]⟩

theorem freeEdge_iff {snaxs : List FloodSnax} {e : Int} :
    freeEdge snaxs e = true ↔ NoSnaxel snaxs e := by
  unfold freeEdge NoSnaxel
  rw [decide_eq_true_eq]
  constructor
  · intro h x hx hxe
    obtain ⟨i, hi, rfl⟩ := List.getElem_of_mem hx
    have : i ∈ siblings snaxs e := mem_siblings.mpr ⟨hi, hxe⟩
    have := List.length_pos_of_mem this
    omega
  · intro h
    have : siblings snaxs e = [] := by
      rw [List.eq_nil_iff_forall_not_mem]
      intro i hi
      obtain ⟨hl, he⟩ := mem_siblings.mp hi
      exact h _ (List.getElem_mem hl) he
    simp [this]

/-- The effect of marking a list of snaxels. -/
theorem markSnax_fold (nS : Nat) : ∀ (met : List Nat) (d : Nat → Bool) (c : Nat),
    (∀ i ∈ met, i < nS) → c = numDone nS d →
    let r := met.foldl markSnax (d, c)
    r.2 = numDone nS r.1 ∧ ∀ i, r.1 i = true ↔ (d i = true ∨ i ∈ met) := by
  intro met
  induction met with
  | nil => intro d c _ h; simpa using h
  | cons a met ih =>
    intro d c hb hc
    have ha := hb a (by simp)
    have h1 : (markSnax (d, c) a).2 = numDone nS (markSnax (d, c) a).1 := by
      unfold markSnax
      by_cases hd : d a = true
      · have : setAt d a true = d := by
          funext j; unfold setAt; split
          · rename_i h; rw [h, hd]
          · rfl
        simp only [hd, if_true, this]
        exact hc
      · have hd' : d a = false := by simpa using hd
        simp only [hd', numDone_set ha hd', hc]
        rfl
    have h2 := ih (markSnax (d, c) a).1 (markSnax (d, c) a).2
      (fun i hi => hb i (by simp [hi])) h1
    simp only [List.foldl_cons]
    refine ⟨h2.1, ?_⟩
    intro i
    have h3 := h2.2 i
    rw [show (markSnax (d, c) a) = ((markSnax (d, c) a).1, (markSnax (d, c) a).2) from rfl]
    rw [h3]
    unfold markSnax setAt
    by_cases hia : i = a
    · simp [hia]
    · simp [hia]

/-- The invariant on the snaxels: the marked ones are those of the explored vertices. -/
structure SnaxInv (m : Mesh) (snaxs : List FloodSnax) (s : SnakeFloodState) : Prop where
  count : s.explored = numDone snaxs.length s.snax
  marked : ∀ i (hi : i < snaxs.length), s.snax i = true ↔
    ∃ u, ∃ h : u < m.verts.length, m.verts[u].index = snaxs[i].fromvert ∧ s.flood.done u = true
  zero : ∀ u, s.flood.done u = false → s.flood.label u = 0

theorem mem_snakeMet {m : Mesh} (hm : UniqueIndices m) {snaxs : List FloodSnax}
    (hs : SnaxelsOnMesh m snaxs) {q : Nat} (hq : q < m.verts.length) :
    ∃ met, m.snakeMet snaxs q = .ok met ∧ (∀ i ∈ met, i < snaxs.length) ∧
      ∀ i (hi : i < snaxs.length), i ∈ met ↔ snaxs[i].fromvert = m.verts[q].index := by
  refine ⟨_, by unfold snakeMet; rw [elemAt_nat _ _ hq]; rfl, ?_, ?_⟩
  · intro i hi
    obtain ⟨e, _, h⟩ := List.mem_flatMap.mp hi
    exact (mem_siblings.mp (List.mem_filter.mp h).1).1
  · intro i hi
    rw [List.mem_flatMap]
    constructor
    · rintro ⟨e, _, h⟩
      have h2 := (List.mem_filter.mp h).2
      rw [decide_eq_true_eq, List.getElem?_eq_getElem hi] at h2
      exact Option.some.inj h2
    · intro h
      obtain ⟨x, hx, hxi, hxe⟩ := hs _ (List.getElem_mem hi)
      have : x = m.verts[q] :=
        inj_of_nodup hm.verts hx (List.getElem_mem hq) (hxi.trans h)
      rw [this] at hxe
      refine ⟨_, hxe, List.mem_filter.mpr ⟨mem_siblings.mpr ⟨hi, rfl⟩, ?_⟩⟩
      rw [decide_eq_true_eq, List.getElem?_eq_getElem hi]
      exact congrArg some h

theorem snakeVisit_follows {m : Mesh} (hm : UniqueIndices m) {snaxs : List FloodSnax}
    (hs : SnaxelsOnMesh m snaxs) {nB : Int} {s : SnakeFloodState} {q : Nat}
    (hq : q < m.verts.length) {f : FloodState}
    (hf : floodVisit (m.snakeNbrs snaxs) nB s.flood q = .ok f) (h : SnaxInv m snaxs s) :
    ∃ s', m.snakeVisit snaxs nB s q = .ok s' ∧ s'.flood = f ∧ SnaxInv m snaxs s' := by
  unfold snakeVisit
  by_cases hd : s.flood.done q = true
  · rw [if_pos hd]
    unfold floodVisit at hf
    rw [if_pos hd] at hf
    exact ⟨s, rfl, Except.ok.inj hf, h⟩
  · rw [if_neg hd]
    obtain ⟨met, h1, h2, h3⟩ := mem_snakeMet hm hs hq
    obtain ⟨g1, g2⟩ := markSnax_fold snaxs.length met s.snax s.explored h2 h.count
    refine ⟨{ flood := f, snax := (met.foldl markSnax (s.snax, s.explored)).1,
              explored := (met.foldl markSnax (s.snax, s.explored)).2 }, ?_, rfl, g1, ?_, ?_⟩
    · show (floodVisit (m.snakeNbrs snaxs) nB s.flood q >>= _) = _
      rw [hf]
      show (m.snakeMet snaxs q >>= _) = _
      rw [h1]
      rfl
    · have hdone : ∀ u, f.done u = true ↔ (u = q ∨ s.flood.done u = true) := by
        unfold floodVisit at hf
        rw [if_neg hd] at hf
        obtain ⟨l, _, h5⟩ := bind_ok_iff.mp hf
        cases h5
        intro u
        unfold setAt
        by_cases hu : u = q
        · simp [hu]
        · simp [hu]
      intro i hi
      show (met.foldl markSnax (s.snax, s.explored)).1 i = true ↔ _
      rw [g2 i, h.marked i hi, h3 i hi]
      constructor
      · rintro (⟨u, hu, hui, hdu⟩ | h5)
        · exact ⟨u, hu, hui, (hdone u).mpr (Or.inr hdu)⟩
        · exact ⟨q, hq, h5.symm, (hdone q).mpr (Or.inl rfl)⟩
      · rintro ⟨u, hu, hui, hdu⟩
        rcases (hdone u).mp hdu with rfl | h5
        · exact Or.inr hui.symm
        · exact Or.inl ⟨u, hu, hui, h5⟩
    · unfold floodVisit at hf
      rw [if_neg hd] at hf
      obtain ⟨l, _, h5⟩ := bind_ok_iff.mp hf
      cases h5
      intro u hu
      have huq : u ≠ q := by rintro rfl; simp [setAt] at hu
      simp only [setAt, if_neg huq] at hu ⊢
      exact h.zero u hu

theorem snakeQueue_follows {m : Mesh} (hm : UniqueIndices m) {snaxs : List FloodSnax}
    (hs : SnaxelsOnMesh m snaxs) {nB : Int} :
    ∀ (curr : List Nat) (s : SnakeFloodState) (f : FloodState),
      (∀ q ∈ curr, q < m.verts.length) →
      curr.foldlM (floodVisit (m.snakeNbrs snaxs) nB) s.flood = .ok f → SnaxInv m snaxs s →
      ∃ s', curr.foldlM (m.snakeVisit snaxs nB) s = .ok s' ∧ s'.flood = f ∧ SnaxInv m snaxs s' := by
  intro curr
  induction curr with
  | nil =>
    intro s f _ hf h
    exact ⟨s, rfl, Except.ok.inj hf, h⟩
  | cons q curr ih =>
    intro s f hb hf h
    rw [List.foldlM_cons] at hf
    obtain ⟨f1, hf1, hf2⟩ := bind_ok_iff.mp hf
    obtain ⟨s1, h1, h2, h3⟩ := snakeVisit_follows hm hs (hb q (by simp)) hf1 h
    rw [← h2] at hf2
    obtain ⟨s', g1, g2, g3⟩ := ih s1 f (fun x hx => hb x (by simp [hx])) hf2 h3
    refine ⟨s', ?_, g2, g3⟩
    rw [List.foldlM_cons, h1]
    exact g1

/-- A state from which the loop never ends: the vertex of the first snaxel not met is explored. -/
theorem snakeFloodLoop_stuck {m : Mesh} {snaxs : List FloodSnax} {s : SnakeFloodState} {i : Nat}
    {x : FloodSnax} {p : Nat} (h1 : decide (s.explored < snaxs.length) = true)
    (h2 : (List.range snaxs.length).find? (fun i => !s.snax i) = some i)
    (h3 : vecGet snaxs i = .ok x) (h4 : posOf Vert.index m.verts x.fromvert = (p : Int))
    (h5 : s.flood.done p = true) (h6 : s.flood.next = []) :
    ∀ (turns : Nat) (nB : Int), m.snakeFloodLoop snaxs turns s [] nB = .error .diverges := by
  intro turns
  induction turns with
  | zero => intro nB; rfl
  | succ n ih =>
    intro nB
    unfold snakeFloodLoop
    rw [if_pos (of_decide_eq_true h1), if_pos rfl, h2]
    show (vecGet snaxs (i : Int) >>= _) = _
    rw [h3]
    show (if posOf Vert.index m.verts x.fromvert < 0 then _ else _) = _
    rw [if_neg (by rw [h4]; omega), h4, Int.toNat_natCast]
    have hs : ({ s with flood := { s.flood with next := [] } } : SnakeFloodState) = s := by
      rw [← h6]
    rw [hs]
    have hv : [p].foldlM (m := Except Fault) (m.snakeVisit snaxs (nB + 1)) s = .ok s := by
      rw [List.foldlM_cons]
      unfold snakeVisit
      rw [if_pos h5]
      rfl
    show ([p].foldlM (m := Except Fault) (m.snakeVisit snaxs (nB + 1)) s >>= _) = _
    rw [hv]
    show m.snakeFloodLoop snaxs n s s.flood.next (nB + 1) = _
    rw [h6]
    exact ih (nB + 1)

/-- What the labels of the snake flood are in the end. -/
structure SnakeFloodResult (m : Mesh) (snaxs : List FloodSnax) (label : Nat → Int) (nB : Int) :
    Prop where
  range : ∀ u < m.verts.length, 0 ≤ label u ∧ label u ≤ nB
  roots : ∀ i (hi : i < snaxs.length), ∃ u, ∃ h : u < m.verts.length,
    m.verts[u].index = snaxs[i].fromvert ∧ 1 ≤ label u
  iff : ∀ u < m.verts.length, ∀ w < m.verts.length, 0 < label u → 0 < label w →
    (label u = label w ↔ FloodConn (m.snakeNbrs snaxs) m.verts.length (fun _ => false) u w)
  early : ∀ u < m.verts.length, ∀ w < m.verts.length, 0 < label u → label u < nB →
    FloodConn (m.snakeNbrs snaxs) m.verts.length (fun _ => false) u w → label w = label u
  used : ∀ b, 1 ≤ b → b ≤ nB → ∃ u < m.verts.length, label u = b

theorem snakeFloodLoop_spec {m : Mesh} (hm : Sound m) (h2 : TwoVerts m) {snaxs : List FloodSnax}
    (hs : SnaxelsOnMesh m snaxs) :
    ∀ (fuel : Nat) (s : SnakeFloodState) (curr : List Nat) (nB : Int),
      FloodInv (m.snakeNbrs snaxs) m.verts.length (fun _ => false) (fun _ => 0) s.flood curr nB →
      SnaxInv m snaxs s →
      (∀ b, 1 ≤ b → b ≤ nB → ∃ u < m.verts.length,
        s.flood.done u = true ∧ s.flood.label u = b) →
      (curr ≠ [] → 1 ≤ nB) →
      2 * (m.verts.length - s.flood.count) + (if curr = [] then 0 else 1) < fuel →
      ∃ label nB', m.snakeFloodLoop snaxs fuel s curr nB = .ok (label, nB') ∧
        SnakeFloodResult m snaxs label nB' := by
  have hsym := (snakeNbrs_flood (m := m) (snaxs := snaxs)).sym hm h2 (fun _ => false)
  have hok : ∀ u < m.verts.length, (fun _ => false) u = false →
      ∃ l, m.snakeNbrs snaxs u = .ok l ∧ ∀ w ∈ l, w < m.verts.length :=
    fun u hu _ => (snakeNbrs_flood (m := m) (snaxs := snaxs)).ok hm h2 u hu
  intro fuel
  induction fuel with
  | zero => intro s curr nB _ _ _ _ hf; omega
  | succ fuel ih =>
    intro s curr nB h hsi hused hcurr hfuel
    have hcn : s.flood.count ≤ m.verts.length := by rw [h.count]; exact numDone_le _
    unfold snakeFloodLoop
    by_cases hc : s.explored < snaxs.length
    · rw [if_pos hc]
      by_cases he : curr = []
      · subst he
        rw [if_pos rfl]
        cases hf : (List.range snaxs.length).find? (fun i => !s.snax i) with
        | none =>
          exfalso
          rw [List.find?_eq_none] at hf
          have hall : ∀ i < snaxs.length, s.snax i = true := by
            intro i hi
            have := hf i (List.mem_range.mpr hi)
            simpa using this
          have : numDone snaxs.length s.snax = snaxs.length := by
            unfold numDone
            rw [Finset.filter_true_of_mem (fun i hi => hall i (Finset.mem_range.mp hi))]
            exact Finset.card_range _
          rw [hsi.count] at hc
          omega
        | some i =>
          have hi1 := List.find?_some hf
          have hi2 := List.mem_range.mp (List.mem_of_find?_eq_some hf)
          have hsi' : s.snax i = false := by simpa using hi1
          obtain ⟨x, hx, hxi, _⟩ := hs _ (List.getElem_mem hi2)
          obtain ⟨p, hp, hpl, hpi⟩ := posOf_mem (ix := Vert.index) ⟨x, hx, hxi⟩
          have hdp : s.flood.done p = false := by
            by_contra hcon
            have := (hsi.marked i hi2).mpr ⟨p, hpl, hpi, by simpa using hcon⟩
            rw [hsi'] at this; cases this
          have hnB := h.nonneg
          have hinv : FloodInv (m.snakeNbrs snaxs) m.verts.length (fun _ => false) (fun _ => 0)
              { s.flood with next := [] } ([p] ++ []) (nB + 1) := by
            refine ⟨by omega, h.fixed, ?_, h.count, ?_, ?_, ?_, ?_, ?_, h.conn, ?_⟩
            · intro j hj hp hdj
              have h1 := h.range j hj hp hdj
              exact ⟨h1.1, by have := h1.2; show s.flood.label j ≤ nB + 1; omega⟩
            · intro u w ha hu hl
              by_cases hl' : s.flood.label u = nB
              · rcases h.front u w ha hu hl' with h1 | ⟨_, h1⟩
                · exact ⟨h1.1, by rw [h1.2]; exact hl'.symm⟩
                · simp at h1
              · have h1 := h.range u ha.1 ha.2.2.1 hu
                exact h.closed u w ha hu (by omega)
            · intro u w ha hu hl
              have h1 := h.range u ha.1 ha.2.2.1 hu
              have hl2 : s.flood.label u = nB + 1 := hl
              omega
            · intro q hq
              simp only [List.append_nil, List.mem_singleton] at hq
              rw [hq]; exact hpl
            · intro q hq _ u hu hp hdu hlu
              have h1 := h.range u hu hp hdu
              have hl2 : s.flood.label u = nB + 1 := hlu
              omega
            · intro q hq q' hq' _ _
              simp only [List.append_nil, List.mem_singleton] at hq hq'
              rw [hq, hq']; exact Relation.ReflTransGen.refl
            · intro b h1 h2
              obtain ⟨u, hu, hd, hl⟩ := hused b h1 (by omega)
              exact ⟨u, hu, rfl, hd, hl⟩
          obtain ⟨f', g1, g2, g3, g4, g5, g6⟩ := floodQueue_inv hsym hok (by omega) [p]
            { s.flood with next := [] } hinv (Or.inr ⟨p, by simp, hdp⟩)
          obtain ⟨s', k1, k2, k3⟩ := snakeQueue_follows hm.unique hs [p]
            { s with flood := { s.flood with next := [] } } f' (by simpa using hpl) g1
            ⟨hsi.count, hsi.marked, hsi.zero⟩
          rw [← k2] at g2 g3 g4 g5 g6
          have g5' : s.flood.count < s'.flood.count := g5 ⟨p, by simp, hdp⟩
          have hcn' : s'.flood.count ≤ m.verts.length := by rw [g2.count]; exact numDone_le _
          obtain ⟨label, nB', l1, l2⟩ := ih s' s'.flood.next (nB + 1) g2 k3 (by
              intro b h1 h2
              by_cases hb : b = nB + 1
              · rw [hb]
                obtain ⟨u, hu, _, hd, hl⟩ := g3
                exact ⟨u, hu, hd, hl⟩
              · obtain ⟨u, hu, _, hd, hl⟩ := g2.used b h1 (by omega)
                exact ⟨u, hu, hd, hl⟩) (by intro _; omega) (by
              rw [if_pos rfl] at hfuel
              split <;> omega)
          refine ⟨label, nB', ?_, l2⟩
          show (vecGet snaxs (i : Int) >>= _) = _
          have hget : vecGet snaxs (i : Int) = .ok snaxs[i] := by
            unfold vecGet
            rw [if_neg (by omega)]
            simp [hi2]
          rw [hget]
          show (if posOf Vert.index m.verts snaxs[i].fromvert < 0 then _ else _) = _
          rw [if_neg (by rw [hp]; omega), hp, Int.toNat_natCast]
          show ([p].foldlM (m := Except Fault) (m.snakeVisit snaxs (nB + 1))
            { s with flood := { s.flood with next := [] } } >>= _) = _
          rw [k1]
          exact l1
      · rw [if_neg he]
        have hnB : 1 ≤ nB := hcurr he
        have hinv : FloodInv (m.snakeNbrs snaxs) m.verts.length (fun _ => false) (fun _ => 0)
            { s.flood with next := [] } (curr ++ []) nB := by
          rw [List.append_nil]
          exact ⟨h.nonneg, h.fixed, h.range, h.count, h.closed, h.front, h.bound, h.reach,
            h.together, h.conn, h.used⟩
        obtain ⟨f', g1, g2, g3, g4, g5, g6⟩ := floodQueue_inv hsym hok hnB curr
          { s.flood with next := [] } hinv (by
            obtain ⟨u, hu, hd, hl⟩ := hused nB hnB (Int.le_refl _)
            exact Or.inl ⟨u, hu, rfl, hd, hl⟩)
        obtain ⟨s', k1, k2, k3⟩ := snakeQueue_follows hm.unique hs curr
          { s with flood := { s.flood with next := [] } } f' h.bound g1
          ⟨hsi.count, hsi.marked, hsi.zero⟩
        rw [← k2] at g2 g3 g4 g5 g6
        have g4' : s.flood.count ≤ s'.flood.count := g4
        have g6' : s'.flood.count = s.flood.count → s'.flood.next = [] := g6
        have hcn' : s'.flood.count ≤ m.verts.length := by rw [g2.count]; exact numDone_le _
        obtain ⟨label, nB', l1, l2⟩ := ih s' s'.flood.next nB g2 k3 (by
            intro b h1 h2
            by_cases hb : b = nB
            · rw [hb]
              obtain ⟨u, hu, _, hd, hl⟩ := g3
              exact ⟨u, hu, hd, hl⟩
            · obtain ⟨u, hu, _, hd, hl⟩ := g2.used b h1 (by omega)
              exact ⟨u, hu, hd, hl⟩) (fun _ => hnB) (by
            rw [if_neg he] at hfuel
            by_cases hcc : s'.flood.count = s.flood.count
            · rw [g6' hcc, if_pos rfl]; omega
            · split <;> omega)
        refine ⟨label, nB', ?_, l2⟩
        show (curr.foldlM (m := Except Fault) (m.snakeVisit snaxs nB)
          { s with flood := { s.flood with next := [] } } >>= _) = _
        rw [k1]
        exact l1
    · rw [if_neg hc]
      have hall : ∀ i < snaxs.length, s.snax i = true :=
        all_done_of_numDone (by rw [← hsi.count]; omega)
      have hdone : ∀ u < m.verts.length, 0 < s.flood.label u → s.flood.done u = true := by
        intro u _ hl
        by_contra hd
        have := hsi.zero u (by simpa using hd)
        omega
      have early : ∀ u < m.verts.length, ∀ w < m.verts.length, 0 < s.flood.label u →
          s.flood.label u < nB →
          FloodConn (m.snakeNbrs snaxs) m.verts.length (fun _ => false) u w →
          s.flood.label w = s.flood.label u := by
        intro u hu w _ hl hlt hconn
        have : s.flood.done w = true ∧ s.flood.label w = s.flood.label u := by
          induction hconn with
          | refl => exact ⟨hdone u hu hl, rfl⟩
          | @tail x y hx hxy ih2 =>
            have ih3 := ih2 hxy.1
            have := h.closed x y hxy ih3.1 (by rw [ih3.2]; exact hlt)
            exact ⟨this.1, by rw [this.2, ih3.2]⟩
        exact this.2
      refine ⟨s.flood.label, nB, rfl, ?_, ?_, ?_, early, ?_⟩
      · intro u hu
        by_cases hd : s.flood.done u = true
        · have := h.range u hu rfl hd; omega
        · have := hsi.zero u (by simpa using hd)
          have := h.nonneg
          omega
      · intro i hi
        obtain ⟨u, hu, hui, hd⟩ := (hsi.marked i hi).mp (hall i hi)
        exact ⟨u, hu, hui, (h.range u hu rfl hd).1⟩
      · intro u hu w hw hlu hlw
        constructor
        · exact h.conn u hu w hw rfl rfl (hdone u hu hlu) (hdone w hw hlw)
        · intro hconn
          have h1 := h.range u hu rfl (hdone u hu hlu)
          have h3 := h.range w hw rfl (hdone w hw hlw)
          by_cases hu1 : s.flood.label u < nB
          · exact (early u hu w hw hlu hu1 hconn).symm
          · by_cases hw1 : s.flood.label w < nB
            · exact early w hw u hu hlw hw1 (FloodConn.symm hsym hconn)
            · omega
      · intro b h1 h2
        obtain ⟨u, hu, _, hl⟩ := hused b h1 h2
        exact ⟨u, hu, hl⟩

/-- Result of `FindBlockSnakeMeshVerts`, in terms of the mesh. -/
theorem findBlock_spec {m : Mesh} (hm : Sound m) (h2 : TwoVerts m) {snaxs : List FloodSnax}
    (hs : SnaxelsOnMesh m snaxs) :
    ∃ labels n, m.findBlockSnakeMeshVerts snaxs = .ok (labels, n) ∧
      labels.length = m.verts.length ∧ (∀ l ∈ labels, 0 ≤ l ∧ l ≤ n) ∧
      (∀ x ∈ snaxs, ∃ l, VertLabel m labels x.fromvert l ∧ 1 ≤ l) ∧
      (∀ v w l l', VertLabel m labels v l → VertLabel m labels w l' → 0 < l → 0 < l' →
        (l = l' ↔ VertJoined m (NoSnaxel snaxs) (fun _ => True) v w)) ∧
      (∀ v w l l', VertLabel m labels v l → VertLabel m labels w l' → 0 < l → l < n →
        VertJoined m (NoSnaxel snaxs) (fun _ => True) v w → l' = l) ∧
      (∀ l, 1 ≤ l → l ≤ n → l ∈ labels) := by
  obtain ⟨label, n, h1, hr⟩ := snakeFloodLoop_spec hm h2 hs (2 * m.verts.length + 2)
    { flood := { done := fun _ => false, label := fun _ => 0, next := [], count := 0 },
      snax := fun _ => false, explored := 0 } [] 0
    (by
      refine ⟨Int.le_refl _, ?_, ?_, ?_, ?_, ?_, ?_, ?_, ?_, ?_, ?_⟩
      · intro i hi; cases hi
      · intro i _ _ hd; cases hd
      · simp [numDone]
      · intro u w _ hu; cases hu
      · intro u w _ hu; cases hu
      · simp
      · simp
      · simp
      · intro u _ w _ _ _ hu; cases hu
      · intro b h1 h2; omega)
    ⟨by simp [numDone], by simp, fun _ _ => rfl⟩
    (by intro b h1 h2; omega) (by simp) (by simp only [if_pos]; omega)
  have hlab : ∀ k, k < m.verts.length →
      ((List.range m.verts.length).map label)[k]? = some (label k) := by
    intro k hk
    rw [List.getElem?_map, List.getElem?_range hk]; rfl
  have hvl : ∀ v l, VertLabel m ((List.range m.verts.length).map label) v l →
      ∃ k, ∃ h : k < m.verts.length, m.verts[k].index = v ∧ label k = l := by
    rintro v l ⟨k, x, hx, hxi, h⟩
    obtain ⟨hk, rfl⟩ := List.getElem?_eq_some_iff.mp hx
    rw [hlab k hk] at h
    exact ⟨k, hk, hxi, Option.some.inj h⟩
  have hconn : ∀ u w (hu : u < m.verts.length) (hw : w < m.verts.length),
      FloodConn (m.snakeNbrs snaxs) m.verts.length (fun _ => false) u w ↔
        VertJoined m (NoSnaxel snaxs) (fun _ => True) m.verts[u].index m.verts[w].index := by
    intro u w hu hw
    have := (snakeNbrs_flood (snaxs := snaxs)).conn hm h2 (pre := fun _ => false)
      (In := fun _ => True) (by simp) hu hw
    rw [this]
    have he : (fun e => freeEdge snaxs e = true) = NoSnaxel snaxs := by
      funext e; exact propext freeEdge_iff
    rw [he]
  refine ⟨(List.range m.verts.length).map label, n, ?_, by simp, ?_, ?_, ?_, ?_, ?_⟩
  · unfold findBlockSnakeMeshVerts
    show (snakeFloodLoop m snaxs _ _ [] 0 >>= _) = _
    rw [h1]
    rfl
  · intro l hl
    obtain ⟨k, hk, rfl⟩ := List.mem_map.mp hl
    exact hr.range k (List.mem_range.mp hk)
  · intro x hx
    obtain ⟨i, hi, rfl⟩ := List.getElem_of_mem hx
    obtain ⟨u, hu, hui, hl⟩ := hr.roots i hi
    exact ⟨label u, ⟨u, _, List.getElem?_eq_getElem hu, hui, hlab u hu⟩, hl⟩
  · intro v w l l' hv hw hl hl'
    obtain ⟨u, hu, rfl, rfl⟩ := hvl v l hv
    obtain ⟨k, hk, rfl, rfl⟩ := hvl w l' hw
    rw [hr.iff u hu k hk hl hl', hconn u k hu hk]
  · intro v w l l' hv hw hl hlt hj
    obtain ⟨u, hu, rfl, rfl⟩ := hvl v l hv
    obtain ⟨k, hk, rfl, rfl⟩ := hvl w l' hw
    exact hr.early u hu k hk hl hlt ((hconn u k hu hk).mpr hj)
  · intro l h1 h2
    obtain ⟨u, hu, hl⟩ := hr.used l h1 h2
    rw [← hl]
    exact List.mem_map.mpr ⟨u, List.mem_range.mpr hu, rfl⟩

end RSVS.Mesh
