import Verif.Spec.ParentBound
import Verif.Lemmas.SpawnRemove
import Verif.Lemmas.Border

/-!
# Lemmas for the surfaces between cells of the parents
-/

namespace RSVS.ParentBound

open RSVS.Spec RSVS.Mesh RSVS.SpawnRemove

variable {m : Mesh} {ps : List Parent}

/-- The target of the cell of `p` over the volume at a position. -/
theorem over_ok {p : Parent} (hu : UniqueIndices m) (hl : p.conn.length = m.volus.length)
    (hh : ∀ i ∈ p.conn, ∃ y ∈ p.volus, y.index = i) (hn : (p.volus.map Volu.index).Nodup) {c : Int} (hc : HasVolu m c) :
    ∃ i y, elemAt p.conn (posOf Volu.index m.volus c) = .ok i ∧ y ∈ p.volus ∧ y.index = i ∧
      isearch Volu.index p.volus i = .ok y ∧ ∀ t, OverTarget m p c t ↔ t = y.target := by
  obtain ⟨k, h, hk, hx⟩ := posOf_mem (ix := Volu.index) hc
  have hkc : k < p.conn.length := hl ▸ hk
  obtain ⟨y, hy, hyi⟩ := hh _ (List.getElem_mem hkc)
  obtain ⟨y', h1, h2, h3⟩ := elemAt_posOf_ok (ix := Volu.index) (k := p.conn[k]) ⟨y, hy, hyi⟩
  have e : y' = y := inj_of_nodup hn h2 hy (h3.trans hyi.symm)
  subst e
  refine ⟨p.conn[k], y', ?_, hy, hyi, h1, ?_⟩
  · rw [h]; exact elemAt_of (List.getElem?_eq_getElem hkc)
  · intro t
    constructor
    · rintro ⟨l, x, z, hx1, hx2, hz, hzm, rfl⟩
      have : l = k := by
        have hxk : m.volus[k]? = some m.volus[k] := List.getElem?_eq_getElem hk
        obtain ⟨hl', e'⟩ := List.getElem?_eq_some_iff.mp hx1
        have h4 := posOf_getElem hu.volus l hl'
        rw [e', hx2, h] at h4
        omega
      subst this
      rw [List.getElem?_eq_getElem hkc] at hz
      have : z.index = y'.index := by rw [hyi]; exact (Option.some.inj hz).symm
      rw [inj_of_nodup hn hzm hy this]
    · rintro rfl
      exact ⟨k, m.volus[k], y', List.getElem?_eq_getElem hk, hx, by rw [List.getElem?_eq_getElem hkc, hyi], hy, rfl⟩

/-- The target over a volume. -/
noncomputable def tgt (m : Mesh) (p : Parent) (c : Int) : ℚ :=
  open Classical in if h : ∃ t, OverTarget m p c t then h.choose else 0

theorem over_tgt {p : Parent} (hu : UniqueIndices m) (hf : ParentsFit m ps) (hp : p ∈ ps) {c : Int} (hc : HasVolu m c) (t : ℚ) :
    OverTarget m p c t ↔ t = tgt m p c := by
  obtain ⟨i, y, _, _, _, _, h⟩ := over_ok hu (hf.length p hp) (hf.has p hp) (hf.unique p hp) hc
  have hex : ∃ t, OverTarget m p c t := ⟨y.target, (h _).mpr rfl⟩
  have hv : tgt m p c = y.target := by
    unfold tgt
    rw [dif_pos hex]
    exact (h _).mp hex.choose_spec
  rw [h, hv]

theorem targets_eq (hu : UniqueIndices m) {c : Int} (hc : HasVolu m c) : ∀ {ps : List Parent}, ParentsFit m ps →
    voluTargets m ps c = .ok (ps.map fun p => tgt m p c)
  | [], _ => rfl
  | p :: ps, hf => by
    have hf' : ParentsFit m ps := ⟨fun q hq => hf.length q (by simp [hq]), fun q hq => hf.has q (by simp [hq]), fun q hq => hf.unique q (by simp [hq])⟩
    have ih := targets_eq hu hc hf'
    unfold voluTargets at ih ⊢
    obtain ⟨i, y, h1, h2, h3, h4, h5⟩ := over_ok hu (hf.length p (by simp)) (hf.has p (by simp)) (hf.unique p (by simp)) hc
    have ht : y.target = tgt m p c := (over_tgt hu hf (by simp) hc _).mp ((h5 _).mpr rfl)
    rw [List.mapM_cons, h1, ok_bind, h4, ih]
    show Except.ok _ = _
    rw [List.map_cons, ← ht]

theorem atBound_iff (hu : UniqueIndices m) (hf : ParentsFit m ps) {p : Parent} (hp : p ∈ ps) {c : Int} (hc : HasVolu m c) (b eps : ℚ) :
    AtBound m b eps p c ↔ near b eps (tgt m p c) = true := by
  unfold AtBound near
  rw [decide_eq_true_iff]
  constructor
  · rintro ⟨t, h1, h2⟩
    rw [over_tgt hu hf hp hc] at h1
    exact h1 ▸ h2
  · intro h; exact ⟨_, (over_tgt hu hf hp hc _).mpr rfl, h⟩

/-- The first parent for which a test holds. -/
theorem find_first {α β : Type} (g : α → β) (P : β → Bool) : ∀ (l : List α),
    ((l.map g).find? P = none ∧ ∀ a ∈ l, P (g a) = false) ∨
    ∃ pre a post, l = pre ++ a :: post ∧ (∀ q ∈ pre, P (g q) = false) ∧ P (g a) = true ∧ (l.map g).find? P = some (g a)
  | [] => Or.inl ⟨rfl, by simp⟩
  | a :: l => by
    by_cases h : P (g a) = true
    · exact Or.inr ⟨[], a, l, rfl, by simp, h, by simp [h]⟩
    · have h' : P (g a) = false := by simpa using h
      rcases find_first g P l with ⟨h1, h2⟩ | ⟨pre, x, post, h1, h2, h3, h4⟩
      · left
        refine ⟨by rw [List.map_cons, List.find?_cons_of_neg (by simp [h']), h1], ?_⟩
        intro b hb
        rcases List.mem_cons.mp hb with rfl | hb
        · exact h'
        · exact h2 b hb
      · right
        refine ⟨a :: pre, x, post, by rw [h1]; rfl, ?_, h3, ?_⟩
        · intro q hq
          rcases List.mem_cons.mp hq with rfl | hq
          · exact h'
          · exact h2 q hq
        · rw [List.map_cons, List.find?_cons_of_neg (by simp [h']), h4]

theorem inParentLoop_ok {kk1 kk2 : Nat} : ∀ (ps : List Parent) (jj : Nat), (∀ p ∈ ps, kk1 < p.conn.length ∧ kk2 < p.conn.length) →
    ∃ j : Int, inParentLoop kk1 kk2 ps jj = .ok j ∧ (j < 0 → ∀ p ∈ ps, p.conn[kk1]? = p.conn[kk2]?)
  | [], jj, _ => ⟨-1, rfl, by simp⟩
  | p :: ps, jj, h => by
    obtain ⟨h1, h2⟩ := h p (by simp)
    obtain ⟨j, hj1, hj2⟩ := inParentLoop_ok ps (jj + 1) (fun q hq => h q (by simp [hq]))
    unfold inParentLoop
    rw [if_neg (by omega), if_pos (by omega), elemAt_of (List.getElem?_eq_getElem h1), ok_bind,
      elemAt_of (List.getElem?_eq_getElem h2), ok_bind]
    by_cases hab : p.conn[kk1] = p.conn[kk2]
    · rw [if_neg (by simpa using hab)]
      refine ⟨j, by exact_mod_cast hj1, fun hneg q hq => ?_⟩
      rcases List.mem_cons.mp hq with rfl | hq
      · rw [List.getElem?_eq_getElem h1, List.getElem?_eq_getElem h2, hab]
      · exact hj2 hneg q hq
    · rw [if_pos hab]
      exact ⟨jj, rfl, fun h => by omega⟩

/-- `SurfInParent` of a surface between two volumes: when it is negative every parent has the two
volumes in one cell. -/
theorem surfInParent_ok (hu : UniqueIndices m) (hf : ParentsFit m ps) {x : Surf} (hx : x ∈ m.surfs) {c d : Int}
    (hv : x.voluind = [c, d]) (hc : HasVolu m c) (hd : HasVolu m d) :
    ∃ j, surfInParent m ps x.index = .ok j ∧ (j < 0 → ∀ p ∈ ps, tgt m p c = tgt m p d) := by
  obtain ⟨x', h1, h2, h3⟩ := elemAt_posOf_ok (ix := Surf.index) (k := x.index) ⟨x, hx, rfl⟩
  obtain ⟨q, hq, _⟩ := posOf_mem (ix := Surf.index) (l := m.surfs) (k := x.index) ⟨x, hx, rfl⟩
  rw [inj_of_nodup hu.surfs h2 hx h3] at h1
  obtain ⟨k1, e1, hk1, i1⟩ := posOf_mem (ix := Volu.index) hc
  obtain ⟨k2, e2, hk2, i2⟩ := posOf_mem (ix := Volu.index) hd
  obtain ⟨j, hj1, hj2⟩ := inParentLoop_ok (kk1 := k1) (kk2 := k2) ps 0 (fun p hp => by rw [hf.length p hp]; exact ⟨hk1, hk2⟩)
  refine ⟨j, ?_, ?_⟩
  · unfold surfInParent
    rw [if_pos (by omega), h1, ok_bind, hv]
    show inParentLoop (posOf Volu.index m.volus c) (posOf Volu.index m.volus d) ps 0 = _
    rw [e1, e2]
    exact hj1
  · intro hneg p hp
    have hcon := hj2 hneg p hp
    obtain ⟨i, y, ha, hb, hyi, _, hov⟩ := over_ok hu (hf.length p hp) (hf.has p hp) (hf.unique p hp) hc
    obtain ⟨i', y', ha', hb', hyi', _, hov'⟩ := over_ok hu (hf.length p hp) (hf.has p hp) (hf.unique p hp) hd
    have hl1 : k1 < p.conn.length := by rw [hf.length p hp]; exact hk1
    have hl2 : k2 < p.conn.length := by rw [hf.length p hp]; exact hk2
    rw [e1, elemAt_of (List.getElem?_eq_getElem hl1)] at ha
    rw [e2, elemAt_of (List.getElem?_eq_getElem hl2)] at ha'
    rw [List.getElem?_eq_getElem hl1, List.getElem?_eq_getElem hl2] at hcon
    have hii : i = i' := by
      cases ha; cases ha'; exact Option.some.inj hcon
    have hyy : y = y' := inj_of_nodup (hf.unique p hp) hb hb' (by rw [hyi, hyi', hii])
    rw [← (over_tgt hu hf hp hc y.target).mp ((hov _).mpr rfl), ← (over_tgt hu hf hp hd y'.target).mp ((hov' _).mpr rfl), hyy]

/-- What one surface adds. -/
structure Adds (m : Mesh) (ps : List Parent) (isB outer : Bool) (eps : ℚ) (x : Surf) (A B : List Int) : Prop where
  listed : A = [] ∨ A = [x.index]
  iff : A = [x.index] ↔ (isB = true ∧ 0 ∈ x.voluind) ∨ ∃ c d, c ≠ 0 ∧ d ≠ 0 ∧ (x.voluind = [c, d] ∨ x.voluind = [d, c]) ∧
    ∃ p ∈ ps, AtBound m (boundValue outer) eps p c ∧ ¬ AtBound m (boundValue outer) eps p d
  volus : ∀ c, c ∈ B ↔ (isB = true ∧ 0 ∈ x.voluind ∧ c ≠ 0 ∧ c ∈ x.voluind) ∨
    ∃ d, c ≠ 0 ∧ d ≠ 0 ∧ (x.voluind = [c, d] ∨ x.voluind = [d, c]) ∧
      ∃ p, FirstParent m ps (boundValue outer) eps c d p ∧ AtBound m (boundValue outer) eps p c ∧ ¬ AtBound m (boundValue outer) eps p d

theorem firstParent_iff (hu : UniqueIndices m) (hf : ParentsFit m ps) {b eps : ℚ} {c d : Int} (hc : HasVolu m c) (hd : HasVolu m d)
    {pre post : List Parent} {p : Parent} (e : ps = pre ++ p :: post)
    (hpre : ∀ q ∈ pre, (near b eps (tgt m q c) != near b eps (tgt m q d)) = false)
    (hp : (near b eps (tgt m p c) != near b eps (tgt m p d)) = true) (q : Parent) :
    (FirstParent m ps b eps c d q ∧ AtBound m b eps q c ∧ ¬ AtBound m b eps q d) ↔
      q = p ∧ near b eps (tgt m p c) = true := by
  have hmem : ∀ q, q ∈ pre → q ∈ ps := fun q h => by rw [e]; simp [h]
  constructor
  · rintro ⟨⟨pre', post', e', hpre'⟩, h1, h2⟩
    have hq : q ∈ ps := by rw [e']; simp
    have hqs : near b eps (tgt m q c) = true ∧ near b eps (tgt m q d) = false := by
      rw [atBound_iff hu hf hq hc] at h1
      rw [atBound_iff hu hf hq hd] at h2
      exact ⟨h1, by simpa using h2⟩
    have : q = p := by
      rw [e] at e'
      rcases List.append_eq_append_iff.mp e' with ⟨as, h3, h4⟩ | ⟨bs, h3, h4⟩
      · cases as with
        | nil => simp at h4; exact h4.1.symm
        | cons a as =>
          simp only [List.cons_append, List.cons.injEq] at h4
          exfalso
          have hpp : p ∈ pre' := by rw [h3]; simp [h4.1]
          have := hpre' p hpp
          rw [atBound_iff hu hf (by rw [e]; simp) hc, atBound_iff hu hf (by rw [e]; simp) hd] at this
          revert hp this
          cases near b eps (tgt m p c) <;> cases near b eps (tgt m p d) <;> simp
      · cases bs with
        | nil => simp at h4; exact h4.1
        | cons a as =>
          simp only [List.cons_append, List.cons.injEq] at h4
          exfalso
          have hqp : q ∈ pre := by rw [h3]; simp [h4.1]
          have := hpre q hqp
          rw [hqs.1, hqs.2] at this
          simp at this
    subst this
    exact ⟨rfl, hqs.1⟩
  · rintro ⟨rfl, h⟩
    refine ⟨⟨pre, post, e, fun r hr => ?_⟩, ?_, ?_⟩
    · rw [atBound_iff hu hf (hmem r hr) hc, atBound_iff hu hf (hmem r hr) hd]
      have := hpre r hr
      revert this
      cases near b eps (tgt m r c) <;> cases near b eps (tgt m r d) <;> simp
    · rw [atBound_iff hu hf (by rw [e]; simp) hc]; exact h
    · rw [atBound_iff hu hf (by rw [e]; simp) hd]
      revert hp
      rw [h]
      cases near b eps (tgt m q d) <;> simp

theorem step_ok (hm : Sound m) (hf : ParentsFit m ps) (isB outer : Bool) (eps : ℚ) {x : Surf} (hx : x ∈ m.surfs)
    (h2 : x.voluind.length = 2) : ∃ A B, Adds m ps isB outer eps x A B ∧
      ∀ a, surfBoundStep m ps isB outer eps a x = .ok (a.1 ++ A, a.2 ++ B) := by
  obtain ⟨c, d, hv⟩ : ∃ c d, x.voluind = [c, d] := by
    match h : x.voluind, h2 with
    | [c, d], _ => exact ⟨c, d, rfl⟩
  have hstep : ∀ a, surfBoundStep m ps isB outer eps a x = _ := fun a => rfl
  have pair : ∀ c' d', (x.voluind = [c', d'] ∨ x.voluind = [d', c']) ↔ (c' = c ∧ d' = d) ∨ (c' = d ∧ d' = c) := by
    intro c' d'
    rw [hv]
    simp only [List.cons.injEq, and_true]
    tauto
  by_cases h0 : c = 0 ∨ d = 0
  · have hz : 0 ∈ x.voluind := by rw [hv]; rcases h0 with h | h <;> simp [h]
    have hno : ∀ c' d', c' ≠ 0 → d' ≠ 0 → ¬ (x.voluind = [c', d'] ∨ x.voluind = [d', c']) := by
      intro c' d' h1 h2 h
      rcases (pair c' d').mp h with ⟨rfl, rfl⟩ | ⟨rfl, rfl⟩ <;> rcases h0 with h | h <;> contradiction
    refine ⟨if isB then [x.index] else [], if isB then (if c ≠ 0 then [c] else []) ++ (if d ≠ 0 then [d] else []) else [], ⟨?_, ?_, ?_⟩, ?_⟩
    · cases isB <;> simp
    · constructor
      · intro h
        left
        cases isB
        · simp at h
        · exact ⟨rfl, hz⟩
      · rintro (⟨h, _⟩ | ⟨c', d', h1, h2, h3, _⟩)
        · simp [h]
        · exact absurd h3 (hno c' d' h1 h2)
    · intro c'
      constructor
      · intro h
        left
        cases isB
        · simp at h
        · refine ⟨rfl, hz, ?_⟩
          rw [hv]
          simp only [if_true, List.mem_append] at h
          rcases h with h | h
          · split at h
            · rw [List.mem_singleton] at h; subst h; exact ⟨by assumption, by simp⟩
            · simp at h
          · split at h
            · rw [List.mem_singleton] at h; subst h; exact ⟨by assumption, by simp⟩
            · simp at h
      · rintro (⟨h, _, hne, hm'⟩ | ⟨d', h1, h2, h3, _⟩)
        · rw [h]
          simp only [if_true, List.mem_append]
          rw [hv] at hm'
          simp only [List.mem_cons, List.not_mem_nil, or_false] at hm'
          rcases hm' with rfl | rfl
          · left; simp [hne]
          · right; simp [hne]
        · exact absurd h3 (hno c' d' h1 h2)
    · intro a
      unfold surfBoundStep
      rw [hv]
      show (if c = 0 ∨ d = 0 then _ else _) = _
      rw [if_pos h0]
      cases isB <;> simp
  · rw [not_or] at h0
    have hc : HasVolu m c := hm.noDangling.surfVolu _ _ ⟨x, hx, rfl, by rw [hv]; simp⟩ h0.1
    have hd : HasVolu m d := hm.noDangling.surfVolu _ _ ⟨x, hx, rfl, by rw [hv]; simp⟩ h0.2
    have hz : ¬ (0 ∈ x.voluind) := by rw [hv]; simp; exact ⟨fun h => h0.1 h.symm, fun h => h0.2 h.symm⟩
    obtain ⟨j, hj1, hj2⟩ := surfInParent_ok hm.unique hf hx hv hc hd
    have hb : boundOf outer = boundValue outer := rfl
    have hfb : firstBound (boundOf outer) eps (ps.map fun p => tgt m p c) (ps.map fun p => tgt m p d) =
        (ps.map fun p => (tgt m p c, tgt m p d)).find? fun v => near (boundOf outer) eps v.1 != near (boundOf outer) eps v.2 := by
      unfold firstBound
      rw [List.zip_map']
    have hstep : ∀ a, surfBoundStep m ps isB outer eps a x = .ok
        (match firstBound (boundOf outer) eps (ps.map fun p => tgt m p c) (ps.map fun p => tgt m p d) with
        | none => a
        | some v => (a.1 ++ [x.index],
           a.2 ++ (if near (boundOf outer) eps v.2 then [d] else if near (boundOf outer) eps v.1 then [c] else []))) := by
      intro a
      unfold surfBoundStep
      rw [hv]
      show (if c = 0 ∨ d = 0 then _ else _) = _
      rw [if_neg (by tauto), hj1, ok_bind]
      by_cases hj : j ≥ 0
      · rw [if_pos hj, targets_eq hm.unique hc hf, ok_bind, targets_eq hm.unique hd hf]
        rfl
      · rw [if_neg hj]
        have heq := hj2 (by omega)
        have : firstBound (boundOf outer) eps (ps.map fun p => tgt m p c) (ps.map fun p => tgt m p d) = none := by
          rw [hfb, List.find?_eq_none]
          intro v hvm
          obtain ⟨p, hp, rfl⟩ := List.mem_map.mp hvm
          simp [heq p hp]
        rw [this]
    rcases find_first (fun p => (tgt m p c, tgt m p d)) (fun v => near (boundOf outer) eps v.1 != near (boundOf outer) eps v.2) ps with
      ⟨h1, h2'⟩ | ⟨pre, p, post, e, hpre, hp, h1⟩
    · -- no parent separates
      refine ⟨[], [], ⟨Or.inl rfl, ?_, ?_⟩, ?_⟩
      · constructor
        · intro h; simp at h
        · rintro (⟨_, h⟩ | ⟨c', d', _, _, h3, p, hp, ha, hb'⟩)
          · exact absurd h hz
          · have := h2' p hp
            rcases (pair c' d').mp h3 with ⟨rfl, rfl⟩ | ⟨rfl, rfl⟩
            · rw [atBound_iff hm.unique hf hp hc] at ha
              rw [atBound_iff hm.unique hf hp hd] at hb'
              rw [← hb] at ha hb'
              simp only [ha] at this
              revert this hb'
              cases near (boundOf outer) eps (tgt m p d') <;> simp
            · rw [atBound_iff hm.unique hf hp hd] at ha
              rw [atBound_iff hm.unique hf hp hc] at hb'
              rw [← hb] at ha hb'
              simp only [ha] at this
              revert this hb'
              cases near (boundOf outer) eps (tgt m p d') <;> simp
      · intro c'
        constructor
        · intro h; simp at h
        · rintro (⟨_, h, _⟩ | ⟨d', _, _, h3, p, ⟨pre, post, e, _⟩, ha, hb'⟩)
          · exact absurd h hz
          · have hp : p ∈ ps := by rw [e]; simp
            have := h2' p hp
            rcases (pair c' d').mp h3 with ⟨rfl, rfl⟩ | ⟨rfl, rfl⟩
            · rw [atBound_iff hm.unique hf hp hc] at ha
              rw [atBound_iff hm.unique hf hp hd] at hb'
              rw [← hb] at ha hb'
              simp only [ha] at this
              revert this hb'
              cases near (boundOf outer) eps (tgt m p d') <;> simp
            · rw [atBound_iff hm.unique hf hp hd] at ha
              rw [atBound_iff hm.unique hf hp hc] at hb'
              rw [← hb] at ha hb'
              simp only [ha] at this
              revert this hb'
              cases near (boundOf outer) eps (tgt m p d') <;> simp
      · intro a
        rw [hstep, hfb, h1]
        simp
    · refine ⟨[x.index], if near (boundOf outer) eps (tgt m p d) then [d] else if near (boundOf outer) eps (tgt m p c) then [c] else [], ⟨Or.inr rfl, ?_, ?_⟩, ?_⟩
      · refine iff_of_true rfl (Or.inr ?_)
        have hpm : p ∈ ps := by rw [e]; simp
        cases hn : near (boundOf outer) eps (tgt m p c) with
        | true =>
          refine ⟨c, d, h0.1, h0.2, Or.inl hv, p, hpm, ?_, ?_⟩
          · rw [atBound_iff hm.unique hf hpm hc]; exact hn
          · rw [atBound_iff hm.unique hf hpm hd]
            intro h
            rw [← hb] at h
            simp [hn, h] at hp
        | false =>
          refine ⟨d, c, h0.2, h0.1, Or.inr hv, p, hpm, ?_, ?_⟩
          · rw [atBound_iff hm.unique hf hpm hd, ← hb]
            simpa [hn] using hp
          · rw [atBound_iff hm.unique hf hpm hc, ← hb, hn]; simp
      · intro c'
        have F1 := firstParent_iff hm.unique hf hc hd e hpre hp
        have F2 := firstParent_iff (b := boundOf outer) (eps := eps) hm.unique hf hd hc e
          (fun q hq => by have := hpre q hq; revert this; simp only [bne_eq_false_iff_eq]; exact Eq.symm)
          (by revert hp; simp only [bne_iff_ne, ne_eq]; exact fun h h' => h h'.symm)
        rw [hb] at F1 F2
        have hex : (∃ d', c' ≠ 0 ∧ d' ≠ 0 ∧ (x.voluind = [c', d'] ∨ x.voluind = [d', c']) ∧
            ∃ q, FirstParent m ps (boundValue outer) eps c' d' q ∧ AtBound m (boundValue outer) eps q c' ∧ ¬ AtBound m (boundValue outer) eps q d') ↔
            (c' = c ∧ near (boundValue outer) eps (tgt m p c) = true) ∨ (c' = d ∧ near (boundValue outer) eps (tgt m p d) = true) := by
          constructor
          · rintro ⟨d', _, _, h3, q, hq⟩
            rcases (pair c' d').mp h3 with ⟨rfl, rfl⟩ | ⟨rfl, rfl⟩
            · exact Or.inl ⟨rfl, ((F1 q).mp hq).2⟩
            · exact Or.inr ⟨rfl, ((F2 q).mp hq).2⟩
          · rintro (⟨rfl, h⟩ | ⟨rfl, h⟩)
            · exact ⟨d, h0.1, h0.2, Or.inl hv, p, (F1 p).mpr ⟨rfl, h⟩⟩
            · exact ⟨c, h0.2, h0.1, Or.inr hv, p, (F2 p).mpr ⟨rfl, h⟩⟩
        rw [hex, hb]
        rw [hb] at hp
        simp only [hz, false_and, and_false, false_or]
        revert hp
        cases near (boundValue outer) eps (tgt m p c) <;> cases near (boundValue outer) eps (tgt m p d) <;> simp
      · intro a
        rw [hstep, hfb, h1]

theorem bound_fold {f : Found → Surf → Res Found} {P : Surf → List Int → List Int → Prop} : ∀ (l : List Surf) (a : Found),
    (∀ x ∈ l, ∃ A B, P x A B ∧ ∀ a, f a x = .ok (a.1 ++ A, a.2 ++ B)) →
    ∃ r : List (List Int × List Int), List.Forall₂ (fun x q => P x q.1 q.2) l r ∧
      l.foldlM (m := Except Fault) f a = .ok (a.1 ++ (r.map Prod.fst).flatten, a.2 ++ (r.map Prod.snd).flatten)
  | [], a, _ => ⟨[], List.Forall₂.nil, by simp; rfl⟩
  | x :: l, a, h => by
    obtain ⟨A, B, h1, h2⟩ := h x (by simp)
    obtain ⟨r, h3, h4⟩ := bound_fold l (a.1 ++ A, a.2 ++ B) (fun y hy => h y (by simp [hy]))
    refine ⟨(A, B) :: r, List.Forall₂.cons h1 h3, ?_⟩
    rw [List.foldlM_cons, h2]
    show List.foldlM _ _ _ = _
    rw [h4]
    simp

theorem flat_sublist : ∀ {l : List Surf} {r : List (List Int × List Int)} {P : Surf → List Int → List Int → Prop},
    (∀ x A B, P x A B → A = [] ∨ A = [x.index]) → List.Forall₂ (fun x q => P x q.1 q.2) l r →
    (r.map Prod.fst).flatten.Sublist (l.map Surf.index)
  | [], [], _, _, _ => by simp
  | x :: l, q :: r, P, h, .cons h1 h2 => by
    have ih := flat_sublist h h2
    rw [List.map_cons, List.map_cons, List.flatten_cons]
    rcases h _ _ _ h1 with e | e
    · rw [e]; exact ih.cons _
    · rw [e]; exact ih.cons_cons _

theorem flat_mem {P : Surf → List Int → List Int → Prop} : ∀ {l : List Surf} {r : List (List Int × List Int)} (i : Int),
    List.Forall₂ (fun x q => P x q.1 q.2) l r →
    (i ∈ (r.map Prod.fst).flatten ↔ ∃ q ∈ l.zip r, i ∈ q.2.1) ∧ (i ∈ (r.map Prod.snd).flatten ↔ ∃ q ∈ l.zip r, i ∈ q.2.2)
  | [], [], i, _ => by simp
  | x :: l, q :: r, i, .cons h1 h2 => by
    obtain ⟨a, b⟩ := flat_mem i h2
    simp only [List.map_cons, List.flatten_cons, List.mem_append, List.zip_cons_cons, List.mem_cons, exists_eq_or_imp, a, b, and_self]

theorem forall2_zip {P : Surf → List Int → List Int → Prop} : ∀ {l : List Surf} {r : List (List Int × List Int)},
    List.Forall₂ (fun x q => P x q.1 q.2) l r → (∀ q ∈ l.zip r, P q.1 q.2.1 q.2.2) ∧ ∀ x ∈ l, ∃ A B, (x, A, B) ∈ l.zip r
  | [], [], _ => by simp
  | x :: l, q :: r, .cons h1 h2 => by
    obtain ⟨a, b⟩ := forall2_zip h2
    constructor
    · intro z hz
      rw [List.zip_cons_cons, List.mem_cons] at hz
      rcases hz with rfl | hz
      · exact h1
      · exact a z hz
    · intro y hy
      rcases List.mem_cons.mp hy with rfl | hy
      · exact ⟨q.1, q.2, by simp⟩
      · obtain ⟨A, B, h⟩ := b y hy
        exact ⟨A, B, by rw [List.zip_cons_cons]; exact List.mem_cons_of_mem _ h⟩

/-- `SurfOnParentBound`. -/
theorem surfOnParentBound_ok (hm : Sound m) (h2 : TwoVolus m) (hf : ParentsFit m ps) (isB outer : Bool) (eps : ℚ) :
    ∃ ss cs, surfOnParentBound m ps isB outer eps = .ok (ss, cs) ∧ ss.Sublist (m.surfs.map Surf.index) ∧
      (∀ s, s ∈ ss ↔ (isB = true ∧ SurfVolu m s 0) ∨ BetweenCells m ps (boundValue outer) eps s) ∧
      ∀ c, c ∈ cs ↔ (isB = true ∧ c ≠ 0 ∧ ∃ s, SurfVolu m s 0 ∧ SurfVolu m s c) ∨ BoundSide m ps (boundValue outer) eps c := by
  obtain ⟨r, h3, h4⟩ := bound_fold (f := surfBoundStep m ps isB outer eps) (P := Adds m ps isB outer eps) m.surfs ([], [])
    (fun x hx => step_ok hm hf isB outer eps hx (h2 x hx))
  obtain ⟨z1, z2⟩ := forall2_zip h3
  refine ⟨(r.map Prod.fst).flatten, (r.map Prod.snd).flatten, by simpa [surfOnParentBound] using h4,
    flat_sublist (fun x A B h => h.listed) h3, ?_, ?_⟩
  · intro s
    rw [(flat_mem s h3).1]
    constructor
    · rintro ⟨⟨x, A, B⟩, hq, hs⟩
      have hx := (List.of_mem_zip hq).1
      have ha := z1 _ hq
      simp only at hx ha hs
      have hA : A = [x.index] := by
        rcases ha.listed with e | e
        · rw [e] at hs; simp at hs
        · exact e
      rw [hA, List.mem_singleton] at hs
      subst hs
      rcases ha.iff.mp hA with ⟨h, h'⟩ | ⟨c, d, h1, h2', h3', h4'⟩
      · exact Or.inl ⟨h, x, hx, rfl, h'⟩
      · exact Or.inr ⟨c, d, h1, h2', ⟨x, hx, rfl, h3'⟩, h4'⟩
    · intro h
      have : ∃ x ∈ m.surfs, x.index = s ∧ ((isB = true ∧ 0 ∈ x.voluind) ∨ ∃ c d, c ≠ 0 ∧ d ≠ 0 ∧ (x.voluind = [c, d] ∨ x.voluind = [d, c]) ∧
          ∃ p ∈ ps, AtBound m (boundValue outer) eps p c ∧ ¬ AtBound m (boundValue outer) eps p d) := by
        rcases h with ⟨h, x, hx, rfl, h'⟩ | ⟨c, d, h1, h2', ⟨x, hx, rfl, h3'⟩, h4'⟩
        · exact ⟨x, hx, rfl, Or.inl ⟨h, h'⟩⟩
        · exact ⟨x, hx, rfl, Or.inr ⟨c, d, h1, h2', h3', h4'⟩⟩
      clear h
      obtain ⟨x, hx, rfl, h⟩ := this
      obtain ⟨A, B, hz⟩ := z2 x hx
      have hA := (z1 _ hz).iff.mpr h
      exact ⟨_, hz, by simp only at hA ⊢; rw [hA]; simp⟩
  · intro c
    rw [(flat_mem c h3).2]
    constructor
    · rintro ⟨⟨x, A, B⟩, hq, hs⟩
      have hx := (List.of_mem_zip hq).1
      have ha := z1 _ hq
      simp only at hx ha hs
      rcases (ha.volus c).mp hs with ⟨h1, h2', h3', h4'⟩ | ⟨d, h1, h2', h3', h4'⟩
      · exact Or.inl ⟨h1, h3', x.index, ⟨x, hx, rfl, h2'⟩, ⟨x, hx, rfl, h4'⟩⟩
      · exact Or.inr ⟨x.index, d, h1, h2', ⟨x, hx, rfl, h3'⟩, h4'⟩
    · intro h
      have : ∃ x ∈ m.surfs, (isB = true ∧ 0 ∈ x.voluind ∧ c ≠ 0 ∧ c ∈ x.voluind) ∨
          ∃ d, c ≠ 0 ∧ d ≠ 0 ∧ (x.voluind = [c, d] ∨ x.voluind = [d, c]) ∧
          ∃ p, FirstParent m ps (boundValue outer) eps c d p ∧ AtBound m (boundValue outer) eps p c ∧ ¬ AtBound m (boundValue outer) eps p d := by
        rcases h with ⟨h1, h2', s, ⟨x, hx, rfl, h3'⟩, ⟨y, hy, hyi, h4'⟩⟩ | ⟨s, d, h1, h2', ⟨x, hx, rfl, h3'⟩, h4'⟩
        · rw [inj_of_nodup hm.unique.surfs hy hx hyi] at h4'
          exact ⟨x, hx, Or.inl ⟨h1, h3', h2', h4'⟩⟩
        · exact ⟨x, hx, Or.inr ⟨d, h1, h2', h3', h4'⟩⟩
      obtain ⟨x, hx, h⟩ := this
      obtain ⟨A, B, hz⟩ := z2 x hx
      exact ⟨_, hz, ((z1 _ hz).volus c).mpr h⟩

theorem innerVert_ok (hu : UniqueIndices m) {v : Int} (hv : HasVert m v) :
    ∃ l, innerVert m v = .ok l ∧ ∀ w, w ∈ l ↔ w = v ∧ ¬ VertMarked m v := by
  obtain ⟨x, h1, h2, h3⟩ := elemAt_posOf_ok (ix := Vert.index) (k := v) hv
  have hmk : VertMarked m v ↔ x.isBorder = true := by
    constructor
    · rintro ⟨y, hy, hyi, hb⟩; rw [← inj_of_nodup hu.verts hy h2 (hyi.trans h3.symm)]; exact hb
    · intro h; exact ⟨x, h2, h3, h⟩
  refine ⟨if !x.isBorder then [x.index] else [], ?_, ?_⟩
  · unfold innerVert isearch; rw [h1]; rfl
  · intro w
    rw [hmk, h3]
    cases x.isBorder <;> simp

theorem innerVerts_ok (hm : Sound m) (ht : TwoVerts m) {e : Int} (he : HasEdge m e) :
    ∃ l, innerVerts m e = .ok l ∧ ∀ w, w ∈ l ↔ EdgeVert m e w ∧ ¬ VertMarked m w := by
  obtain ⟨x, h1, h2, h3⟩ := elemAt_posOf_ok (ix := Edge.index) (k := e) he
  obtain ⟨a, b, hab⟩ : ∃ a b, x.vertind = [a, b] := by
    have := ht x h2
    match h : x.vertind, this with
    | [a, b], _ => exact ⟨a, b, rfl⟩
  have hev : ∀ w, EdgeVert m e w ↔ w = a ∨ w = b := by
    intro w
    constructor
    · rintro ⟨y, hy, hyi, hw⟩
      rw [inj_of_nodup hm.unique.edges hy h2 (hyi.trans h3.symm), hab] at hw
      simpa using hw
    · intro h; exact ⟨x, h2, h3, by rw [hab]; simpa using h⟩
  have hvx : ∀ w, EdgeVert m e w → HasVert m w := fun w h =>
    hm.noDangling.edgeVert e w h (by rintro rfl; exact hm.zeroOutside.edgeVert e h)
  obtain ⟨l, hl1, hl2⟩ := innerVert_ok hm.unique (hvx a ((hev a).mpr (Or.inl rfl)))
  obtain ⟨k, hk1, hk2⟩ := innerVert_ok hm.unique (hvx b ((hev b).mpr (Or.inr rfl)))
  refine ⟨l ++ k, ?_, ?_⟩
  · unfold innerVerts isearch
    rw [h1, ok_bind, hab]
    show (innerVert m a).bind _ = _
    rw [hl1, ok_bind]
    show (innerVert m b).map _ = _
    rw [hk1]
    rfl
  · intro w
    rw [List.mem_append, hl2, hk2, hev]
    constructor
    · rintro (⟨rfl, h⟩ | ⟨rfl, h⟩)
      · exact ⟨Or.inl rfl, h⟩
      · exact ⟨Or.inr rfl, h⟩
    · rintro ⟨rfl | rfl, h⟩
      · exact Or.inl ⟨rfl, h⟩
      · exact Or.inr ⟨rfl, h⟩

theorem gather_ok {f : Int → Res (List Int)} {P : Int → Int → Prop} : ∀ (l : List Int) (a : List Int),
    (∀ x ∈ l, ∃ r, f x = .ok r ∧ ∀ w, w ∈ r ↔ P x w) →
    ∃ r, l.foldlM (m := Except Fault) (fun acc x => (f x).map fun k => acc ++ k) a = .ok (a ++ r) ∧
      ∀ w, w ∈ r ↔ ∃ x ∈ l, P x w
  | [], a, _ => ⟨[], by simp; rfl, by simp⟩
  | x :: l, a, h => by
    obtain ⟨r, h1, h2⟩ := h x (by simp)
    obtain ⟨r', h3, h4⟩ := gather_ok l (a ++ r) (fun y hy => h y (by simp [hy]))
    refine ⟨r ++ r', ?_, ?_⟩
    · rw [List.foldlM_cons, h1]
      show List.foldlM _ _ _ = _
      rw [h3, List.append_assoc]
    · intro w
      simp [h2, h4]

theorem innerLoop_ok (hm : Sound m) (ht : TwoVerts m) (ss : List Int) (hs : ∀ s ∈ ss, HasSurf m s) :
    ∃ vs, innerLoop m ss = .ok vs ∧ ∀ v, v ∈ vs ↔ ∃ s ∈ ss, SurfVert m s v ∧ ¬ VertMarked m v := by
  have key : ∀ s ∈ ss, ∃ r, (fun s => (elemAt m.surfs (posOf Surf.index m.surfs s)).bind fun x =>
      x.edgeind.foldlM (m := Except Fault) (fun acc e => (innerVerts m e).map fun l => acc ++ l) []) s = .ok r ∧
      ∀ w, w ∈ r ↔ SurfVert m s w ∧ ¬ VertMarked m w := by
    intro s h
    obtain ⟨x, h1, h2, h3⟩ := elemAt_posOf_ok (ix := Surf.index) (k := s) (hs s h)
    obtain ⟨r, hr1, hr2⟩ := gather_ok (f := innerVerts m) (P := fun e w => EdgeVert m e w ∧ ¬ VertMarked m w) x.edgeind []
      (fun e he => innerVerts_ok hm ht (hm.noDangling.surfEdge s e ⟨x, h2, h3, he⟩))
    refine ⟨r, ?_, ?_⟩
    · beta_reduce
      rw [show elemAt m.surfs (posOf Surf.index m.surfs s) = .ok x from h1, ok_bind, hr1]
      rfl
    · intro w
      rw [hr2]
      constructor
      · rintro ⟨e, he, h4, h5⟩; exact ⟨⟨e, ⟨x, h2, h3, he⟩, h4⟩, h5⟩
      · rintro ⟨⟨e, ⟨y, hy, hyi, he⟩, h4⟩, h5⟩
        rw [inj_of_nodup hm.unique.surfs hy h2 (hyi.trans h3.symm)] at he
        exact ⟨e, he, h4, h5⟩
  obtain ⟨r, h1, h2⟩ := gather_ok ss [] key
  refine ⟨r, ?_, h2⟩
  unfold innerLoop
  rw [← List.nil_append r, ← h1]
  congr 1
  funext acc s
  cases he : elemAt m.surfs (posOf Surf.index m.surfs s) with
  | error e => rfl
  | ok x =>
    rw [ok_bind, ok_bind]
    generalize x.edgeind = l
    have : ∀ (l : List Int) (a b : List Int), l.foldlM (m := Except Fault) (fun acc e => (innerVerts m e).map fun l => acc ++ l) (a ++ b) =
        (l.foldlM (m := Except Fault) (fun acc e => (innerVerts m e).map fun l => acc ++ l) b).map fun k => a ++ k := by
      intro l
      induction l with
      | nil => intro a b; rfl
      | cons e l ih =>
        intro a b
        rw [List.foldlM_cons, List.foldlM_cons]
        cases innerVerts m e with
        | error x => rfl
        | ok k =>
          show List.foldlM _ (a ++ b ++ k) l = Except.map _ (List.foldlM _ (b ++ k) l)
          rw [List.append_assoc]
          exact ih a (b ++ k)
    have h := this l acc []
    rw [List.append_nil] at h
    exact h

theorem allTargets_iff (hu : UniqueIndices m) (hf : ParentsFit m ps) {c : Int} (hc : HasVolu m c) (vals : List ℚ) :
    AllTargets m ps c vals ↔ vals = targetsOf m ps c := by
  unfold targetsOf
  rw [targets_eq hu hc hf]
  have : ∀ (l : List Parent), (∀ p ∈ l, p ∈ ps) → ∀ vals, List.Forall₂ (fun p t => OverTarget m p c t) l vals ↔ vals = l.map fun p => tgt m p c := by
    intro l
    induction l with
    | nil => intro _ vals; simp
    | cons p l ih =>
      intro h vals
      cases vals with
      | nil => simp
      | cons t vals =>
        rw [List.forall₂_cons, ih (fun q hq => h q (by simp [hq])), over_tgt hu hf (h p (by simp)) hc]
        simp
  exact this ps (fun _ h => h) vals

end RSVS.ParentBound
