import Verif.Lemmas.MergeSurf

/-!
# Lemmas for the merge of surfaces: the starts of the search
-/

namespace RSVS.MergeSurf

open RSVS.Spec RSVS.Mesh RSVS.SpawnRemove

variable {m : Mesh} {g : Group} {findE : List Int → Int → List Nat} {findS : List Nat → Nat → List Nat}

/-- What holds before place `j` is looked at.  `ro` gives for each surface taken the one kept for it. -/
structure Scan (m : Mesh) (findE : List Int → Int → List Nat) (g : Group) (j : Nat) (done0 : List Bool) (a : Merged) (ro : Nat → Nat)
    (E : List Edit) : Prop where
  inv : Inv m findE g a.done a.count
  out : ∀ i, i ∉ g.sub → a.done[i]? = done0[i]?
  root : ∀ y ∈ g.sub, a.done[y]? = some true → ro y ∈ g.sub ∧ a.done[ro y]? = some true ∧ ro (ro y) = ro y ∧
    Relation.ReflTransGen (Nb g) (ro y) y
  start : ∀ y ∈ g.sub, a.done[y]? = some true → ro y = y → (∃ p e, p < j ∧ At g p e y) ∧
    (∀ p e, At g p e y → j ≤ p → a.count[p]? = some (cnt findE g e)) ∧
    ∀ p e, p < j → At g p e y → ∀ q z, At g q e z → a.done[z]? = some true ∧ ro z = y
  gone : ∀ y ∈ g.sub, a.done[y]? = some true → ro y ≠ y → (∀ p e, At g p e y → ∃ c, a.count[p]? = some c ∧ c ≤ 1) ∧
    (∀ z, Nb g y z → a.done[z]? = some true ∧ ro z = ro y) ∧ ∃ d ∈ E, d.keep = ids m (ro y) ∧ ids m y ∈ d.rmv
  edit : ∀ d ∈ E, d.rmv ≠ [] ∧ d.rmv.Pairwise (· < ·) ∧ ∃ s ∈ g.sub, a.done[s]? = some true ∧ ro s = s ∧ d.keep = ids m s ∧
    ∀ t ∈ d.rmv, ∃ y ∈ g.sub, a.done[y]? = some true ∧ ro y = s ∧ y ≠ s ∧ t = ids m y
  once : (E.flatMap Edit.rmv).Nodup
  passed : ∀ p e y, p < j → At g p e y → a.done[y]? = some false → cnt findE g e ≤ 1

theorem nb_symm {i j : Nat} (h : Nb g i j) : Nb g j i := by
  obtain ⟨p, q, e, h1, h2⟩ := h
  exact ⟨q, p, e, h2, h1⟩

/-- The places of a surface follow one another. -/
theorem block (hf : Fit m g) {p q r : Nat} {e e' e'' : Int} {i j : Nat} (hp : At g p e i) (hq : At g q e' j) (hr : At g r e'' i)
    (hpq : p < q) (hqr : q ≤ r) : i = j := by
  obtain ⟨k, _, ok, sk⟩ := id hp
  obtain ⟨l, _, ol, sl⟩ := id hq
  have hrk := hp.owner hf hr ok
  obtain ⟨h1, e1⟩ := List.getElem?_eq_some_iff.mp ok
  obtain ⟨h2, e2⟩ := List.getElem?_eq_some_iff.mp ol
  obtain ⟨h3, e3⟩ := List.getElem?_eq_some_iff.mp hrk
  have a := List.pairwise_iff_getElem.mp hf.mono p q h1 h2 hpq
  have b : g.owner[q] ≤ g.owner[r] := by
    rcases Nat.lt_or_eq_of_le hqr with h | h
    · exact List.pairwise_iff_getElem.mp hf.mono q r h2 h3 h
    · subst h; exact le_refl _
  rw [e1, e2] at a
  rw [e2, e3] at b
  have : k = l := le_antisymm a b
  subst this
  rw [sk] at sl
  exact Option.some.inj sl

theorem ids_inj (hu : (m.surfs.map Surf.index).Nodup) {i j : Nat} (hi : i < m.surfs.length) (hj : j < m.surfs.length)
    (h : ids m i = ids m j) : i = j := by
  unfold ids at h
  rw [List.getElem?_eq_getElem hi, List.getElem?_eq_getElem hj] at h
  have h1 : i < (m.surfs.map Surf.index).length := by simpa using hi
  have h2 : j < (m.surfs.map Surf.index).length := by simpa using hj
  exact (List.Nodup.getElem_inj_iff hu (hi := h1) (hj := h2)).mp (by simpa using h)

/-- One start. -/
theorem scan_step (hu : (m.surfs.map Surf.index).Nodup) (hf : Fit m g) (hF : Finds findE findS) {j : Nat} (hj : j < g.vec.length)
    {done0 : List Bool} {a : Merged} {ro : Nat → Nat} {E0 E : List Edit} (ha : a.edits = E0 ++ E) (h : Scan m findE g j done0 a ro E) :
    ∃ b ro' E', startStep m findE findS g a j = .ok b ∧ b.edits = E0 ++ E' ∧ Scan m findE g (j + 1) done0 b ro' E' := by
  obtain ⟨s, hjs⟩ := at_of hf (List.getElem?_eq_getElem hj)
  generalize g.vec[j] = e at hjs
  obtain ⟨k, hv, ho, hsb⟩ := id hjs
  have hsS : s ∈ g.sub := hjs.sub
  have hjc : j < a.count.length := by rw [h.inv.clen]; omega
  have hms : s < m.surfs.length := hjs.bound hf
  have hds : s < a.done.length := by rw [h.inv.dlen]; exact hms
  have hcj : a.count[j]? = some a.count[j] := List.getElem?_eq_getElem hjc
  unfold startStep
  rw [vecGet_of hcj, ok_bind]
  by_cases hc : a.count[j] ≤ 1
  · -- passed over
    rw [if_pos hc]
    refine ⟨a, ro, E, rfl, ha, ⟨h.inv, h.out, h.root, ?_, h.gone, h.edit, h.once, ?_⟩⟩
    · intro y hy hd hr
      obtain ⟨⟨p, e', h1, h2⟩, h3, h4⟩ := h.start y hy hd hr
      refine ⟨⟨p, e', by omega, h2⟩, fun p e hp hle => h3 p e hp (by omega), ?_⟩
      intro p e' hp hpe q z hq
      by_cases hpj : p = j
      · subst hpj
        have := h3 p e' hpe (le_refl _)
        rw [hcj] at this
        have hpq := alone hF hpe hq (by have := Option.some.inj this; omega)
        subst hpq
        rw [(hq.fun hpe).2]
        exact ⟨hd, hr⟩
      · exact h4 p e' (by omega) hpe q z hq
    · intro p e' y hp hpe hd
      by_cases hpj : p = j
      · subst hpj
        have := h.inv.fresh p e' y hpe hd
        rw [hcj] at this
        have := Option.some.inj this
        omega
      · exact h.passed p e' y (by omega) hpe hd
  · rw [if_neg hc, vecGet_of hv, ok_bind]
    unfold slot
    rw [vecGet_of ho, ok_bind, vecGet_of hsb, ok_bind, elemAt_of (List.getElem?_eq_getElem hms), ok_bind]
    -- the surface started from was not taken by another
    have hstart : a.done[s]? = some true → ro s = s := by
      intro hd
      by_contra hne
      obtain ⟨c, h1, h2⟩ := (h.gone s hsS hd hne).1 j e hjs
      rw [hcj] at h1
      have := Option.some.inj h1
      omega
    have hsi : (a.done.set s true)[s]? = some true := List.getElem?_set_self hds
    have hset : ∀ i, (a.done.set s true)[i]? = some true ↔ a.done[i]? = some true ∨ i = s := by
      intro i
      by_cases hi : s = i
      · subst hi; simp [hsi]
      · rw [List.getElem?_set_ne hi]; simp [Ne.symm hi]
    have hi0 : Inv m findE g (a.done.set s true) (a.count.set j 0) := by
      refine ⟨by rw [List.length_set]; exact h.inv.dlen, by rw [List.length_set]; exact h.inv.clen, ?_⟩
      intro p' e' i' ha' hd'
      have hii : s ≠ i' := by rintro rfl; rw [hsi] at hd'; simp at hd'
      rw [List.getElem?_set_ne hii] at hd'
      have : j ≠ p' := by rintro rfl; exact hii (hjs.fun ha').2
      rw [List.getElem?_set_ne this]
      exact h.inv.fresh p' e' i' ha' hd'
    obtain ⟨w, F, hw, C⟩ := rec_ok hf hF (a.done.length + 1) { done := a.done.set s true, count := a.count.set j 0, rmv := [] } e j s hi0 hjs hsi (by
      have := List.count_le_length (a := false) (l := a.done.set s true)
      rw [List.length_set] at this
      show (a.done.set s true).count false < _
      omega)
    rw [hw]
    have hdone : ∀ i, w.done[i]? = some true ↔ a.done[i]? = some true ∨ i = s ∨ i ∈ F := by
      intro i
      rw [C.step.done]
      show (a.done.set s true)[i]? = some true ∨ _ ↔ _
      rw [hset, or_assoc]
    have hFu : ∀ i ∈ F, i ≠ s ∧ a.done[i]? = some false := by
      intro i hi
      have := C.step.undone i hi
      have this' : (a.done.set s true)[i]? = some false := this
      have hne : s ≠ i := by rintro rfl; rw [hsi] at this'; simp at this'
      rw [List.getElem?_set_ne hne] at this'
      exact ⟨hne.symm, this'⟩
    have hFn : ∀ i, a.done[i]? = some true → i ∉ F := by
      intro i hi hF'
      rw [(hFu i hF').2] at hi
      simp at hi
    have hFs : s ∉ F := fun hs => (hFu s hs).1 rfl
    have hsub : ∀ i ∈ F, i ∈ g.sub := by
      intro i hi
      have := C.linked i hi
      rcases Relation.ReflTransGen.cases_tail this with h' | ⟨b, _, p, q, e', _, h2⟩
      · exact absurd h' (hFu i hi).1
      · exact h2.sub
    have hrm : w.rmv = F.map (ids m) := by rw [C.step.rmv]; rfl
    -- what was taken before does not touch what is taken now
    have K1 : ∀ x z, a.done[x]? = some false → Nb g x z → a.done[z]? = some true → z = s := by
      intro x z hx hn hz
      obtain ⟨p, q, e', hp, hq⟩ := id hn
      have hzs := hq.sub
      by_cases hr : ro z = z
      · obtain ⟨⟨p0, e0, hp0, hpe⟩, _, h4⟩ := h.start z hzs hz hr
        by_cases hqj : q < j
        · have := (h4 q e' hqj hq p x hp).1
          rw [hx] at this
          simp at this
        · exact block hf hpe hjs hq hp0 (by omega)
      · have := ((h.gone z hzs hz hr).2.1 x (nb_symm hn)).1
        rw [hx] at this
        simp at this
    have K2 : ∀ q z, At g q e z → a.done[z]? = some true → z ≠ s → a.done[s]? = some true ∧ ro z = s := by
      intro q z hq hz hne
      have hzs := hq.sub
      by_cases hr : ro z = z
      · exfalso
        obtain ⟨⟨p0, e0, hp0, hpe⟩, _, h4⟩ := h.start z hzs hz hr
        by_cases hqj : q < j
        · obtain ⟨h5, h6⟩ := h4 q e hqj hq j s hjs
          rw [hstart h5] at h6
          exact hne h6.symm
        · exact hne (block hf hpe hjs hq hp0 (by omega))
      · obtain ⟨h5, h6⟩ := (h.gone z hzs hz hr).2.1 s ⟨q, j, e, hq, hjs⟩
        rw [hstart h5] at h6
        exact ⟨h5, h6.symm⟩
    have hro : ∀ y, (fun y => if y ∈ F ∨ y = s then s else ro y) y = if y ∈ F ∨ y = s then s else ro y := fun _ => rfl
    have old : ∀ y, a.done[y]? = some true → (if y ∈ F ∨ y = s then s else ro y) = ro y := by
      intro y hy
      by_cases hys : y = s
      · subst hys; rw [if_pos (Or.inr rfl), hstart hy]
      · rw [if_neg (by rw [not_or]; exact ⟨hFn y hy, hys⟩)]
    have inF : ∀ y ∈ F, (if y ∈ F ∨ y = s then s else ro y) = s := fun y hy => if_pos (Or.inl hy)
    have atS : (if s ∈ F ∨ s = s then s else ro s) = s := if_pos (Or.inr rfl)
    have newClosed : ∀ x ∈ F, ∀ z, Nb g x z → w.done[z]? = some true ∧ (if z ∈ F ∨ z = s then s else ro z) = s := by
      intro x hx z hn
      have hz := C.closed x hx z hn
      refine ⟨hz, ?_⟩
      rcases (hdone z).mp hz with h1 | h1 | h1
      · exact if_pos (Or.inr (K1 x z (hFu x hx).2 hn h1))
      · exact if_pos (Or.inr h1)
      · exact if_pos (Or.inl h1)
    have onE : ∀ q z, At g q e z → w.done[z]? = some true ∧ (if z ∈ F ∨ z = s then s else ro z) = s := by
      intro q z hq
      have hz := C.all q z hq
      refine ⟨hz, ?_⟩
      rcases (hdone z).mp hz with h1 | h1 | h1
      · by_cases hne : z = s
        · exact if_pos (Or.inr hne)
        · rw [old z h1, (K2 q z hq h1 hne).2]
      · exact if_pos (Or.inr h1)
      · exact if_pos (Or.inl h1)
    have same : ∀ p e' i, At g p e' i → i ∉ F → p ≠ j → w.count[p]? = a.count[p]? := by
      intro p e' i hp hi hpj
      rw [C.step.same p e' i hp hi (by simp)]
      exact List.getElem?_set_ne (Ne.symm hpj)
    have hidx : m.surfs[s].index = ids m s := by
      unfold ids; rw [List.getElem?_eq_getElem hms]; rfl
    have hE' : (if w.rmv.length > 0 then a.edits ++ [⟨m.surfs[s].index, sortUnique w.rmv⟩] else a.edits) =
        E0 ++ (if F = [] then E else E ++ [⟨ids m s, sortUnique (F.map (ids m))⟩]) := by
      rw [hrm, ha, hidx]
      by_cases hF0 : F = []
      · rw [if_neg (by rw [hF0]; simp), if_pos hF0]
      · rw [if_pos (by rw [List.length_map]; exact List.length_pos_iff.mpr hF0), if_neg hF0, List.append_assoc]
    have hEmem : ∀ d, d ∈ (if F = [] then E else E ++ [⟨ids m s, sortUnique (F.map (ids m))⟩]) ↔
        d ∈ E ∨ (F ≠ [] ∧ d = ⟨ids m s, sortUnique (F.map (ids m))⟩) := by
      intro d
      by_cases hF0 : F = []
      · rw [if_pos hF0]; simp [hF0]
      · rw [if_neg hF0]; simp [hF0]
    refine ⟨_, fun y => if y ∈ F ∨ y = s then s else ro y, if F = [] then E else E ++ [⟨ids m s, sortUnique (F.map (ids m))⟩], rfl, hE', ?_⟩
    refine ⟨C.step.inv hi0, ?_, ?_, ?_, ?_, ?_, ?_, ?_⟩
    · intro i hi
      rw [← h.out i hi]
      show w.done[i]? = a.done[i]?
      have h1 : i ∉ F := fun h => hi (hsub i h)
      have h2 : i ≠ s := fun h => hi (h ▸ hsS)
      by_cases hb : i < a.done.length
      · have hb' : i < w.done.length := by
          rw [C.step.dlen]; show i < (a.done.set s true).length; rw [List.length_set]; exact hb
        rcases bool_cases hb with h3 | h3
        · rw [h3, (hdone i).mpr (Or.inl h3)]
        · rw [h3]
          rcases bool_cases hb' with h4 | h4
          · rcases (hdone i).mp h4 with h5 | h5 | h5
            · rw [h3] at h5; simp at h5
            · exact absurd h5 h2
            · exact absurd h5 h1
          · exact h4
      · have hb' : ¬ i < w.done.length := by
          rw [C.step.dlen]; show ¬ i < (a.done.set s true).length; rw [List.length_set]; exact hb
        rw [List.getElem?_eq_none (by omega), List.getElem?_eq_none (by omega)]
    · intro y hy hd
      have hd' : w.done[y]? = some true := hd
      beta_reduce
      by_cases hys : y ∈ F ∨ y = s
      · rw [if_pos hys, atS]
        refine ⟨hsS, (hdone s).mpr (Or.inr (Or.inl rfl)), rfl, ?_⟩
        rcases hys with hyF | rfl
        · exact C.linked y hyF
        · exact Relation.ReflTransGen.refl
      · have hyd : a.done[y]? = some true := by
          rw [not_or] at hys
          rcases (hdone y).mp hd' with h1 | h1 | h1
          · exact h1
          · exact absurd h1 hys.2
          · exact absurd h1 hys.1
        rw [if_neg hys]
        obtain ⟨r1, r2, r3, r4⟩ := h.root y hy hyd
        refine ⟨r1, (hdone _).mpr (Or.inl r2), ?_, r4⟩
        rw [old _ r2, r3]
    · intro y hy hd hr
      have hd' : w.done[y]? = some true := hd
      beta_reduce at hr ⊢
      have hyF : y ∉ F := by
        intro hF'
        rw [inF y hF'] at hr
        exact hFs (hr ▸ hF')
      by_cases hys : y = s
      · subst hys
        refine ⟨⟨j, e, by omega, hjs⟩, ?_, ?_⟩
        · intro p e' hp hle
          show w.count[p]? = _
          rw [same p e' y hp hyF (by omega)]
          rcases bool_cases hds with h1 | h1
          · exact (h.start y hsS h1 (hstart h1)).2.1 p e' hp (by omega)
          · exact h.inv.fresh p e' y hp h1
        · intro p e' hp hpe q z hq
          by_cases hpj : p = j
          · subst hpj
            have := (hpe.fun hjs).1
            subst this
            exact onE q z hq
          · rcases bool_cases hds with h1 | h1
            · obtain ⟨h2, h3⟩ := (h.start y hsS h1 (hstart h1)).2.2 p e' (by omega) hpe q z hq
              exact ⟨(hdone z).mpr (Or.inl h2), by rw [old z h2, h3]⟩
            · have hpq := alone hF hpe hq (h.passed p e' y (by omega) hpe h1)
              subst hpq
              rw [(hq.fun hpe).2]
              exact ⟨hd', hr⟩
      · have hyd : a.done[y]? = some true := by
          rcases (hdone y).mp hd' with h1 | h1 | h1
          · exact h1
          · exact absurd h1 hys
          · exact absurd h1 hyF
        rw [old y hyd] at hr
        obtain ⟨⟨p0, e0, hp0, hpe0⟩, h3, h4⟩ := h.start y hy hyd hr
        refine ⟨⟨p0, e0, by omega, hpe0⟩, ?_, ?_⟩
        · intro p e' hp hle
          show w.count[p]? = _
          rw [same p e' y hp hyF (by omega)]
          exact h3 p e' hp (by omega)
        · intro p e' hp hpe q z hq
          by_cases hpj : p = j
          · subst hpj
            exact absurd (hpe.fun hjs).2 hys
          · obtain ⟨h5, h6⟩ := h4 p e' (by omega) hpe q z hq
            exact ⟨(hdone z).mpr (Or.inl h5), by rw [old z h5, h6]⟩
    · intro y hy hd hr
      have hd' : w.done[y]? = some true := hd
      beta_reduce at hr ⊢
      have hys : y ≠ s := by rintro rfl; exact hr atS
      by_cases hyF : y ∈ F
      · refine ⟨fun p e' hp => C.step.low p e' y hp hyF, ?_, ?_⟩
        · intro z hn
          rw [inF y hyF]
          exact newClosed y hyF z hn
        · rw [inF y hyF]
          refine ⟨⟨ids m s, sortUnique (F.map (ids m))⟩, (hEmem _).mpr (Or.inr ⟨fun h0 => by rw [h0] at hyF; simp at hyF, rfl⟩), rfl, ?_⟩
          exact mem_sortUnique.mpr (List.mem_map.mpr ⟨y, hyF, rfl⟩)
      · have hyd : a.done[y]? = some true := by
          rcases (hdone y).mp hd' with h1 | h1 | h1
          · exact h1
          · exact absurd h1 hys
          · exact absurd h1 hyF
        rw [old y hyd] at hr ⊢
        obtain ⟨h1, h2, d, h3, h4⟩ := h.gone y hy hyd hr
        refine ⟨?_, ?_, d, (hEmem d).mpr (Or.inl h3), h4⟩
        · intro p e' hp
          show ∃ c, w.count[p]? = some c ∧ c ≤ 1
          rw [same p e' y hp hyF (by rintro rfl; exact hys (hp.fun hjs).2)]
          exact h1 p e' hp
        · intro z hn
          obtain ⟨h5, h6⟩ := h2 z hn
          exact ⟨(hdone z).mpr (Or.inl h5), by rw [old z h5, h6]⟩
    · intro d hd
      rcases (hEmem d).mp hd with hd | ⟨hF0, rfl⟩
      · obtain ⟨h1, h2, s', h3, h4, h5, h6, h7⟩ := h.edit d hd
        refine ⟨h1, h2, s', h3, (hdone s').mpr (Or.inl h4), by beta_reduce; rw [old s' h4, h5], h6, ?_⟩
        intro t ht
        obtain ⟨y, y1, y2, y3, y4, y5⟩ := h7 t ht
        exact ⟨y, y1, (hdone y).mpr (Or.inl y2), by beta_reduce; rw [old y y2, y3], y4, y5⟩
      · refine ⟨?_, sortUnique_strict _, s, hsS, (hdone s).mpr (Or.inr (Or.inl rfl)), atS, rfl, ?_⟩
        · intro h0
          obtain ⟨y, hy⟩ := List.exists_mem_of_ne_nil F hF0
          have : ids m y ∈ sortUnique (F.map (ids m)) := mem_sortUnique.mpr (List.mem_map.mpr ⟨y, hy, rfl⟩)
          have h0' : sortUnique (F.map (ids m)) = [] := h0
          rw [h0'] at this
          simp at this
        · intro t ht
          obtain ⟨y, hy, rfl⟩ := List.mem_map.mp (mem_sortUnique.mp ht)
          exact ⟨y, hsub y hy, (hdone y).mpr (Or.inr (Or.inr hy)), inF y hy, (hFu y hy).1, rfl⟩
    · by_cases hF0 : F = []
      · rw [if_pos hF0]; exact h.once
      · rw [if_neg hF0, List.flatMap_append]
        refine List.nodup_append.mpr ⟨h.once, ?_, ?_⟩
        · simp only [List.flatMap_cons, List.flatMap_nil, List.append_nil]
          exact (sortUnique_strict _).imp (fun h => ne_of_lt h)
        · intro x hx y hy hxy
          subst hxy
          simp only [List.flatMap_cons, List.flatMap_nil, List.append_nil] at hy
          obtain ⟨z, hz, e1⟩ := List.mem_map.mp (mem_sortUnique.mp hy)
          obtain ⟨d, hd, hxd⟩ := List.mem_flatMap.mp hx
          obtain ⟨_, _, s', _, _, _, _, h7⟩ := h.edit d hd
          obtain ⟨y', y1, y2, _, _, y5⟩ := h7 x hxd
          have : z = y' := ids_inj hu (hf.bound z (hsub z hz)) (hf.bound y' y1) (e1.trans y5)
          subst this
          exact hFn z y2 hz
    · intro p e' y hp hpe hd
      obtain ⟨hd1, hd2⟩ := C.step.undone_of hd
      have hd1' : (a.done.set s true)[y]? = some false := hd1
      have hne : s ≠ y := by rintro rfl; rw [hsi] at hd1'; simp at hd1'
      rw [List.getElem?_set_ne hne] at hd1'
      exact h.passed p e' y (by
        rcases Nat.lt_succ_iff_lt_or_eq.mp hp with h | h
        · exact h
        · subst h; exact absurd (hjs.fun hpe).2 hne) hpe hd1'

end RSVS.MergeSurf
