import Verif.Spec.SmoothStep
import Verif.Lemmas.StepLimit

namespace RSVS.Smooth

open RSVS RSVS.Mesh RSVS.Spec RSVS.StepLimit

variable {K : Type} [Field K] [LinearOrder K]

theorem closeTo_iff (s : Snax K) (v : Int) : closeTo s = v ↔ NearVertex s v := by
  unfold closeTo NearVertex
  by_cases h : s.d < 1 / 2
  · rw [if_pos h]
    exact ⟨fun h1 => .inl ⟨h, h1⟩, fun h1 => h1.elim (fun h2 => h2.2) (fun h2 => absurd h (not_lt.2 h2.1))⟩
  · rw [if_neg h]
    exact ⟨fun h1 => .inr ⟨not_lt.1 h, h1⟩, fun h1 => h1.elim (fun h2 => absurd h2.1 h) (fun h2 => h2.2)⟩

theorem near_iff [IsStrictOrderedRing K] {s : Snax K} {t : K} :
    (s.d < t ∨ 1 - t < s.d) ↔ partAway s < t := by
  unfold partAway
  rw [min_lt_iff]
  constructor
  · rintro (h | h)
    · exact .inl h
    · exact .inr (by linarith)
  · rintro (h | h)
    · exact .inl h
    · exact .inr (by linarith)

theorem takeNear_list {snaxs : List (Snax K)} (v : Int) (spawn : K) : ∀ {P : List Nat} (acc : List Int), acc.Nodup →
    (∀ p ∈ P, p < snaxs.length) → ∃ l, P.foldlM (m := Except Fault) (takeNear snaxs v spawn) acc = .ok l ∧ l.Nodup ∧
      ∀ i, i ∈ l ↔ i ∈ acc ∨ ∃ p ∈ P, ∃ s, snaxs[p]? = some s ∧ s.index = i ∧ closeTo s = v ∧
        (s.d < spawn * (11 / 10) ∨ 1 - spawn * (11 / 10) < s.d)
  | [], acc, ha, _ => ⟨acc, rfl, ha, by simp⟩
  | p :: P, acc, ha, hP => by
    have hp := hP p (by simp)
    have h1 : ∃ r, takeNear snaxs v spawn acc p = .ok r ∧ r.Nodup ∧ ∀ i, i ∈ r ↔ i ∈ acc ∨
        (snaxs[p].index = i ∧ closeTo snaxs[p] = v ∧ (snaxs[p].d < spawn * (11 / 10) ∨ 1 - spawn * (11 / 10) < snaxs[p].d)) := by
      unfold takeNear
      rw [elemAt_nat snaxs p hp]
      refine ⟨_, rfl, ?_, ?_⟩
      · beta_reduce
        split
        · rename_i h
          exact List.nodup_append.2 ⟨ha, by simp, by rintro a ha b hb rfl; simp at hb; exact h.2.1 (hb ▸ ha)⟩
        · exact ha
      · intro i
        beta_reduce
        split
        · rename_i h
          simp only [List.mem_append, List.mem_singleton]
          constructor
          · rintro (h' | rfl)
            · exact .inl h'
            · exact .inr ⟨rfl, h.1, h.2.2⟩
          · rintro (h' | h')
            · exact .inl h'
            · exact .inr h'.1.symm
        · rename_i h
          constructor
          · exact .inl
          · rintro (h' | ⟨rfl, h2, h3⟩)
            · exact h'
            · by_contra h4
              exact h ⟨h2, h4, h3⟩
    obtain ⟨r, hr, hrn, hrm⟩ := h1
    obtain ⟨l, hl, hln, hlm⟩ := takeNear_list v spawn r hrn (P := P) fun q hq => hP q (by simp [hq])
    refine ⟨l, ?_, hln, fun i => ?_⟩
    · rw [List.foldlM_cons, hr]
      exact hl
    · rw [hlm, hrm]
      constructor
      · rintro ((h | h) | ⟨q, hq, h⟩)
        · exact .inl h
        · exact .inr ⟨p, by simp, _, List.getElem?_eq_getElem hp, h⟩
        · exact .inr ⟨q, by simp [hq], h⟩
      · rintro (h | ⟨q, hq, s, hs, h⟩)
        · exact .inl (.inl h)
        · rcases List.mem_cons.1 hq with rfl | hq
          · rw [List.getElem?_eq_getElem hp] at hs
            cases hs
            exact .inl (.inr h)
          · exact .inr ⟨q, hq, s, hs, h⟩

theorem findSnaxInds_ok {m : Mesh} (hv : (m.verts.map Vert.index).Nodup) {snaxs : List (Snax K)} {subs : Int → List Nat}
    (hs : ∀ e, AllPos Snax.edgeind snaxs e (subs e)) {x : Vert} (hx : x ∈ m.verts) (spawn : K) :
    ∃ l, findSnaxInds m snaxs subs x.index spawn = .ok l ∧ l.Nodup ∧ ∀ i, i ∈ l ↔ ∃ s ∈ snaxs, s.index = i ∧
      s.edgeind ∈ x.edgeind ∧ closeTo s = x.index ∧ (s.d < spawn * (11 / 10) ∨ 1 - spawn * (11 / 10) < s.d) := by
  obtain ⟨y, h1, h2, h3⟩ := elemAt_posOf_ok (ix := Vert.index) (l := m.verts) (k := x.index) ⟨x, hx, rfl⟩
  have h1' : isearch Vert.index m.verts x.index = .ok y := h1
  have hyx : y = x := inj_of_nodup hv h2 hx h3
  subst hyx
  unfold findSnaxInds
  rw [h1']
  change ∃ l, List.foldlM (m := Except Fault) _ [] y.edgeind = .ok l ∧ _
  rw [foldlM_flat (g := subs) (f := takeNear snaxs y.index spawn) [] fun _ _ _ => rfl]
  obtain ⟨l, hl, hln, hlm⟩ := takeNear_list (snaxs := snaxs) y.index spawn (P := y.edgeind.flatMap subs) [] List.nodup_nil
    (by
      intro p hp
      obtain ⟨e, _, hp⟩ := List.mem_flatMap.1 hp
      obtain ⟨s, hs', _⟩ := ((hs e).2 p).1 hp
      exact (List.getElem?_eq_some_iff.1 hs').1)
  refine ⟨l, hl, hln, fun i => ?_⟩
  rw [hlm]
  constructor
  · rintro (h | ⟨p, hp, s, hs', h4, h5, h6⟩)
    · simp at h
    · obtain ⟨e, he, hp⟩ := List.mem_flatMap.1 hp
      obtain ⟨t, ht, hte⟩ := ((hs e).2 p).1 hp
      rw [hs'] at ht
      cases ht
      exact ⟨s, List.mem_of_getElem? hs', h4, hte ▸ he, h5, h6⟩
  · rintro ⟨s, hsm, h4, h5, h6, h7⟩
    obtain ⟨p, hp⟩ := List.getElem?_of_mem hsm
    exact .inr ⟨p, List.mem_flatMap.2 ⟨s.edgeind, h5, ((hs _).2 p).2 ⟨s, hp, rfl⟩⟩, s, hp, h4, h6, h7⟩

end RSVS.Smooth
