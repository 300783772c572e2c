import Verif.Lemmas.FaceFanMesh
import Verif.Lemmas.FillFile
import Verif.Lemmas.SmoothPlane
import Verif.Lemmas.VertNormalMesh

/-!
# Lemmas for the normal at a vertex: the vertices of a boundary
-/

namespace RSVS.VertNormal

open RSVS RSVS.Mesh RSVS.Geo RSVS.Spec RSVS.Props

variable {K : Type} [Field K] [LinearOrder K] [IsStrictOrderedRing K]

theorem ring_next {f : Surf} {m : Mesh} {w : Nat → Int} (hr : RingFace m f w) {i : Nat} (hil : i < f.edgeind.length) :
    ∃ i', i' < f.edgeind.length ∧ w i' = w (i + 1) ∧ (i' = i + 1 ∨ (i' = 0 ∧ i + 1 = f.edgeind.length)) := by
  rcases Nat.lt_or_ge (i + 1) f.edgeind.length with h | h
  · exact ⟨i + 1, h, rfl, .inl rfl⟩
  · have : i + 1 = f.edgeind.length := by omega
    exact ⟨0, by omega, by rw [this, hr.2.2.1], .inr ⟨rfl, this⟩⟩

theorem joins_ends {m : Mesh} (hm : Sound m) {f : Surf} {w : Nat → Int} (hr : RingFace m f w) {e v p : Int} {k : Nat}
    (hk : f.edgeind[k]? = some e) (hj : EdgeJoins m e v p) : (w k = v ∧ w (k + 1) = p) ∨ (w k = p ∧ w (k + 1) = v) := by
  obtain ⟨x, hx, hxi, hxv⟩ := hj
  obtain ⟨y, hy, hyi, hyv⟩ := hr.2.1 k e hk
  cases inj_of_nodup hm.unique.edges hx hy (hxi.trans hyi.symm)
  rcases hxv with h | h <;> rw [h] at hyv <;> rcases hyv with g | g <;>
    simp only [List.cons.injEq, and_true] at g
  · exact .inl ⟨g.1.symm, g.2.symm⟩
  · exact .inr ⟨g.2.symm, g.1.symm⟩
  · exact .inr ⟨g.1.symm, g.2.symm⟩
  · exact .inl ⟨g.2.symm, g.1.symm⟩

theorem ring_nodup {m : Mesh} (hm : Sound m) {f : Surf} {w : Nat → Int} (hr : RingFace m f w) : f.edgeind.Nodup := by
  rw [List.nodup_iff_getElem?_ne_getElem?]
  intro i j hij hj he
  have hi := hij.trans hj
  have h1 : f.edgeind[i]? = some f.edgeind[i] := List.getElem?_eq_getElem hi
  have h2 : f.edgeind[j]? = some f.edgeind[i] := he ▸ h1
  have inj := hr.2.2.2
  have h3 := hr.1
  obtain ⟨i', a1, a2, a3⟩ := ring_next hr hi
  obtain ⟨j', b1, b2, b3⟩ := ring_next hr hj
  rcases joins_ends hm hr h2 (hr.2.1 i _ h1) with ⟨g1, -⟩ | ⟨g1, g2⟩
  · have := inj j i hj hi g1
    omega
  · have c1 := inj j i' hj a1 (g1.trans a2.symm)
    have c2 := inj j' i b1 hi (b2.trans g2)
    omega

/-- The ring goes along `e` to `v` and along `e'` from it. -/
def Passes (f : Surf) (w : Nat → Int) (e e' v p p' : Int) : Prop :=
  ∃ j, f.edgeind[j]? = some e ∧ f.edgeind[(j + 1) % f.edgeind.length]? = some e' ∧ w j = p ∧ w (j + 1) = v ∧
    w ((j + 2) % f.edgeind.length) = p'

theorem passes {m : Mesh} (hm : Sound m) {f : Surf} {w : Nat → Int} (hr : RingFace m f w) {e e' v p p' : Int} (hne : e ≠ e')
    (he : e ∈ f.edgeind) (he' : e' ∈ f.edgeind) (hj : EdgeJoins m e v p) (hj' : EdgeJoins m e' v p') :
    Passes f w e e' v p p' ∨ Passes f w e' e v p' p := by
  have key : ∀ {e e' p p' : Int} {k k' : Nat}, f.edgeind[k]? = some e → f.edgeind[k']? = some e' → w k = p → w (k + 1) = v →
      w k' = v → w (k' + 1) = p' → Passes f w e e' v p p' := by
    intro e e' p p' k k' hk hk' h1 h2 h3 h4
    have hkl := (List.getElem?_eq_some_iff.1 hk).1
    have hkl' := (List.getElem?_eq_some_iff.1 hk').1
    obtain ⟨i, a1, a2, a3⟩ := ring_next hr hkl
    have hi := hr.2.2.2 k' i hkl' a1 (h3.trans (h2.symm.trans a2.symm))
    subst hi
    have hmod : (k + 1) % f.edgeind.length = k' := by
      rcases a3 with rfl | ⟨rfl, h⟩
      · exact Nat.mod_eq_of_lt a1
      · rw [h, Nat.mod_self]
    refine ⟨k, hk, by rw [hmod, hk'], h1, h2, ?_⟩
    have : (k + 2) % f.edgeind.length = (k' + 1) % f.edgeind.length := by rw [← hmod, Nat.mod_add_mod]
    rw [this, ← h4]
    rcases Nat.lt_or_ge (k' + 1) f.edgeind.length with h | h
    · rw [Nat.mod_eq_of_lt h]
    · rw [show k' + 1 = f.edgeind.length by omega, Nat.mod_self, hr.2.2.1]
  obtain ⟨k, hk⟩ := List.getElem?_of_mem he
  obtain ⟨k', hk'⟩ := List.getElem?_of_mem he'
  have hkl := (List.getElem?_eq_some_iff.1 hk).1
  have hkl' := (List.getElem?_eq_some_iff.1 hk').1
  rcases joins_ends hm hr hk hj with ⟨a1, a2⟩ | ⟨a1, a2⟩ <;> rcases joins_ends hm hr hk' hj' with ⟨b1, b2⟩ | ⟨b1, b2⟩
  · have := hr.2.2.2 k k' hkl hkl' (a1.trans b1.symm)
    subst this
    rw [hk] at hk'
    exact absurd (Option.some.inj hk') hne
  · exact .inr (key hk' hk b1 b2 a1 a2)
  · exact .inl (key hk hk' a1 a2 b1 b2)
  · obtain ⟨i, c1, c2, c3⟩ := ring_next hr hkl
    obtain ⟨i', d1, d2, d3⟩ := ring_next hr hkl'
    have := hr.2.2.2 i i' c1 d1 (by rw [c2, d2, a2, b2])
    have hkk : k = k' := by omega
    subst hkk
    rw [hk] at hk'
    exact absurd (Option.some.inj hk') hne

theorem passes_runs {f : Surf} {w : Nat → Int} {m : Mesh} (hr : RingFace m f w) {e e' v p p' : Int} (h : Passes f w e e' v p p') :
    RunsAlong w f.edgeind.length p v ∧ RunsAlong w f.edgeind.length v p' := by
  obtain ⟨j, h1, h2, h3, h4, h5⟩ := h
  have hj := (List.getElem?_eq_some_iff.1 h1).1
  refine ⟨⟨j, hj, h3, h4⟩, ?_⟩
  obtain ⟨i, a1, a2, a3⟩ := ring_next hr hj
  refine ⟨i, a1, a2.trans h4, ?_⟩
  rw [← h5]
  rcases a3 with rfl | ⟨rfl, h⟩
  · rcases Nat.lt_or_ge (j + 2) f.edgeind.length with h | h
    · rw [Nat.mod_eq_of_lt h]
    · rw [show j + 1 + 1 = f.edgeind.length by omega, Nat.mod_self, hr.2.2.1]
  · rw [show j + 2 = f.edgeind.length + 1 by omega, Nat.add_mod_left, Nat.mod_eq_of_lt (by have := hr.1; omega)]

theorem passes_follows {f : Surf} {w : Nat → Int} {e e' v p p' : Int} (h : Passes f w e e' v p p') : Follows f.edgeind e e' := by
  obtain ⟨j, h1, h2, -⟩ := h
  exact ⟨j, h1, h2⟩

theorem corner_swap (c p q : P3 K) (i : Fin 3) : cornerNormal c q p i = -cornerNormal c p q i := by
  unfold cornerNormal
  fin_cases i <;> simp <;> ring

end RSVS.VertNormal
