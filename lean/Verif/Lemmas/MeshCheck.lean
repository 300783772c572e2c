import Verif.Lemmas.MeshDetach

/-!
# A criterion for soundness that can be evaluated, used for the examples
-/

namespace RSVS.Mesh

open RSVS.Spec

/-- The conditions of `Sound`, element by element. -/
def Checked (m : Mesh) : Prop :=
  ((m.verts.map Vert.index).Nodup ∧ (m.edges.map Edge.index).Nodup ∧
   (m.surfs.map Surf.index).Nodup ∧ (m.volus.map Volu.index).Nodup) ∧
  ((∀ x ∈ m.verts, 0 < x.index) ∧ (∀ x ∈ m.edges, 0 < x.index) ∧
   (∀ x ∈ m.surfs, 0 < x.index) ∧ (∀ x ∈ m.volus, 0 < x.index)) ∧
  ((∀ x ∈ m.verts, ∀ r ∈ x.edgeind, ∃ y ∈ m.edges, y.index = r) ∧
   (∀ x ∈ m.edges, ∀ r ∈ x.vertind, ∃ y ∈ m.verts, y.index = r) ∧
   (∀ x ∈ m.edges, ∀ r ∈ x.surfind, r ≠ 0 → ∃ y ∈ m.surfs, y.index = r) ∧
   (∀ x ∈ m.surfs, ∀ r ∈ x.edgeind, ∃ y ∈ m.edges, y.index = r) ∧
   (∀ x ∈ m.surfs, ∀ r ∈ x.voluind, r ≠ 0 → ∃ y ∈ m.volus, y.index = r) ∧
   (∀ x ∈ m.volus, ∀ r ∈ x.surfind, ∃ y ∈ m.surfs, y.index = r)) ∧
  ((∀ x ∈ m.verts, ∀ y ∈ m.edges, (y.index ∈ x.edgeind ↔ x.index ∈ y.vertind)) ∧
   (∀ x ∈ m.edges, ∀ y ∈ m.surfs, (y.index ∈ x.surfind ↔ x.index ∈ y.edgeind)) ∧
   (∀ x ∈ m.surfs, ∀ y ∈ m.volus, (y.index ∈ x.voluind ↔ x.index ∈ y.surfind)))

instance (m : Mesh) : Decidable (Checked m) := by
  unfold Checked
  infer_instance

theorem sound_of_checked {m : Mesh} (h : Checked m) : Sound m := by
  obtain ⟨⟨u1, u2, u3, u4⟩, ⟨p1, p2, p3, p4⟩, ⟨d1, d2, d3, d4, d5, d6⟩, s1, s2, s3⟩ := h
  refine ⟨⟨u1, u2, u3, u4⟩, ⟨?_, ?_, ?_, ?_⟩, ⟨?_, ?_, ?_, ?_, ?_, ?_⟩, ⟨?_, ?_, ?_, ?_⟩, ?_, ?_, ?_⟩
  · rintro _ ⟨x, hx, rfl⟩; exact p1 x hx
  · rintro _ ⟨x, hx, rfl⟩; exact p2 x hx
  · rintro _ ⟨x, hx, rfl⟩; exact p3 x hx
  · rintro _ ⟨x, hx, rfl⟩; exact p4 x hx
  · rintro _ r ⟨x, hx, rfl, hr⟩ _; exact d1 x hx r hr
  · rintro _ r ⟨x, hx, rfl, hr⟩ _; exact d2 x hx r hr
  · rintro _ r ⟨x, hx, rfl, hr⟩ h0; exact d3 x hx r hr h0
  · rintro _ r ⟨x, hx, rfl, hr⟩; exact d4 x hx r hr
  · rintro _ r ⟨x, hx, rfl, hr⟩ h0; exact d5 x hx r hr h0
  · rintro _ r ⟨x, hx, rfl, hr⟩ _; exact d6 x hx r hr
  · rintro _ ⟨x, hx, rfl, hr⟩
    obtain ⟨y, hy, h0⟩ := d1 x hx 0 hr
    have := p2 y hy; omega
  · rintro _ ⟨x, hx, rfl, hr⟩
    obtain ⟨y, hy, h0⟩ := d2 x hx 0 hr
    have := p1 y hy; omega
  · rintro _ ⟨x, hx, rfl, hr⟩
    obtain ⟨y, hy, h0⟩ := d4 x hx 0 hr
    have := p2 y hy; omega
  · rintro _ ⟨x, hx, rfl, hr⟩
    obtain ⟨y, hy, h0⟩ := d6 x hx 0 hr
    have := p3 y hy; omega
  · rintro _ _ ⟨x, hx, rfl⟩ ⟨y, hy, rfl⟩
    constructor
    · rintro ⟨z, hz, hzi, h⟩
      rw [inj_of_nodup u1 hz hx hzi] at h
      exact ⟨y, hy, rfl, (s1 x hx y hy).mp h⟩
    · rintro ⟨z, hz, hzi, h⟩
      rw [inj_of_nodup u2 hz hy hzi] at h
      exact ⟨x, hx, rfl, (s1 x hx y hy).mpr h⟩
  · rintro _ _ ⟨x, hx, rfl⟩ ⟨y, hy, rfl⟩
    constructor
    · rintro ⟨z, hz, hzi, h⟩
      rw [inj_of_nodup u2 hz hx hzi] at h
      exact ⟨y, hy, rfl, (s2 x hx y hy).mp h⟩
    · rintro ⟨z, hz, hzi, h⟩
      rw [inj_of_nodup u3 hz hy hzi] at h
      exact ⟨x, hx, rfl, (s2 x hx y hy).mpr h⟩
  · rintro _ _ ⟨x, hx, rfl⟩ ⟨y, hy, rfl⟩
    constructor
    · rintro ⟨z, hz, hzi, h⟩
      rw [inj_of_nodup u3 hz hx hzi] at h
      exact ⟨y, hy, rfl, (s3 x hx y hy).mp h⟩
    · rintro ⟨z, hz, hzi, h⟩
      rw [inj_of_nodup u4 hz hy hzi] at h
      exact ⟨x, hx, rfl, (s3 x hx y hy).mpr h⟩

end RSVS.Mesh
