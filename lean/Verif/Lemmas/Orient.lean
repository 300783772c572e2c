import Verif.Lemmas.Flood
import Verif.Lemmas.FaceFanMesh
import Verif.Lemmas.MeshOrder
import Verif.Lemmas.OrderMesh
import Verif.Model.Orient
import Verif.Props.Order
import Verif.Spec.Orient

/-!
# Lemmas about the orientation of surfaces
-/

namespace RSVS.Orient

open RSVS RSVS.Mesh RSVS.Spec

/-! ### Direction of rings -/

theorem follows_iff {w : Nat → Int} {n : Nat} (hn : 3 ≤ n) (hw : w n = w 0) (a b : Int) :
    Follows ((List.range n).map w) a b ↔ RunsAlong w n a b := by
  unfold Follows RunsAlong
  constructor
  · rintro ⟨i, h1, h2⟩
    rw [List.getElem?_map, Option.map_eq_some_iff] at h1 h2
    obtain ⟨i', g1, rfl⟩ := h1
    obtain ⟨j', g2, rfl⟩ := h2
    obtain ⟨hi, e1⟩ := List.getElem?_eq_some_iff.1 g1
    obtain ⟨hj, e2⟩ := List.getElem?_eq_some_iff.1 g2
    simp only [List.getElem_range, List.length_map, List.length_range] at e1 e2 hi hj
    subst e1
    subst e2
    refine ⟨i, hi, rfl, ?_⟩
    rcases Nat.lt_or_ge (i + 1) n with h | h
    · rw [Nat.mod_eq_of_lt h]
    · have : i + 1 = n := by omega
      rw [this, Nat.mod_self, hw]
  · rintro ⟨k, hk, rfl, rfl⟩
    refine ⟨k, by simp [hk], ?_⟩
    simp only [List.length_map, List.length_range, List.getElem?_map]
    rcases Nat.lt_or_ge (k + 1) n with h | h
    · rw [Nat.mod_eq_of_lt h]
      simp [h]
    · have : k + 1 = n := by omega
      rw [this, Nat.mod_self, hw]
      simp [show 0 < n by omega]

/-- An edge of a ring is passed in one direction and not in the other. -/
theorem ring_dir {m : Mesh} (hm : Sound m) {f : Surf} {w : Nat → Int} (hr : RingFace m f w) {e : Edge} (he : e ∈ m.edges)
    {a b : Int} (hv : e.vertind = [a, b]) (hf : e.index ∈ f.edgeind) :
    (RunsAlong w f.edgeind.length a b ∧ ¬ RunsAlong w f.edgeind.length b a) ∨
      (RunsAlong w f.edgeind.length b a ∧ ¬ RunsAlong w f.edgeind.length a b) := by
  obtain ⟨h3, hj, hc, hi⟩ := hr
  obtain ⟨k, hk⟩ := List.getElem?_of_mem hf
  have hkl := (List.getElem?_eq_some_iff.1 hk).1
  obtain ⟨x, hx, hxi, hxv⟩ := hj k _ hk
  cases inj_of_nodup hm.unique.edges hx he hxi
  have notBoth : ∀ p q, RunsAlong w f.edgeind.length p q → ¬ RunsAlong w f.edgeind.length q p := by
    rintro p q ⟨i, hil, rfl, rfl⟩ ⟨j, hjl, h1, h2⟩
    have red : ∀ i, i < f.edgeind.length → ∃ i', i' < f.edgeind.length ∧ w i' = w (i + 1) ∧
        (i' = i + 1 ∨ (i' = 0 ∧ i + 1 = f.edgeind.length)) := by
      intro i hil
      rcases Nat.lt_or_ge (i + 1) f.edgeind.length with h | h
      · exact ⟨i + 1, h, rfl, .inl rfl⟩
      · have : i + 1 = f.edgeind.length := by omega
        exact ⟨0, by omega, by rw [this, hc], .inr ⟨rfl, this⟩⟩
    obtain ⟨i', hi', e1, g1⟩ := red i hil
    obtain ⟨j', hj', e2, g2⟩ := red j hjl
    have a1 := hi j i' hjl hi' (h1.trans e1.symm)
    have a2 := hi j' i hj' hil (e2.trans h2)
    omega
  rw [hv] at hxv
  rcases hxv with h | h
  · simp only [List.cons.injEq, and_true] at h
    have : RunsAlong w f.edgeind.length a b := ⟨k, hkl, h.1.symm, h.2.symm⟩
    exact .inl ⟨this, notBoth _ _ this⟩
  · simp only [List.cons.injEq, and_true] at h
    have : RunsAlong w f.edgeind.length b a := ⟨k, hkl, h.2.symm, h.1.symm⟩
    exact .inr ⟨this, notBoth _ _ this⟩

/-- The two rings pass the edge in opposite directions. -/
def Contra (w : Int → Nat → Int) (f g : Surf) (a b : Int) : Prop :=
  RunsAlong (w f.index) f.edgeind.length a b ↔ RunsAlong (w g.index) g.edgeind.length b a

open Classical in
theorem relOrient_ok {m : Mesh} {w : Int → Nat → Int} (hm : SolidMesh m w) {f g : Surf} (hf : f ∈ m.surfs) (hg : g ∈ m.surfs)
    {e : Edge} (he : e ∈ m.edges) {a b : Int} (hv : e.vertind = [a, b]) (hef : e.index ∈ f.edgeind) (heg : e.index ∈ g.edgeind) :
    Order.orderMatch2 ((List.range f.edgeind.length).map (w f.index)) ((List.range g.edgeind.length).map (w g.index)) a b =
      .ok (if Contra w f g a b then -1 else 1) := by
  have ringInfo : ∀ f ∈ m.surfs, ((List.range f.edgeind.length).map (w f.index)).Nodup ∧ 3 ≤ f.edgeind.length ∧
      w f.index f.edgeind.length = w f.index 0 := by
    intro f hf
    obtain ⟨h3, -, hc, hi⟩ := hm.ring f hf
    refine ⟨?_, h3, hc⟩
    rw [List.nodup_map_iff_inj_on List.nodup_range]
    intro i hi' j hj' h
    exact hi i j (List.mem_range.1 hi') (List.mem_range.1 hj') h
  obtain ⟨f1, f2, f3⟩ := ringInfo f hf
  obtain ⟨g1, g2, g3⟩ := ringInfo g hg
  have key := Props.C24_relative _ _ f1 g1 (by simpa using f2) (by simpa using g2) a b
  rw [follows_iff f2 f3, follows_iff f2 f3, follows_iff g2 g3, follows_iff g2 g3] at key
  obtain ⟨k1, k2, k3, k4⟩ := key
  unfold Contra
  rcases ring_dir hm.sound (hm.ring f hf) he hv hef with ⟨h1, h2⟩ | ⟨h1, h2⟩ <;>
    rcases ring_dir hm.sound (hm.ring g hg) he hv heg with ⟨h3, h4⟩ | ⟨h3, h4⟩
  · rw [k1 h1 h3]; simp [h1, h4]
  · rw [k3 h1 h3]; simp [h1, h3]
  · rw [k4 h1 h3]; simp [h2, h4]
  · rw [k2 h1 h3]; simp [h2, h3]

/-! ### Places of volumes -/

/-- The volume is at the first place. -/
def first (f : Surf) (c : Int) : Bool := decide (f.voluind.head? = some c)

theorem first_swap {f : Surf} {p q c : Int} (h : f.voluind = [p, q]) (hn : p ≠ q) (hc : c ∈ f.voluind) (b : Bool) :
    first (swapIf b f) c = (b ^^ first f c) := by
  unfold first swapIf
  rw [h] at hc
  cases b
  · simp
  · simp only [if_true, h, List.reverse_cons, List.reverse_nil, List.nil_append, List.cons_append, List.head?_cons,
      Option.some.injEq, Bool.true_xor]
    simp only [List.mem_cons, List.not_mem_nil, or_false] at hc
    rcases hc with rfl | rfl
    · simp [hn.symm]
    · simp [hn]

theorem swapIf_index (b : Bool) (f : Surf) : (swapIf b f).index = f.index := by cases b <;> rfl
theorem swapIf_edgeind (b : Bool) (f : Surf) : (swapIf b f).edgeind = f.edgeind := by cases b <;> rfl

theorem swapIf_mem (b : Bool) (f : Surf) (c : Int) : c ∈ (swapIf b f).voluind ↔ c ∈ f.voluind := by
  cases b
  · exact Iff.rfl
  · exact List.mem_reverse

theorem swapIf_two {f : Surf} {p q : Int} (h : f.voluind = [p, q]) (b : Bool) :
    (swapIf b f).voluind = if b then [q, p] else [p, q] := by
  cases b
  · exact h
  · simp [swapIf, h]

theorem swapIf_swapIf (a b : Bool) (f : Surf) : swapIf a (swapIf b f) = swapIf (a ^^ b) f := by
  cases a <;> cases b <;> simp [swapIf]

theorem sides_ok {f : Surf} {p q : Int} (h : f.voluind = [p, q]) : sides f = .ok (p, q) := by
  unfold sides
  rw [h]
  rfl

/-- When the volumes are exchanged. -/
theorem isFlip_eq {f g : Surf} {p q r s c : Int} (hf : f.voluind = [p, q]) (hg : g.voluind = [r, s]) (hpq : p ≠ q) (hrs : r ≠ s)
    (hc : c ≠ 0) (hcf : c ∈ f.voluind) (hcg : c ∈ g.voluind) (contra : Prop) [Decidable contra] :
    isFlip (if contra then -1 else 1) (p, q) (r, s) = (decide contra == (first f c != first g c)) := by
  unfold isFlip first shared
  rw [hf] at hcf
  rw [hg] at hcg
  simp only [List.mem_cons, List.not_mem_nil, or_false] at hcf hcg
  rw [hf, hg]
  simp only [List.head?_cons, Option.some.injEq]
  by_cases ht : contra
  · rcases hcf with rfl | rfl <;> rcases hcg with rfl | rfl <;> simp [ht] <;> grind
  · rcases hcf with rfl | rfl <;> rcases hcg with rfl | rfl <;> simp [ht] <;> grind

end RSVS.Orient
