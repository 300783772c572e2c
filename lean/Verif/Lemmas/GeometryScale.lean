import Mathlib.Data.List.Induction
import Verif.Lemmas.Geometry

/-! # Lemmas on scaling -/

set_option linter.unusedSectionVars false

namespace RSVS.Geo

open Spec

variable {K : Type} [Field K] [LinearOrder K] [IsStrictOrderedRing K]

theorem isBox_unique {vs : List (P3 K)} {i : Fin 3} {a b c d : K} (h : IsBox vs i a b)
    (h' : IsBox vs i c d) : a = c ∧ b = d := by
  obtain ⟨⟨v, hv, rfl⟩, ⟨w, hw, rfl⟩, hb⟩ := h
  obtain ⟨⟨v', hv', rfl⟩, ⟨w', hw', rfl⟩, hb'⟩ := h'
  exact ⟨le_antisymm (hb v' hv').1 (hb' v hv).1, le_antisymm (hb' w hw).2 (hb w' hw').2⟩

theorem boundingBox_isBox (vs : List (P3 K)) (hne : vs ≠ []) (i : Fin 3) :
    ∃ b, boundingBox vs i = some b ∧ IsBox vs i b.1 b.2 := by
  induction vs using List.reverseRecOn with
  | nil => exact absurd rfl hne
  | append_singleton vs v ih =>
    have hstep : boundingBox (vs ++ [v]) i = boundStep (boundingBox vs i) (v i) := by
      simp [boundingBox, List.foldl_append]
    rw [hstep]
    by_cases hvs : vs = []
    · subst hvs
      exact ⟨(v i, v i), rfl, ⟨v, by simp, rfl⟩, ⟨v, by simp, rfl⟩, by simp⟩
    · obtain ⟨⟨lo, hi⟩, hb, ⟨a, ha, hla⟩, ⟨c, hc, hhc⟩, hin⟩ := ih hvs
      rw [hb]
      simp only at hla hhc hin
      refine ⟨_, rfl, ?_, ?_, ?_⟩
      · simp only
        split
        · exact ⟨a, by simp [ha], hla⟩
        · exact ⟨v, by simp, rfl⟩
      · simp only
        split
        · exact ⟨c, by simp [hc], hhc⟩
        · exact ⟨v, by simp, rfl⟩
      · intro x hx
        rcases List.mem_append.mp hx with hx | hx
        · have := hin x hx
          constructor
          · simp only; split
            · exact this.1
            · exact le_trans (le_of_lt (not_le.mp ‹_›)) this.1
          · simp only; split
            · exact this.2
            · exact le_trans this.2 (le_of_lt (not_le.mp ‹_›))
        · rw [List.mem_singleton.mp hx]
          constructor
          · simp only; split
            · assumption
            · exact le_refl _
          · simp only; split
            · assumption
            · exact le_refl _

theorem boundingBox_eq {vs : List (P3 K)} {i : Fin 3} {lo hi : K} (h : IsBox vs i lo hi) :
    boundingBox vs i = some (lo, hi) := by
  have hne : vs ≠ [] := by
    obtain ⟨⟨v, hv, _⟩, _⟩ := h
    intro hc; rw [hc] at hv; cases hv
  obtain ⟨b, hb, hbox⟩ := boundingBox_isBox vs hne i
  obtain ⟨h1, h2⟩ := isBox_unique hbox h
  rw [hb, ← h1, ← h2]

theorem scale_fst {vs : List (P3 K)} {i : Fin 3} {lo hi : K} (h : IsBox vs i lo hi)
    (lb ub : P3 K) : (scale lb ub vs).1 i = scaleTrans (lb i) (ub i) (lo, hi) := by
  simp only [scale, boundingBox_eq h, Option.getD_some]

theorem app_flat (lb ub lo x : K) : (scaleTrans lb ub (lo, lo)).app x = lb + (x - lo) := by
  simp [scaleTrans, Trans.app]

theorem app_wide {lb ub lo hi x : K} (h : lo < hi) :
    (scaleTrans lb ub (lo, hi)).app x = lb + (x - lo) * ((ub - lb) / (hi - lo)) := by
  have : hi - lo ≠ 0 := sub_ne_zero.mpr (ne_of_gt h)
  simp [scaleTrans, Trans.app, this]

/-- The box after scaling. -/
theorem scale_box {vs : List (P3 K)} {i : Fin 3} {lo hi : K} (h : IsBox vs i lo hi) (lb ub : P3 K)
    (hd : lb i ≤ ub i) :
    IsBox (scale lb ub vs).2 i (lb i) (if lo < hi then ub i else lb i) := by
  have h1 := scale_fst h lb ub
  obtain ⟨⟨a, ha, hla⟩, ⟨c, hc, hhc⟩, hin⟩ := h
  have hle : lo ≤ hi := hla ▸ (hin a ha).2
  have mem : ∀ v ∈ vs, (fun j => ((scale lb ub vs).1 j).app (v j)) ∈ (scale lb ub vs).2 := fun v hv =>
    List.mem_map_of_mem (f := fun (v : P3 K) j => ((scale lb ub vs).1 j).app (v j)) hv
  have all : ∀ x ∈ (scale lb ub vs).2, ∃ v ∈ vs, x i = (scaleTrans (lb i) (ub i) (lo, hi)).app (v i) := by
    intro x hx
    obtain ⟨v, hv, rfl⟩ := List.mem_map.mp hx
    exact ⟨v, hv, by rw [← h1]; rfl⟩
  rcases lt_or_eq_of_le hle with hlt | heq
  · rw [if_pos hlt]
    have hpos : 0 < hi - lo := sub_pos.mpr hlt
    refine ⟨⟨_, mem a ha, ?_⟩, ⟨_, mem c hc, ?_⟩, ?_⟩
    · rw [h1, app_wide hlt, hla]; ring
    · rw [h1, app_wide hlt, hhc]; field_simp; ring
    · intro x hx
      obtain ⟨v, hv, hxv⟩ := all x hx
      rw [hxv, app_wide hlt]
      have hb := hin v hv
      have hk : 0 ≤ (ub i - lb i) / (hi - lo) := div_nonneg (sub_nonneg.mpr hd) (le_of_lt hpos)
      constructor
      · have := mul_nonneg (sub_nonneg.mpr hb.1) hk
        linarith
      · have h2 : (v i - lo) * ((ub i - lb i) / (hi - lo)) ≤
            (hi - lo) * ((ub i - lb i) / (hi - lo)) :=
          mul_le_mul_of_nonneg_right (by linarith [hb.2]) hk
        have h3 : (hi - lo) * ((ub i - lb i) / (hi - lo)) = ub i - lb i := by field_simp
        linarith
  · subst heq
    rw [if_neg (lt_irrefl _)]
    have hv : ∀ v ∈ vs, v i = lo := fun v hv => le_antisymm (hin v hv).2 (hin v hv).1
    refine ⟨⟨_, mem a ha, ?_⟩, ⟨_, mem a ha, ?_⟩, ?_⟩
    · rw [h1, app_flat, hla]; ring
    · rw [h1, app_flat, hla]; ring
    · intro x hx
      obtain ⟨v, hv', hxv⟩ := all x hx
      rw [hxv, app_flat, hv v hv', sub_self, add_zero]
      exact ⟨le_refl _, le_refl _⟩

/-- Scaling from one domain to another and back, in one direction. -/
theorem app_back {lb ub lb' ub' : K} (h : lb < ub) (h' : lb' < ub') (x : K) :
    (scaleTrans lb ub (lb', ub')).app ((scaleTrans lb' ub' (lb, ub)).app x) = x := by
  rw [app_wide h', app_wide h]
  have h1 : ub - lb ≠ 0 := sub_ne_zero.mpr (ne_of_gt h)
  have h2 : ub' - lb' ≠ 0 := sub_ne_zero.mpr (ne_of_gt h')
  field_simp
  ring

theorem app_back_flat (lb ub lb' ub' x : K) :
    (scaleTrans lb ub (lb', lb')).app ((scaleTrans lb' ub' (lb, lb)).app x) = x := by
  rw [app_flat, app_flat]; ring

/-- The two transformations of a round trip undo each other at every point. -/
theorem roundTrip (vs : List (P3 K)) (hne : vs ≠ []) (lb ub lb' ub' : P3 K)
    (hd : ∀ i, lb i ≤ ub i) (hd' : ∀ i, lb' i < ub' i) (i : Fin 3) (x : K) :
    ((scale lb ub (scale lb' ub' (scale lb ub vs).2).2).1 i).app
      (((scale lb' ub' (scale lb ub vs).2).1 i).app x) = x := by
  obtain ⟨b, _, hb⟩ := boundingBox_isBox vs hne i
  have h1 := scale_box hb lb ub (hd i)
  have h2 := scale_box h1 lb' ub' (le_of_lt (hd' i))
  rw [scale_fst h2, scale_fst h1]
  by_cases hlt : b.1 < b.2
  · rw [if_pos hlt]
    by_cases hw : lb i < ub i
    · rw [if_pos hw]; exact app_back hw (hd' i) x
    · rw [if_neg hw]
      have : ub i = lb i := le_antisymm (not_lt.mp hw) (hd i)
      rw [this]; exact app_back_flat _ _ _ _ x
  · rw [if_neg hlt, if_neg (lt_irrefl _)]
    exact app_back_flat _ _ _ _ x

/-! ### The family -/

theorem set_self (s : Store K) (k : Nat) (v : List (P3 K)) : s.set k v k = v := by simp [Store.set]

theorem set_ne (s : Store K) {k j : Nat} (v : List (P3 K)) (h : j ≠ k) : s.set k v j = s j := by
  simp [Store.set, h]

/-- `j` is `f` or a relative of `f`. -/
def Below (gen : Nat → List Nat) (f j : Nat) : Prop := j = f ∨ Relative gen f j

theorem relative_iff {gen : Nat → List Nat} {a j : Nat} :
    Relative gen a j ↔ ∃ f ∈ gen a, Below gen f j := by
  constructor
  · intro h
    rcases Relation.TransGen.head'_iff.mp h with ⟨f, hf, hr⟩
    refine ⟨f, hf, ?_⟩
    rcases Relation.reflTransGen_iff_eq_or_transGen.mp hr with h | h
    · exact Or.inl h
    · exact Or.inr h
  · rintro ⟨f, hf, rfl | h⟩
    · exact Relation.TransGen.single hf
    · exact Relation.TransGen.head hf h

theorem relative_rank {gen : Nat → List Nat} {r : Nat → Nat} (hr : ∀ a, ∀ f ∈ gen a, r f < r a)
    {a j : Nat} (h : Relative gen a j) : r j < r a := by
  induction h with
  | single h => exact hr _ _ h
  | tail _ h ih => exact lt_trans (hr _ _ h) ih

/-- With one parent each, what is above a mesh is in one line. -/
theorem below_line {gen : Nat → List Nat} (one : ∀ a b f, f ∈ gen a → f ∈ gen b → a = b)
    {f g j : Nat} (hf : Below gen f j) (hg : Below gen g j) : Below gen f g ∨ Below gen g f := by
  rcases hf with rfl | hf
  · exact Or.inr hg
  · induction hf with
    | single h =>
      rcases hg with rfl | hg
      · exact Or.inl (Or.inr (Relation.TransGen.single h))
      · rcases Relation.TransGen.tail'_iff.mp hg with ⟨c, hc, hcj⟩
        have := one _ _ _ h hcj
        subst this
        rcases Relation.reflTransGen_iff_eq_or_transGen.mp hc with e | e
        · exact Or.inl (Or.inl e.symm)
        · exact Or.inr (Or.inr e)
    | @tail b c hb hbc ih =>
      rcases hg with rfl | hg
      · exact Or.inl (Or.inr (Relation.TransGen.tail hb hbc))
      · rcases Relation.TransGen.tail'_iff.mp hg with ⟨d, hd, hdj⟩
        have := one _ _ _ hbc hdj
        subst this
        apply ih
        rcases Relation.reflTransGen_iff_eq_or_transGen.mp hd with e | e
        · exact Or.inl e
        · exact Or.inr e

theorem siblings_disjoint {gen : Nat → List Nat} (hg : Forest gen) {a f g j : Nat}
    (hf : f ∈ gen a) (hgm : g ∈ gen a) (hfj : Below gen f j) (hgj : Below gen g j) : f = g := by
  obtain ⟨r, hr⟩ := hg.rank
  have key : ∀ f g, f ∈ gen a → g ∈ gen a → Below gen f g → f = g := by
    intro f g hf hg' h
    rcases h with h | h
    · exact h.symm
    · rcases Relation.TransGen.tail'_iff.mp h with ⟨c, hc, hcg⟩
      have := hg.one _ _ _ hcg hg'
      subst this
      have h1 := hr _ _ hf
      rcases Relation.reflTransGen_iff_eq_or_transGen.mp hc with e | e
      · subst e; omega
      · have := relative_rank hr e; omega
  rcases below_line hg.one hfj hgj with h | h
  · exact key f g hf hgm h
  · exact (key g f hgm hf h).symm

open Classical in
/-- In a forest, every relative is transformed once. -/
theorem transformGen_forest {gen : Nat → List Nat} (hg : Forest gen) (t : Fin 3 → Trans K)
    (r : Nat → Nat) (hr : ∀ a, ∀ f ∈ gen a, r f < r a) :
    ∀ (n a : Nat) (s : Store K), r a < n →
      transformGen gen t n a s =
        .ok (fun j => if Relative gen a j then linearTransform t (s j) else s j) := by
  intro n
  induction n with
  | zero => intro a s h; omega
  | succ n ih =>
    intro a s hn
    have loop : ∀ (l : List Nat) (s : Store K), (∀ f ∈ l, f ∈ gen a) → l.Nodup →
        l.foldlM (m := Except Fault)
          (fun s f => transformGen gen t n f (s.set f (linearTransform t (s f)))) s =
          .ok (fun j => if ∃ f ∈ l, Below gen f j then linearTransform t (s j) else s j) := by
      intro l
      induction l with
      | nil => intro s _ _; simp [pure, Except.pure]
      | cons f l ihl =>
        intro s hm hnd
        have hf := hm f List.mem_cons_self
        have hnd := List.nodup_cons.mp hnd
        rw [List.foldlM_cons, ih f _ (by have := hr a f hf; omega)]
        show List.foldlM (m := Except Fault) _ _ l = _
        rw [ihl _ (fun g hg => hm g (List.mem_cons_of_mem _ hg)) hnd.2]
        congr 1
        funext j
        have hirr : ¬ Relative gen f f := fun h => absurd (relative_rank hr h) (lt_irrefl _)
        by_cases hb : Below gen f j
        · have hno : ¬ ∃ g ∈ l, Below gen g j := by
            rintro ⟨g, hgl, hgj⟩
            have := siblings_disjoint hg hf (hm g (List.mem_cons_of_mem _ hgl)) hb hgj
            subst this
            exact hnd.1 hgl
          have hyes : ∃ g ∈ f :: l, Below gen g j := ⟨f, List.mem_cons_self, hb⟩
          rw [if_neg hno, if_pos hyes]
          rcases hb with rfl | hb
          · rw [if_neg hirr, set_self]
          · have hne : j ≠ f := by rintro rfl; exact hirr hb
            rw [if_pos hb, set_ne _ _ hne]
        · have hne : j ≠ f := fun h => hb (Or.inl h)
          have hnr : ¬ Relative gen f j := fun h => hb (Or.inr h)
          have hiff : (∃ g ∈ f :: l, Below gen g j) ↔ ∃ g ∈ l, Below gen g j := by
            constructor
            · rintro ⟨g, hgm, hgj⟩
              rcases List.mem_cons.mp hgm with rfl | hgm
              · exact absurd hgj hb
              · exact ⟨g, hgm, hgj⟩
            · rintro ⟨g, hgm, hgj⟩; exact ⟨g, List.mem_cons_of_mem _ hgm, hgj⟩
          rw [if_neg hnr, set_ne _ _ hne]
          by_cases hl : ∃ g ∈ l, Below gen g j
          · rw [if_pos hl, if_pos (hiff.mpr hl)]
          · rw [if_neg hl, if_neg (fun h => hl (hiff.mp h))]
    unfold transformGen
    rw [loop (gen a) s (fun _ h => h) (hg.once a)]
    congr 1
    funext j
    by_cases h : Relative gen a j
    · rw [if_pos h, if_pos (relative_iff.mp h)]
    · rw [if_neg h, if_neg (fun h' => h (relative_iff.mpr h'))]

end RSVS.Geo
