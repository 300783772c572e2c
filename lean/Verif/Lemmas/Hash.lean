import Verif.Lemmas.Container
import Mathlib.Data.List.TakeWhile

/-! Helper lemmas for hash tables. -/

namespace RSVS

open RSVS.ArrayStruct

theorem findSub_goodPos {α κ : Type} [DecidableEq κ] {key : α → κ} {l : List α} {t : TableOf κ}
    (h : TableOK key l t) (k : κ) : Spec.GoodPos key l k (findSub k t) := by
  unfold findSub
  cases hl : lookup t k with
  | none => exact Or.inl ⟨rfl, h.lookup_none hl⟩
  | some p =>
    obtain ⟨e, he, hk⟩ := h.lookup_some hl
    exact Or.inr ⟨p, rfl, e, he, hk⟩

theorem findSub_ne {κ : Type} [DecidableEq κ] {l : List κ} {t : TableOf κ} (h : TableOK id l t) (k : κ) :
    findSub k t ≠ -1 ↔ k ∈ l := by
  rcases findSub_goodPos h k with ⟨h1, h2⟩ | ⟨p, h1, e, h2, h3⟩
  · constructor
    · intro hh; exact absurd h1 hh
    · intro hh; exact absurd rfl (h2 k hh)
  · constructor
    · intro _; subst h3; exact List.mem_of_getElem? h2
    · intro _ hh; rw [h1] at hh; omega

theorem findSubLoop_ok {κ : Type} [DecidableEq κ] {l : List κ} {t : TableOf κ} (h : TableOK id l t) :
    ∀ keys : List κ, ∃ r, findSubLoop l t keys = .ok r ∧
      List.Forall₂ (fun k p => Spec.GoodPos id l k p) keys r
  | [] => ⟨[], rfl, List.Forall₂.nil⟩
  | k :: ks => by
      obtain ⟨r, hr, hf⟩ := findSubLoop_ok h ks
      unfold findSubLoop
      cases hl : lookup t k with
      | none =>
        exact ⟨-1 :: r, by simp [hr], List.Forall₂.cons (Or.inl ⟨rfl, h.lookup_none hl⟩) hf⟩
      | some p =>
        obtain ⟨e, he, hk⟩ := h.lookup_some hl
        refine ⟨(p : Int) :: r, ?_, List.Forall₂.cons (Or.inr ⟨p, rfl, e, he, hk⟩) hf⟩
        simp only [id] at hk
        simp [he, hk, hr]

/-- A table filled with the list whose keys are looked up. -/
def HInv (h : HashedVector) : Prop := h.isHash = true → TableOK id h.vec h.table

theorem HInv.pushBack {h : HashedVector} (hi : HInv h) (x : Int) : HInv (h.pushBack x) := by
  intro hh
  have := hi hh
  unfold TableOK at *
  simp only [HashedVector.pushBack]
  rw [hashPairs_append]
  simp only [Nat.zero_add, id]
  exact (List.Perm.cons _ this).trans (List.perm_append_singleton _ _).symm

theorem tableOK_generate (h : HashedVector) : TableOK id h.generate.vec h.generate.table :=
  List.Perm.refl _

theorem write_vec {h h' : HashedVector} {i : Nat} {x : Int} (hw : h.write i x = .ok h') :
    h'.table = h.table ∧ h'.isHash = h.isHash := by
  unfold HashedVector.write at hw
  split at hw
  · simp only [Except.ok.injEq] at hw; subst hw; exact ⟨rfl, rfl⟩
  · simp at hw

/-! ### erasing pairs -/

theorem fromKey_head (t : Table) (key : Int) :
    fromKey t key = [] ∨ ∃ p r, fromKey t key = (key, p) :: r := by
  unfold fromKey
  induction t with
  | nil => left; rfl
  | cons a r ih =>
    rw [List.dropWhile_cons]
    split
    · exact ih
    · rename_i h
      right
      simp at h
      exact ⟨a.2, r, by rw [← h]⟩

theorem beforeKey_append (t : Table) (key : Int) : beforeKey t key ++ fromKey t key = t :=
  List.takeWhile_append_dropWhile

theorem beforeKey_not_mem (t : Table) (key : Int) (p : Nat) : (key, p) ∉ beforeKey t key := by
  intro h
  have := List.mem_takeWhile_imp h
  simp at this

theorem grouped_tail {a : Int × Nat} {r : Table} (h : Spec.Grouped (a :: r)) : Spec.Grouped r := h.1

theorem grouped_dropWhile (t : Table) (f : Int × Nat → Bool) (h : Spec.Grouped t) :
    Spec.Grouped (t.dropWhile f) := by
  induction t with
  | nil => exact h
  | cons a r ih =>
    rw [List.dropWhile_cons]
    split
    · exact ih h.1
    · exact h

theorem eraseLoop_ok (key : Int) (pos : Nat) : ∀ r : Table, Spec.Grouped r →
    (key, pos) ∈ r → (r.head?.map Prod.fst) = some key →
    eraseLoop key pos r = .ok (r.erase (key, pos))
  | [], _, h, _ => by simp at h
  | (k, p) :: r, hg, hm, hh => by
      simp at hh
      subst hh
      unfold eraseLoop
      by_cases hp : p = pos
      · subst hp; simp
      · have hm' : (k, pos) ∈ r := by
          rcases List.mem_cons.1 hm with h | h
          · simp at h; exact absurd h.symm hp
          · exact h
        have hhead := hg.2 (List.mem_map.2 ⟨_, hm', rfl⟩)
        have := eraseLoop_ok k pos r hg.1 hm' hhead
        simp [hp, this]

theorem memberLoop_iff (key : Int) (pos : Nat) : ∀ r : Table, Spec.Grouped r →
    (r = [] ∨ (r.head?.map Prod.fst) = some key ∨ key ∉ r.map Prod.fst) →
    (memberLoop key pos r = true ↔ (key, pos) ∈ r)
  | [], _, _ => by simp [memberLoop]
  | (k, p) :: r, hg, hh => by
      unfold memberLoop
      by_cases hk : k = key
      · subst hk
        by_cases hp : p = pos
        · subst hp; simp
        · simp only [ne_eq, hp, not_false_eq_true, and_self, if_true]
          rw [memberLoop_iff k pos r hg.1 ?_]
          · constructor
            · intro h; exact List.mem_cons_of_mem _ h
            · intro h
              rcases List.mem_cons.1 h with h | h
              · simp at h; exact absurd h.symm hp
              · exact h
          · by_cases hin : k ∈ r.map Prod.fst
            · right; left; exact hg.2 hin
            · right; right; exact hin
      · have hnot : (key, pos) ∉ (k, p) :: r := by
          rcases hh with h | h | h
          · simp at h
          · simp at h; exact absurd h hk
          · intro hm
            exact h (List.mem_map.2 ⟨_, hm, rfl⟩)
        simp [hk, hnot]

end RSVS
