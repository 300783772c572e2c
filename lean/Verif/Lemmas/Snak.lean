import Verif.Lemmas.Hash
import Mathlib.Data.List.Induction

/-! Helper lemmas for snake containers (parent tables). -/

namespace RSVS.SnakStruct

open RSVS RSVS.ArrayStruct

variable {α : Type} [SnakPart α]

theorem base_inv_run {s : SnakStruct α} (h : Inv s.base) (o : Op α) : Inv (run o s).base := by
  cases o with
  | init n d => exact inv_of_flags_false rfl rfl
  | prepare =>
    unfold run
    dsimp only
    split
    · exact h.prepare
    · exact h.prepare
  | checkReady => exact h.congr rfl rfl rfl rfl rfl
  | clear => exact h.clear
  | assign n e => exact h.run (.assign n e)
  | pushBack e => exact h.pushBack e
  | edit i f => exact h.edit i f
  | remove l => exact inv_of_flags_false rfl rfl
  | concatenate l => exact inv_of_flags_false rfl rfl
  | populate => exact Inv.populate
  | change a b c d => exact inv_of_flags_false rfl rfl
  | tighten => exact h.run .tighten
  | hash => exact h.hashArray
  | setMax => exact h.setMax
  | read d l m => exact h.run (.read d l m)

theorem base_inv {h : List (Op α)} {s : SnakStruct α} (hr : SReach h s) : Inv s.base := by
  induction hr with
  | start m => exact inv_of_flags_false rfl rfl
  | step o t pt _ ht _ ih => exact (base_inv_run ih o).perm ht

/-- The parent table agrees with the elements whenever its flag is set. -/
def PInv (s : SnakStruct α) : Prop :=
  s.isHashParent = true → TableOK par s.base.elems s.ptable

/-- Operations which overwrite the elements and leave the parent flag as it was. -/
def Reuses : Op α → Bool
  | .assign _ _ => true
  | .init _ _ => true
  | .read _ _ _ => true
  | _ => false

def IsPrepare : Op α → Bool
  | .prepare => true
  | _ => false

theorem tableOK_map {l : List α} {t : Table} (f : α → α) (hf : ∀ a, par (f a) = par a)
    (h : TableOK par l t) : TableOK par (l.map f) t := by
  unfold TableOK at *
  rw [hashPairs_map par f hf]; exact h

theorem populate_eq_par (l : List α) : ∀ s : Nat, hashPairs par s (populateFrom s l) =
    hashPairs par s l := by
  suffices H : ∀ a b : Nat, hashPairs par a (populateFrom b l) = hashPairs par a l from
    fun s => H s s
  induction l with
  | nil => intros; rfl
  | cons x l ih =>
    intro a b
    simp [populateFrom, hashPairs, ih, SnakPart.par_setIdx]

theorem elems_prepare (b : ArrayStruct α) :
    b.prepareForUse.elems = b.elems.map Part.prep := by
  unfold prepareForUse
  dsimp only
  split_ifs <;> rfl

theorem PInv.run {s : SnakStruct α} (h : PInv s) (o : Op α) (ho : Reuses o = false) :
    PInv (run o s) := by
  cases o with
  | clear => intro _; exact List.Perm.refl _
  | assign n e => simp [Reuses] at ho
  | init n d => simp [Reuses] at ho
  | read d l m => simp [Reuses] at ho
  | pushBack e =>
    intro hh
    have := h hh
    unfold TableOK at *
    simp only [SnakStruct.run, ArrayStruct.pushBack]
    rw [hashPairs_append]
    simp only [Nat.zero_add]
    exact (List.Perm.cons _ this).trans (List.perm_append_singleton _ _).symm
  | edit i f => intro hh; simp [SnakStruct.run] at hh
  | remove l => intro hh; simp [SnakStruct.run] at hh
  | concatenate l => intro hh; simp [SnakStruct.run] at hh
  | populate =>
    intro hh
    have := h hh
    unfold TableOK at *
    show s.ptable.Perm (hashPairs par 0 (populateFrom 0 s.base.elems))
    rw [populate_eq_par]; exact this
  | change a b c d => intro hh; exact tableOK_map _ (fun e => SnakPart.par_shift a b c d e) (h hh)
  | tighten => intro hh; exact tableOK_map _ SnakPart.par_tighten (h hh)
  | hash => exact h
  | setMax => exact h
  | prepare =>
    intro hh
    unfold SnakStruct.run at hh ⊢
    dsimp only at hh ⊢
    split
    · rename_i h1
      rw [elems_prepare]
      exact tableOK_map _ SnakPart.par_prep (h h1)
    · exact List.Perm.refl _
  | checkReady => exact h

theorem flag_run_of_not_prepare {s : SnakStruct α} (o : Op α) (ho : IsPrepare o = false)
    (h : s.isHashParent = false) : (SnakStruct.run o s).isHashParent = false := by
  cases o <;> first | exact h | rfl | (simp [IsPrepare] at ho)

theorem SReach.snoc_inv {l : List (Op α)} {s : SnakStruct α} (h : SReach l s) :
    l = [] ∧ (∃ m, s = SnakStruct.fresh m) ∨
    ∃ l' o s' t pt, l = l' ++ [o] ∧ SReach l' s' ∧ t.Perm (SnakStruct.run o s').base.table ∧
      pt.Perm (SnakStruct.run o s').ptable ∧
      s = { SnakStruct.run o s' with
              base := { (SnakStruct.run o s').base with table := t }, ptable := pt } := by
  cases h with
  | start m => exact Or.inl ⟨rfl, m, rfl⟩
  | step o t pt h1 h2 h3 => exact Or.inr ⟨_, o, _, t, pt, rfl, h1, h2, h3, rfl⟩

theorem flag_of_no_prepare {h : List (Op α)} {s : SnakStruct α} (hr : SReach h s)
    (hp : ∀ o ∈ h, IsPrepare o = false) : s.isHashParent = false := by
  induction hr with
  | start m => rfl
  | step o t pt _ _ _ ih =>
    exact flag_run_of_not_prepare o (hp o (by simp)) (ih (fun o' ho' => hp o' (by simp [ho'])))

theorem PInv.perm {s : SnakStruct α} (h : PInv s) {t pt : Table} (hp : pt.Perm s.ptable) :
    PInv { s with base := { s.base with table := t }, ptable := pt } :=
  fun hh => hp.trans (h hh)

theorem pinv_of_split (h1 h2 : List (Op α)) (hp : ∀ o ∈ h1, IsPrepare o = false)
    (hu : ∀ o ∈ h2, Reuses o = false) {s : SnakStruct α} (hr : SReach (h1 ++ h2) s) : PInv s := by
  induction h2 using List.reverseRecOn generalizing s with
  | nil =>
    rw [List.append_nil] at hr
    intro hh
    rw [flag_of_no_prepare hr hp] at hh
    simp at hh
  | append_singleton l o ih =>
    rw [← List.append_assoc] at hr
    rcases SReach.snoc_inv hr with ⟨h, _⟩ | ⟨l', o', s', t, pt, he, hr', ht, hpt, rfl⟩
    · simp at h
    · have := List.append_inj' he rfl
      obtain ⟨e1, e2⟩ := this
      simp at e2
      subst e1 e2
      exact (PInv.run (ih (fun o' ho' => hu o' (by simp [ho'])) hr') o (hu o (by simp))).perm hpt

theorem flag_after_prepare (s : SnakStruct α) :
    (SnakStruct.run .prepare s).isHashParent = true := by
  unfold SnakStruct.run
  dsimp only
  split
  · assumption
  · rfl

end RSVS.SnakStruct
