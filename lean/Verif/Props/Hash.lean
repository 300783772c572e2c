import Verif.Lemmas.Hash

/-!
# Properties C06, C07, C09, C59, C60: hash tables and hashed vectors
-/

namespace RSVS.Props

open RSVS RSVS.ArrayStruct

/-- Exactness of the queries of a hashed vector. -/
def HashedExact (h : HashedVector) : Prop :=
  ∀ x, Spec.GoodPos id h.vec x (h.find x) ∧ Spec.AllPos id h.vec x (h.findAll x) ∧
    h.count x = h.vec.count x ∧ (h.isInVec x = true ↔ x ∈ h.vec)

theorem hashPairs_count (x : Int) : ∀ (l : List Int) (n : Nat),
    ((hashPairs id n l).filter (fun p => p.1 == x)).length = l.count x
  | [], _ => rfl
  | a :: l, n => by
      simp only [hashPairs, List.filter_cons, id, List.count_cons]
      split <;> simp [hashPairs_count x l]

theorem hashedExact_of_tableOK {h : HashedVector} (ht : TableOK id h.vec h.table) :
    HashedExact h := by
  intro x
  refine ⟨findSub_goodPos ht x, ht.allPos x, ?_, ?_⟩
  · unfold HashedVector.count
    rw [(ht.filter (fun p => p.1 == x)).length_eq, hashPairs_count]
  · unfold HashedVector.isInVec
    rw [bne_iff_ne]
    exact findSub_ne ht x

/-- C06. After `GenerateHash` and any later additions, in any table order, queries are exact. -/
theorem C06_after_generate (h : HashedVector) (xs : List Int) (t : Table)
    (ht : t.Perm (xs.foldl HashedVector.pushBack h.generate).table) :
    HashedExact { xs.foldl HashedVector.pushBack h.generate with table := t } := by
  have key : ∀ (xs : List Int) (g : HashedVector), HInv g → g.isHash = true →
      HInv (xs.foldl HashedVector.pushBack g) ∧ (xs.foldl HashedVector.pushBack g).isHash = true := by
    intro xs
    induction xs with
    | nil => intro g h1 h2; exact ⟨h1, h2⟩
    | cons x xs ih => intro g h1 h2; exact ih _ (h1.pushBack x) h2
  obtain ⟨h1, h2⟩ := key xs h.generate (fun _ => tableOK_generate h) rfl
  exact hashedExact_of_tableOK (ht.trans (h1 h2))

example : (([7, 3].foldl HashedVector.pushBack
    ({ vec := [3, 4], table := [(9, 5)], isHash := false } : HashedVector).generate).findAll 3)
      = [3, 0] := by decide

/-- C06, full statement about the flag. -/
def C06_flag_statement : Prop :=
  ∀ (l : List HOp) (h : HashedVector), HReach l h → h.isHash = true → HashedExact h

/-- C06 (flag) does not hold: the flag starts as `true` and writing `vec` does not reset it. -/
theorem C06_flag_violated : ¬ C06_flag_statement := by
  intro H
  have hr : HReach [.setVec [1]] { vec := [1], table := [], isHash := true } :=
    .setVec [1] .start
  have := ((H _ _ hr rfl) 1).2.2.2
  simp [HashedVector.isInVec, findSub, lookup] at this

/-- The same through `operator[]` after a proper `GenerateHash`. -/
theorem C06_flag_write_violated : ∃ h, HReach [.pushBack 1, .generate, .write 0 2] h ∧
    h.isHash = true ∧ h.find 1 = 0 ∧ h.vec = [2] :=
  ⟨{ vec := [2], table := [(1, 0)], isHash := true },
    .write 0 2 (.generate (.pushBack 1 .start)) rfl, rfl, rfl, rfl⟩

/-- Operations that keep the flag honest. -/
def HOpTame : HOp → Bool
  | .write _ _ => false
  | .setVec _ => false
  | _ => true

/-- C06 (flag), what does hold: histories without direct writes to the data (missing: direct writes,
which do not reset the flag). -/
theorem C06_flag_partial {l : List HOp} {h : HashedVector} (hr : HReach l h)
    (hl : ∀ o ∈ l, HOpTame o = true) (hf : h.isHash = true) : HashedExact h := by
  have key : HInv h := by
    clear hf
    induction hr with
    | start => intro _; exact List.Perm.refl _
    | generate _ _ => intro _; exact tableOK_generate _
    | pushBack x _ ih => exact (ih (fun o ho => hl o (by simp [ho]))).pushBack x
    | assign n x _ _ => intro hh; simp [HashedVector.assign] at hh
    | clear _ _ => intro _; exact List.Perm.refl _
    | write i x _ _ _ => have := hl (.write i x) (by simp); simp [HOpTame] at this
    | setVec v _ _ => have := hl (.setVec v) (by simp); simp [HOpTame] at this
    | rehash t _ ht ih => intro hh; exact ht.trans (ih hl hh)
  exact hashedExact_of_tableOK (key hf)

example : ∃ h, HReach [.assign 2 5, .pushBack 1, .generate, .pushBack 5] h ∧ h.isHash = true ∧
    h.findAll 5 = [3, 0, 1] :=
  ⟨_, .pushBack 5 (.generate (.pushBack 1 (.assign 2 5 .start))), rfl, by decide⟩

/-- C06 for `HashedVectorSafe`: the flag is always honest. -/
theorem C06_safe {h : HashedVector} (hr : SafeReach h) (hf : h.isHash = true) : HashedExact h := by
  have key : HInv h := by
    clear hf
    induction hr with
    | start => intro _; exact List.Perm.refl _
    | generate _ _ => intro _; exact tableOK_generate _
    | setVec v _ _ => intro hh; simp at hh
    | write i x _ _ _ => intro hh; simp at hh
    | rehash t _ ht ih => intro hh; exact ht.trans (ih hh)
  exact hashedExact_of_tableOK (key hf)

example : ∃ h, SafeReach h ∧ h.isHash = true ∧ h.vec = [4, 2, 4] :=
  ⟨_, .generate (.setVec [4, 2, 4] .start), rfl, rfl⟩

/-! ## C07 -/

/-- C07, full statement: whatever table is passed. -/
def C07_statement : Prop :=
  ∀ (keys list : List Int) (t : Table), ∃ r t', findSubList keys list t = .ok (r, t') ∧
    List.Forall₂ (fun k p => Spec.GoodPos id list k p) keys r

/-- C07 does not hold for a table filled from another list: 3 is in the list, the answer is -1. -/
theorem C07_stale_violated : ¬ C07_statement := by
  intro H
  obtain ⟨r, t', h1, h2⟩ := H [3] [3] [(1, 0)]
  have : findSubList [(3 : Int)] [3] [(1, 0)] = .ok ([-1], [(1, 0)]) := by decide
  rw [this] at h1
  simp only [Except.ok.injEq, Prod.mk.injEq] at h1
  obtain ⟨rfl, _⟩ := h1
  cases h2 with
  | cons h _ =>
    rcases h with ⟨_, h⟩ | ⟨p, h, _⟩
    · exact h 3 (by simp) rfl
    · omega

/-- A stale table can also make the search throw or read out of range. -/
theorem C07_stale_faults_violated :
    findSubList [(1 : Int)] [2, 1] [(1, 0), (2, 1)] = .error .throws ∧
    findSubList [(5 : Int)] [5] [(5, 4)] = .error .ub := by
  constructor <;> decide

/-- C07, what does hold: an empty table, or one filled from the same list in any order (missing:
tables filled from another list).  The table left behind again matches the list. -/
theorem C07_find_sub_list_partial {κ : Type} [DecidableEq κ] (keys list : List κ) (t : TableOf κ)
    (ht : t = [] ∨ t.Perm (hashPairs id 0 list)) :
    ∃ r t', findSubList keys list t = .ok (r, t') ∧
      List.Forall₂ (fun k p => Spec.GoodPos id list k p) keys r ∧ t'.Perm (hashPairs id 0 list) := by
  have hok : TableOK id list (if t.isEmpty then hashPairs id 0 list else t) := by
    rcases ht with rfl | h
    · exact List.Perm.refl _
    · split
      · exact List.Perm.refl _
      · exact h
  obtain ⟨r, hr, hf⟩ := findSubLoop_ok hok keys
  exact ⟨r, _, by simp only [findSubList, hr], hf, hok⟩

/-- C07 for the overload with a constant table. -/
theorem C07_find_sub_list_const_partial {κ : Type} [DecidableEq κ] (keys list : List κ) (t : TableOf κ)
    (ht : t.Perm (hashPairs id 0 list)) :
    ∃ r, findSubListConst keys list t = .ok r ∧
      List.Forall₂ (fun k p => Spec.GoodPos id list k p) keys r := by
  obtain ⟨r, hr, hf⟩ := findSubLoop_ok (l := list) ht keys
  refine ⟨r, ?_, hf⟩
  unfold findSubListConst
  rw [if_neg, hr]
  intro h
  simp only [Bool.and_eq_true, decide_eq_true_eq] at h
  have h0 : t = [] := by simpa using h.1.1
  subst h0
  have : list = [] := by
    cases list with
    | nil => rfl
    | cons a l => have := ht.length_eq; simp [hashPairs] at this
  simp [this] at h

example : findSubList [(4 : Int), 7, 2] [2, 4, 2] [(2, 2), (2, 0), (4, 1)] =
    .ok ([1, -1, 2], [(2, 2), (2, 0), (4, 1)]) := by decide

/-! ## C09 -/

/-- C09, `EraseKeyPair`: the pair stays in the caller's table. Full claim and its negation. -/
theorem C09_erase_key_pair_violated :
    ¬ ∀ (t : Table) (k : Int) (p : Nat), (k, p) ∈ t → Spec.Grouped t →
        ∃ t', eraseKeyPair t k p = .ok t' ∧ t'.Perm (t.erase (k, p)) := by
  intro H
  obtain ⟨t', h1, h2⟩ := H [(1, 0)] 1 0 (by simp) (by simp [Spec.Grouped])
  have : eraseKeyPair [(1, 0)] 1 0 = .ok [(1, 0)] := by decide
  rw [this] at h1
  simp only [Except.ok.injEq] at h1
  subst h1
  have := h2.length_eq
  simp at this

/-- C09, `EraseKeyPair`, what it does: it succeeds and changes nothing (missing: the erasure). -/
theorem C09_erase_key_pair_partial (t : Table) (k : Int) (p : Nat) (t' : Table)
    (h : eraseKeyPair t k p = .ok t') : t' = t := by
  unfold eraseKeyPair at h
  split at h
  · simp at h
  · simpa using h.symm

theorem erasePair_ok (t : Table) (k : Int) (p : Nat) (hm : (k, p) ∈ t) (hg : Spec.Grouped t) :
    erasePair t k p = .ok (t.erase (k, p)) := by
  have happ := beforeKey_append t k
  have hnot := beforeKey_not_mem t k p
  have hm' : (k, p) ∈ fromKey t k := by
    rw [← happ] at hm
    rcases List.mem_append.1 hm with h | h
    · exact absurd h hnot
    · exact h
  have hhead : (fromKey t k).head?.map Prod.fst = some k := by
    rcases fromKey_head t k with h | ⟨q, r, h⟩
    · rw [h] at hm'; simp at hm'
    · rw [h]; rfl
  have hl := eraseLoop_ok k p (fromKey t k) (grouped_dropWhile t _ hg) hm' hhead
  unfold erasePair
  rw [hl]
  conv_rhs => rw [← happ]
  rw [List.erase_append_right _ hnot]

/-- C09, `DeHashParent`: for every table order in which equal keys are adjacent, the entry of that
position is erased and all others stay. -/
theorem C09_dehash_parent {β : Type} [SnakPart β] (s : SnakStruct β) (pos : Nat) (e : β)
    (he : s.base.elems[pos]? = some e) (hm : (par e, pos) ∈ s.ptable)
    (hg : Spec.Grouped s.ptable) :
    ∃ s', s.deHashParent pos = .ok s' ∧ s'.base = s.base ∧
      s'.ptable = s.ptable.erase (par e, pos) := by
  refine ⟨{ s with ptable := s.ptable.erase (par e, pos) }, ?_, rfl, rfl⟩
  unfold SnakStruct.deHashParent
  rw [he]
  simp only [erasePair_ok _ _ _ hm hg]

/-- C09. Erasing twice is not safe: with one entry the second call dereferences the end. -/
theorem C09_erase_absent_violated : erasePair [] 1 0 = .error .ub := by decide

example : erasePair [(4, 1), (4, 0), (2, 5)] 4 0 = .ok [(4, 1), (2, 5)] ∧
    Spec.Grouped [(4, 1), (4, 0), (2, 5)] := by
  refine ⟨by decide, ?_⟩
  simp [Spec.Grouped]

/-! ## C59: membership of the parent table -/

/-- C59. `memberIsHashParent(pos)` is true exactly when the entry (parent, pos) is in the table. -/
theorem C59_member_is_hash_parent {β : Type} [SnakPart β] (s : SnakStruct β) (pos : Nat) (e : β)
    (he : s.base.elems[pos]? = some e) (hg : Spec.Grouped s.ptable) :
    ∃ b, s.memberIsHashParent pos = .ok b ∧ (b = true ↔ (par e, pos) ∈ s.ptable) := by
  refine ⟨memberLoop (par e) pos (fromKey s.ptable (par e)), ?_, ?_⟩
  · unfold SnakStruct.memberIsHashParent; rw [he]
  · rw [memberLoop_iff (par e) pos (fromKey s.ptable (par e)) (grouped_dropWhile _ _ hg)]
    · conv_rhs => rw [← beforeKey_append s.ptable (par e)]
      rw [List.mem_append]
      constructor
      · exact Or.inr
      · rintro (h | h)
        · exact absurd h (beforeKey_not_mem _ _ _)
        · exact h
    · rcases fromKey_head s.ptable (par e) with h | ⟨p, r, h⟩
      · exact Or.inl h
      · right; left; rw [h]; rfl

/-- C59. After `DeHashParent(pos)` on a table without repeated entries the position is no longer
reported, and every other position is reported as before. -/
theorem C59_after_dehash (t : Table) (k : Int) (p : Nat) (hm : (k, p) ∈ t) (hg : Spec.Grouped t)
    (hn : t.Nodup) (t' : Table) (h : erasePair t k p = .ok t') :
    (k, p) ∉ t' ∧ ∀ x, x ≠ (k, p) → (x ∈ t' ↔ x ∈ t) := by
  rw [erasePair_ok t k p hm hg] at h
  simp only [Except.ok.injEq] at h
  subst h
  exact ⟨fun hh => (List.Nodup.not_mem_erase hn hh), fun x hx => List.mem_erase_of_ne hx⟩

example : memberLoop 4 0 (fromKey [(1, 3), (4, 1), (4, 0)] 4) = true ∧
    memberLoop 4 2 (fromKey [(1, 3), (4, 1), (4, 0)] 4) = false := by decide

/-! ## C60: the map used for sparse derivatives -/

/-- Abstract map as a function updated write by write. -/
def putFn {S : Type} (f : Int → S) (kv : Int × S) : Int → S := fun x => if x = kv.1 then kv.2 else f x

/-- Run a list of assignments `h(k) = v`. -/
def runPuts {S : Type} (zero : S) : HashedPair S → List (Int × S) → Res (HashedPair S)
  | h, [] => .ok h
  | h, (k, v) :: r =>
    match h.put zero k v with
    | .error f => .error f
    | .ok h' => runPuts zero h' r

/-- Representation invariant of the pair vector. -/
structure PairInv {S : Type} (h : HashedPair S) : Prop where
  ok : TableOK id h.hv.vec h.hv.table
  len : h.targ.length = h.hv.vec.length
  nodup : h.hv.vec.Nodup

theorem put_of_inv {S : Type} (zero : S) {h : HashedPair S} (hi : PairInv h) (k : Int) (v : S) :
    ∃ h', h.put zero k v = .ok h' ∧ PairInv h' ∧
      ∀ x w, h.get zero x = .ok w → h'.get zero x = .ok (if x = k then v else w) := by
  unfold HashedPair.put
  cases hl : lookup h.hv.table k with
  | none =>
    have hnot : k ∉ h.hv.vec := fun hm => hi.ok.lookup_none hl k hm rfl
    have hlt : h.hv.vec.length < h.targ.length + 1 := by rw [hi.len]; omega
    refine ⟨{ h.pushBack k zero with targ := (h.pushBack k zero).targ.set h.hv.vec.length v },
      by simp [HashedPair.pushBack, HashedVector.pushBack, hlt], ?_, ?_⟩
    · refine ⟨(HInv.pushBack (h := { h.hv with isHash := true }) (fun _ => hi.ok) k) rfl, ?_, ?_⟩
      · simp [HashedPair.pushBack, HashedVector.pushBack, hi.len]
      · simp only [HashedPair.pushBack, HashedVector.pushBack]
        rw [List.nodup_append]
        refine ⟨hi.nodup, by simp, ?_⟩
        intro a ha b hb
        simp at hb
        subst hb
        intro hab; subst hab; exact hnot ha
    · intro x w hg
      unfold HashedPair.get at hg ⊢
      have hlk : lookup ((k, h.hv.vec.length) :: h.hv.table) x =
          if x = k then some h.hv.vec.length else lookup h.hv.table x := by
        unfold lookup
        rw [List.find?_cons]
        by_cases hx : x = k
        · subst hx; simp
        · have : (k == x) = false := by simpa using fun h => hx h.symm
          simp [this, hx]
      simp only [HashedPair.pushBack, HashedVector.pushBack]
      rw [hlk]
      by_cases hx : x = k
      · subst hx
        simp [hlt]
      · simp only [hx, if_false]
        cases hlx : lookup h.hv.table x with
        | none => simpa [hlx] using hg
        | some p =>
          rw [hlx] at hg
          obtain ⟨e, he, _⟩ := hi.ok.lookup_some hlx
          have hp : p < h.hv.vec.length := (List.getElem?_eq_some_iff.1 he).1
          have hp' : p < h.targ.length := by rw [hi.len]; exact hp
          have hne : h.hv.vec.length ≠ p := by omega
          simp only [List.getElem?_set, hne, if_false, List.getElem?_append_left hp']
          exact hg
  | some p =>
    obtain ⟨e, he, hk⟩ := hi.ok.lookup_some hl
    simp only [id] at hk
    subst hk
    have hp : p < h.targ.length := by
      rw [hi.len]; exact (List.getElem?_eq_some_iff.1 he).1
    refine ⟨{ h with targ := h.targ.set p v }, by simp [hp], ⟨hi.ok, by simp [hi.len], hi.nodup⟩, ?_⟩
    intro x w hg
    unfold HashedPair.get at hg ⊢
    by_cases hx : x = e
    · subst hx
      simp [hl, hp]
    · simp only [hx, if_false]
      cases hlx : lookup h.hv.table x with
      | none => simpa [hlx] using hg
      | some q =>
        rw [hlx] at hg
        obtain ⟨e', he', hk'⟩ := hi.ok.lookup_some hlx
        simp only [id] at hk'
        subst hk'
        have hne : p ≠ q := by
          rintro rfl
          rw [he] at he'
          exact hx (Option.some.inj he').symm
        simp only [List.getElem?_set, hne, if_false]
        exact hg

theorem runPuts_ok {S : Type} (zero : S) (puts : List (Int × S)) : ∀ (h : HashedPair S) (f : Int → S),
    PairInv h → (∀ x, h.get zero x = .ok (f x)) →
    ∃ h', runPuts zero h puts = .ok h' ∧ PairInv h' ∧
      ∀ x, h'.get zero x = .ok (puts.foldl putFn f x) := by
  induction puts with
  | nil => intro h f hi hg; exact ⟨h, rfl, hi, hg⟩
  | cons kv r ih =>
    intro h f hi hg
    obtain ⟨k, v⟩ := kv
    obtain ⟨h', h1, h2, h3⟩ := put_of_inv zero hi k v
    obtain ⟨h'', h4, h5, h6⟩ := ih h' (putFn f (k, v)) h2 (fun x => h3 x (f x) (hg x))
    exact ⟨h'', by simp [runPuts, h1, h4], h5, h6⟩

/-- C60. Starting empty, any sequence of assignments `h(k) = v` succeeds, and reading a key gives
the last value assigned to it, or zero when there is none; keys are stored once. -/
theorem C60_pair_map {S : Type} (zero : S) (puts : List (Int × S)) :
    ∃ h, runPuts zero HashedPair.fresh puts = .ok h ∧ h.hv.vec.Nodup ∧
      ∀ x, h.get zero x = .ok (puts.foldl (fun f kv => fun x => if x = kv.1 then kv.2 else f x)
        (fun _ => zero) x) := by
  obtain ⟨h, h1, h2, h3⟩ := runPuts_ok zero puts HashedPair.fresh (fun _ => zero)
    ⟨List.Perm.refl _, rfl, by simp [HashedPair.fresh, HashedVector.fresh]⟩ (fun _ => rfl)
  exact ⟨h, h1, h2.nodup, h3⟩

example : ∃ h : HashedPair Int, runPuts 0 HashedPair.fresh [(2, 7), (5, 1), (2, 9)] = .ok h ∧
    h.targ = [9, 1] ∧ h.get 0 2 = .ok 9 ∧ h.get 0 3 = .ok 0 :=
  ⟨_, rfl, rfl, rfl, rfl⟩

end RSVS.Props
