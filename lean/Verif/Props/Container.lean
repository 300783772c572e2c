import Verif.Lemmas.Snak

/-!
# Properties C01-C05, C08: element containers
-/

namespace RSVS.Props

open RSVS RSVS.ArrayStruct

variable {α : Type} [Part α]

/-- A small element type for the examples: an index and a parent. -/
structure Item where
  index : Int
  parent : Int
  deriving DecidableEq, Repr

instance : SnakPart Item where
  idx := Item.index
  setIdx a i := { a with index := i }
  shift nv _ _ _ a := { a with index := a.index + nv }
  prep a := a
  tighten a := a
  isReady _ _ := true
  idx_setIdx _ _ := rfl
  idx_prep _ := rfl
  idx_tighten _ := rfl
  par := Item.parent
  par_setIdx _ _ := rfl
  par_shift _ _ _ _ _ := rfl
  par_prep _ := rfl
  par_tighten _ := rfl

/-- Running a list of operations, leaving the table in the order it was built. -/
theorem reach_run (m : Int) (ops : List (Op α)) :
    Reach ops (ops.foldl (fun s o => o.run s) (fresh m)) := by
  induction ops using List.reverseRecOn with
  | nil => exact .start m
  | append_singleton l o ih =>
    rw [List.foldl_append]
    exact .step o _ ih (List.Perm.refl _)

theorem sreach_run {β : Type} [SnakPart β] (m : Int) (ops : List (Op β)) :
    SReach ops (ops.foldl (fun s o => SnakStruct.run o s) (SnakStruct.fresh m)) := by
  induction ops using List.reverseRecOn with
  | nil => exact .start m
  | append_singleton l o ih =>
    rw [List.foldl_append]
    exact .step o _ _ ih (List.Perm.refl _) (List.Perm.refl _)

/-- C01. For every history of operations and every table order, when the flag says the table is
fresh `find` does not fail and its answer is exact. -/
theorem C01_find_exact {h : List (Op α)} {s : ArrayStruct α} (hr : Reach h s)
    (hf : s.isHash = true) (k : Int) :
    ∃ r, s.find k = .ok r ∧ Spec.GoodPos idx s.elems k r :=
  find_of_tableOK ((Inv.of_reach hr).hash hf) k

/-- C01. `find` answers -1 exactly when no element has the index. -/
theorem C01_find_notfound {h : List (Op α)} {s : ArrayStruct α} (hr : Reach h s)
    (hf : s.isHash = true) (k : Int) :
    s.find k = .ok (-1) ↔ ∀ e ∈ s.elems, idx e ≠ k := by
  obtain ⟨r, h1, h2⟩ := C01_find_exact hr hf k
  rw [h1]
  constructor
  · intro h
    simp only [Except.ok.injEq] at h
    rcases h2 with ⟨_, h2⟩ | ⟨p, hp, _⟩
    · exact h2
    · omega
  · intro h
    rcases h2 with ⟨h2, _⟩ | ⟨p, hp, e, he, hk⟩
    · rw [h2]
    · exact absurd hk (h e (List.mem_of_getElem? he))

/-- C01. `isearch` returns an element with the index, or throws when there is none; nothing else. -/
theorem C01_isearch {h : List (Op α)} {s : ArrayStruct α} (hr : Reach h s)
    (hf : s.isHash = true) (k : Int) :
    (∃ e ∈ s.elems, idx e = k ∧ s.isearch k = .ok e) ∨
    ((∀ e ∈ s.elems, idx e ≠ k) ∧ s.isearch k = .error .throws) := by
  obtain ⟨r, h1, h2⟩ := C01_find_exact hr hf k
  unfold isearch
  rw [h1]
  rcases h2 with ⟨rfl, h2⟩ | ⟨p, rfl, e, he, hk⟩
  · right; exact ⟨h2, rfl⟩
  · left
    refine ⟨e, List.mem_of_getElem? he, hk, ?_⟩
    simp [at', he]

/-- C01 for snake containers. -/
theorem C01_find_exact_snake {β : Type} [SnakPart β] {h : List (Op β)} {s : SnakStruct β}
    (hr : SReach h s) (hf : s.base.isHash = true) (k : Int) :
    ∃ r, s.base.find k = .ok r ∧ Spec.GoodPos idx s.base.elems k r :=
  find_of_tableOK ((SnakStruct.base_inv hr).hash hf) k

/-- A reached, fresh container with two elements, one removed and one added later. -/
example : ∃ s : ArrayStruct Item,
    Reach [.pushBack ⟨3, 1⟩, .pushBack ⟨5, 1⟩, .remove [3], .prepare, .pushBack ⟨9, 2⟩] s ∧
    s.isHash = true ∧ s.elems = [⟨5, 1⟩, ⟨9, 2⟩] := by
  exact ⟨_, Reach.step (h := [.pushBack (⟨3, 1⟩ : Item), .pushBack ⟨5, 1⟩, .remove [3], .prepare])
    (.pushBack (⟨9, 2⟩ : Item)) [((5 : Int), 0), (9, 1)] (reach_run 77 _) (List.Perm.swap _ _ _),
    rfl, rfl⟩

/-- C02. When the maximum is flagged as set it is at least every index and it is 0 or present. -/
theorem C02_max_index {h : List (Op α)} {s : ArrayStruct α} (hr : Reach h s)
    (hf : s.isSetMI = true) : Spec.IsMaxKey idx s.elems s.maxIndex :=
  (Inv.of_reach hr).max hf

/-- C02. `GetMaxIndex()+1` is not the index of any element. -/
theorem C02_next_index_unused {h : List (Op α)} {s : ArrayStruct α} (hr : Reach h s)
    (hf : s.isSetMI = true) : ∀ e ∈ s.elems, idx e ≠ s.maxIndex + 1 := by
  intro e he hk
  have := (C02_max_index hr hf).1 e he
  omega

/-- C02. After preparation the maximum is flagged as set. -/
theorem C02_prepare_sets {h : List (Op α)} {s : ArrayStruct α} (hr : Reach (h ++ [.prepare]) s) :
    s.isSetMI = true ∧ s.isHash = true := by
  generalize hl : h ++ [Op.prepare] = l at hr
  cases hr with
  | start m => simp at hl
  | step o t h1 h2 =>
    have := List.append_inj' hl rfl
    simp at this
    obtain ⟨_, rfl⟩ := this
    show (prepareForUse _).isSetMI = true ∧ (prepareForUse _).isHash = true
    unfold prepareForUse
    dsimp only
    split_ifs with h1 h2 h2
    · exact ⟨h1, h2⟩
    · exact ⟨h1, rfl⟩
    · exact ⟨rfl, h2⟩
    · exact ⟨rfl, rfl⟩

example : ∃ s : ArrayStruct Item, Reach [.pushBack ⟨3, 1⟩, .setMax, .pushBack ⟨8, 1⟩] s ∧
    s.isSetMI = true ∧ s.maxIndex = 8 :=
  ⟨_, reach_run 5 _, rfl, rfl⟩

/-- C03, full statement: in every reachable state that claims to be ready, the table and the maximum
describe the contents. -/
def C03_statement (α : Type) [Part α] : Prop :=
  ∀ (h : List (Op α)) (s : ArrayStruct α), Reach h s → s.ready = true →
    (∀ k, ∃ r, s.find k = .ok r ∧ Spec.GoodPos idx s.elems k r) ∧
    Spec.IsMaxKey idx s.elems s.maxIndex

/-- C03 does not hold: `remove` leaves the ready flag set.  Witness: add two elements, prepare,
remove the first: the container says it is ready and `find` of the remaining one is out of range. -/
theorem C03_ready_violated : ¬ C03_statement Item := by
  intro H
  have hr : Reach [.pushBack (⟨1, 1⟩ : Item), .pushBack ⟨2, 1⟩, .prepare, .remove [1]]
      { elems := [⟨2, 1⟩], table := [(1, 0), (2, 1)], isHash := false, isSetMI := false,
        ready := true, inMesh := false, maxIndex := 2 } :=
    reach_run 0 _
  obtain ⟨r, hk, _⟩ := (H _ _ hr rfl).1 2
  simp [find, lookup] at hk

/-- Operations which do not remove. -/
def NoRemove : Op α → Bool
  | .remove _ => false
  | _ => true

/-- C03, what does hold: the claim is true in every history in which no removal happened since the
last preparation or readiness check (missing: states between a removal and the next one). -/
theorem C03_ready_partial (h1 h2 : List (Op α)) (o : Op α) (ho : o = .prepare ∨ o = .checkReady)
    (hn : ∀ o ∈ h2, NoRemove o = true) {s : ArrayStruct α} (hr : Reach (h1 ++ [o] ++ h2) s)
    (hready : s.ready = true) :
    (∀ k, ∃ r, s.find k = .ok r ∧ Spec.GoodPos idx s.elems k r) ∧
    Spec.IsMaxKey idx s.elems s.maxIndex := by
  have key : s.ready = true → s.isHash = true ∧ s.isSetMI = true := by
    clear hready
    induction h2 using List.reverseRecOn generalizing s with
    | nil =>
      rw [List.append_nil] at hr
      generalize hl : h1 ++ [o] = l at hr
      cases hr with
      | start m => simp at hl
      | step o' t h1 h2 =>
        have := List.append_inj' hl rfl
        simp at this
        obtain ⟨_, rfl⟩ := this
        rcases ho with rfl | rfl
        · intro _
          show (prepareForUse _).isHash = true ∧ (prepareForUse _).isSetMI = true
          unfold prepareForUse
          dsimp only
          split_ifs with h1 h2 h2
          · exact ⟨h2, h1⟩
          · exact ⟨rfl, h1⟩
          · exact ⟨h2, rfl⟩
          · exact ⟨rfl, rfl⟩
        · intro hh
          simp only [Op.run, checkReady, Bool.and_eq_true] at hh
          exact hh.1
    | append_singleton l o1 ih =>
      rw [← List.append_assoc] at hr
      generalize hl : h1 ++ [o] ++ l ++ [o1] = l' at hr
      cases hr with
      | start m => simp at hl
      | step o' t hr1 hr2 =>
        have := List.append_inj' hl rfl
        simp only [List.cons.injEq, and_true] at this
        obtain ⟨he, rfl⟩ := this
        subst he
        have ih' := ih (fun o ho => hn o (by simp [ho])) hr1
        have hno := hn o1 (by simp)
        intro hh
        cases o1 with
        | clear => exact ih' hh
        | assign n e => simp [Op.run, assign] at hh
        | init n d => simp [Op.run, init, assign] at hh
        | pushBack e => exact ih' hh
        | edit i f =>
          simp only [Op.run, edit] at hh ⊢
          split at hh
          · simp at hh
          · rename_i hlt; simp only [hlt, if_false]; exact ih' hh
        | remove d => simp [NoRemove] at hno
        | concatenate d => simp [Op.run, concatenate] at hh
        | populate => simp [Op.run, populateIndices, hashArray] at hh
        | change a b c d => simp [Op.run, changeIndices] at hh
        | tighten => exact ih' hh
        | hash => exact ⟨rfl, (ih' hh).2⟩
        | setMax => exact ⟨(ih' hh).1, rfl⟩
        | prepare =>
          show (prepareForUse _).isHash = true ∧ (prepareForUse _).isSetMI = true
          unfold prepareForUse
          dsimp only
          split_ifs with h1 h2 h2
          · exact ⟨h2, h1⟩
          · exact ⟨rfl, h1⟩
          · exact ⟨h2, rfl⟩
          · exact ⟨rfl, rfl⟩
        | checkReady =>
          simp only [Op.run, checkReady, Bool.and_eq_true] at hh
          exact hh.1
        | read d l m => simp [Op.run, readElems, init, assign] at hh
  obtain ⟨h3, h4⟩ := key hready
  exact ⟨fun k => find_of_tableOK ((Inv.of_reach hr).hash h3) k, (Inv.of_reach hr).max h4⟩

example : ∃ s : ArrayStruct Item,
    Reach ([.pushBack ⟨3, 1⟩, .remove [3]] ++ [.prepare] ++ [.pushBack ⟨8, 1⟩]) s ∧
    s.ready = true ∧ s.elems = [⟨8, 1⟩] :=
  ⟨_, reach_run 5 _, rfl, rfl⟩

/-! ## C04: parents -/

/-- What a right answer to the three parent queries is. -/
def ParentsExact {β : Type} [SnakPart β] (s : SnakStruct β) (k : Int) : Prop :=
  (∃ r, s.findParent k = .ok r ∧ Spec.GoodPos par s.base.elems k r) ∧
  Spec.AllPos par s.base.elems k (s.findSiblings k) ∧
  s.countParent k = (s.base.elems.filter (fun e => par e == k)).length

/-- C04, full statement. -/
def C04_statement (β : Type) [SnakPart β] : Prop :=
  ∀ (h : List (Op β)) (s : SnakStruct β), SReach (h ++ [.prepare]) s → ∀ k, ParentsExact s k

/-- C04 does not hold when a used container is read again: the parent flag survives and the table is
not rebuilt.  Witness: an element of parent 5, prepare, read one element of parent 7, prepare. -/
theorem C04_parent_violated : ¬ C04_statement Item := by
  intro H
  have hr : SReach ([.pushBack (⟨1, 5⟩ : Item), .prepare, .read ⟨0, 0⟩ [⟨1, 7⟩] false] ++ [.prepare])
      { base := { elems := [⟨1, 7⟩], table := [(1, 0)], isHash := true, isSetMI := true,
                  ready := true, inMesh := false, maxIndex := 1 },
        ptable := [(5, 0)], isHashParent := true } :=
    sreach_run 0 _
  have h7 := (H _ _ hr 7).2.1.2 0
  simp [SnakStruct.findSiblings, dataEqualRange, SnakPart.par] at h7

/-- The same witness: the query for the old parent throws. -/
theorem C04_old_parent_throws_violated : ∃ (h : List (Op Item)) (s : SnakStruct Item),
    SReach (h ++ [.prepare]) s ∧ s.findParent 5 = .error .throws :=
  ⟨[.pushBack (⟨1, 5⟩ : Item), .prepare, .read ⟨0, 0⟩ [⟨1, 7⟩] false], _,
    sreach_run 0 _, by decide⟩

theorem parentsExact_of_tableOK {β : Type} [SnakPart β] {s : SnakStruct β}
    (h : TableOK par s.base.elems s.ptable) (k : Int) : ParentsExact s k := by
  refine ⟨?_, h.allPos k, ?_⟩
  · unfold SnakStruct.findParent
    cases hl : lookup s.ptable k with
    | none => exact ⟨-1, rfl, Or.inl ⟨rfl, h.lookup_none hl⟩⟩
    | some p =>
      obtain ⟨e, he, hk⟩ := h.lookup_some hl
      exact ⟨p, by simp [he, hk], Or.inr ⟨p, rfl, e, he, hk⟩⟩
  · have h1 := (h.filter (fun p => p.1 == k)).length_eq
    unfold SnakStruct.countParent
    rw [h1]
    generalize 0 = n
    induction s.base.elems generalizing n with
    | nil => rfl
    | cons a l ih =>
      simp only [hashPairs, List.filter_cons]
      split <;> simp [ih]

/-- C04, what does hold: every history in which the contents are not overwritten wholesale
(`assign`, `Init`, `read`) once the container has been prepared for the first time (missing: reuse
of a prepared container). -/
theorem C04_parent_partial {β : Type} [SnakPart β] (h1 h2 : List (Op β))
    (hp : ∀ o ∈ h1, SnakStruct.IsPrepare o = false) (hu : ∀ o ∈ h2, SnakStruct.Reuses o = false)
    {s : SnakStruct β} (hr : SReach (h1 ++ (h2 ++ [.prepare])) s) (k : Int) : ParentsExact s k := by
  have hinv := SnakStruct.pinv_of_split h1 (h2 ++ [.prepare]) hp
    (by intro o ho
        rcases List.mem_append.1 ho with h | h
        · exact hu o h
        · simp at h; subst h; rfl) hr
  refine parentsExact_of_tableOK (hinv ?_) k
  rw [← List.append_assoc] at hr
  rcases SnakStruct.SReach.snoc_inv hr with ⟨h, _⟩ | ⟨l', o', s', t, pt, he, hr', ht, hpt, rfl⟩
  · simp at h
  · have := List.append_inj' he rfl
    simp at this
    obtain ⟨_, rfl⟩ := this
    exact SnakStruct.flag_after_prepare s'

example : ∃ s : SnakStruct Item,
    SReach ([.read ⟨0, 0⟩ [⟨1, 7⟩, ⟨2, 7⟩] true] ++ ([.prepare, .remove [1], .pushBack ⟨3, 4⟩] ++ [.prepare])) s ∧
    s.base.elems = [⟨2, 7⟩, ⟨3, 4⟩] ∧ s.findSiblings 4 = [1] :=
  ⟨_, sreach_run 0 _, rfl, rfl⟩

/-! ## C05: removal -/

theorem isInVec_iff (del : List Int) (k : Int) :
    ({ vec := del, table := hashPairs id 0 del, isHash := true } : HashedVector).isInVec k = true ↔
      k ∈ del := by
  unfold HashedVector.isInVec
  rw [bne_iff_ne]
  exact findSub_ne (List.Perm.refl _) k

/-- C05. The elements after a removal are, in their order, those whose index is not listed. -/
theorem C05_remove_exact (s : ArrayStruct α) (del : List Int) :
    (s.remove del).elems = s.elems.filter (fun e => decide (idx e ∉ del)) := by
  unfold remove
  apply List.filter_congr
  intro e _
  have := isInVec_iff del (idx e)
  by_cases h : idx e ∈ del
  · simp [this.2 h, h]
  · have h' : ({ vec := del, table := hashPairs id 0 del, isHash := true } : HashedVector).isInVec
        (idx e) = false := by
      rw [Bool.eq_false_iff]; intro hh; exact h (this.1 hh)
    simp [h', h]

/-- C05. Membership form: nothing listed stays, nothing else goes, the order is kept. -/
theorem C05_remove_mem (s : ArrayStruct α) (del : List Int) :
    (∀ e, e ∈ (s.remove del).elems ↔ e ∈ s.elems ∧ idx e ∉ del) ∧
    (s.remove del).elems.Sublist s.elems := by
  rw [C05_remove_exact]
  exact ⟨fun e => by simp, List.filter_sublist⟩

/-- C05. After a removal and a preparation lookups are exact for the smaller container. -/
theorem C05_lookup_after {h : List (Op α)} (del : List Int) {s' : ArrayStruct α}
    (hr' : Reach (h ++ [.remove del] ++ [.prepare]) s') (k : Int) (hk : k ∈ del) :
    s'.find k = .ok (-1) := by
  have hf := (C02_prepare_sets hr').2
  rw [C01_find_notfound hr' hf]
  clear hf
  generalize hl : h ++ [Op.remove del] ++ [Op.prepare] = l at hr'
  cases hr' with
  | start m => simp at hl
  | step o t h1 h2 =>
    have := List.append_inj' hl rfl
    simp only [List.cons.injEq, and_true] at this
    obtain ⟨he, rfl⟩ := this
    subst he
    generalize hl2 : h ++ [Op.remove del] = l2 at h1
    cases h1 with
    | start m => simp at hl2
    | step o2 t2 h3 h4 =>
      have := List.append_inj' hl2 rfl
      simp only [List.cons.injEq, and_true] at this
      obtain ⟨he, rfl⟩ := this
      intro e hm
      have he2 : e ∈ (prepareForUse { (remove _ del) with table := t2 }).elems := hm
      have helems : ∀ b : ArrayStruct α, b.prepareForUse.elems = b.elems.map Part.prep := by
        intro b; unfold prepareForUse; dsimp only; split_ifs <;> rfl
      rw [helems] at he2
      obtain ⟨a, ha, rfl⟩ := List.mem_map.1 he2
      rw [Part.idx_prep]
      have := ((C05_remove_mem _ del).1 a).1 ha
      intro hh
      exact this.2 (hh ▸ hk)

example : (({ (ArrayStruct.fresh 0 : ArrayStruct Item) with elems := [⟨1, 1⟩, ⟨2, 1⟩, ⟨1, 3⟩, ⟨4, 4⟩] } :
    ArrayStruct Item).remove [1, 1, 9]).elems = [⟨2, 1⟩, ⟨4, 4⟩] := by decide

/-! ## C08: modification tracking -/

/-- Positions touched by the operations, for a container of `n` elements at the start. -/
def touched : Nat → List TrackOp → List Nat
  | _, [] => []
  | n, .edit i _ :: r => i :: touched n r
  | n, .push _ :: r => n :: touched (n + 1) r

theorem tracked_run (ops : List TrackOp) : ∀ (l : List Tracked) (p : Nat) (e : Tracked),
    (ops.foldl (fun l o => o.run l) l)[p]? = some e →
    (e.isModif = true ↔ (∃ e0, l[p]? = some e0 ∧ e0.isModif = true) ∨ p ∈ touched l.length ops) := by
  induction ops with
  | nil => intro l p e h; simp [touched] at *; simp [h]
  | cons o r ih =>
    intro l p e h
    rw [List.foldl_cons] at h
    have := ih (o.run l) p e h
    rw [this]
    cases o with
    | edit i n =>
      simp only [TrackOp.run, trackedEdit, touched, List.length_modify, List.getElem?_modify,
        List.mem_cons]
      by_cases hi : i = p
      · subst hi
        have hlen : i < (r.foldl (fun l o => o.run l) (TrackOp.run (.edit i n) l)).length :=
          (List.getElem?_eq_some_iff.1 h).1
        constructor
        · intro _; right; left; rfl
        · intro _
          by_cases hb : i < l.length
          · left; simp [hb]
          · right
            -- the position was created by a later push
            have key : ∀ (r : List TrackOp) (l : List Tracked), l.length ≤ i →
                i < (r.foldl (fun l o => o.run l) l).length → i ∈ touched l.length r := by
              intro r
              induction r with
              | nil => intro l h1 h2; simp at h2; omega
              | cons o r ihr =>
                intro l h1 h2
                rw [List.foldl_cons] at h2
                cases o with
                | edit j m =>
                  have := ihr (TrackOp.run (.edit j m) l)
                    (by simpa [TrackOp.run, trackedEdit] using h1) h2
                  simp only [TrackOp.run, trackedEdit, List.length_modify] at this
                  simp [touched, this]
                | push m =>
                  by_cases he : i = l.length
                  · simp [touched, he]
                  · have := ihr (TrackOp.run (.push m) l)
                      (by simp [TrackOp.run]; omega) h2
                    simp only [TrackOp.run, List.length_append, List.length_singleton] at this
                    simp [touched, this]
            have := key r _ (by simpa [TrackOp.run, trackedEdit] using hb) hlen
            simpa [TrackOp.run, trackedEdit] using this
      · have hi' : p ≠ i := fun h => hi h.symm
        simp [hi, hi']
    | push n =>
      simp only [TrackOp.run, touched, List.length_append, List.length_singleton, List.mem_cons]
      by_cases hp : p < l.length
      · have hne : p ≠ l.length := by omega
        rw [List.getElem?_append_left hp]
        simp [hne]
      · by_cases he : p = l.length
        · subst he; simp
        · have h1 : l[p]? = none := by simp; omega
          have h2 : (l ++ [({ index := n, isModif := true } : Tracked)])[p]? = none := by
            simp; omega
          simp [h1, h2, he]

/-- C08. After `SetNoModif` and any further accesses and additions, an element carries the mark
exactly when its position was accessed or added. -/
theorem C08_marks (l : List Tracked) (ops : List TrackOp) (p : Nat) (e : Tracked)
    (h : (ops.foldl (fun l o => o.run l) (setNoModif l))[p]? = some e) :
    e.isModif = true ↔ p ∈ touched l.length ops := by
  rw [tracked_run ops (setNoModif l) p e h]
  have : (setNoModif l).length = l.length := by simp [setNoModif]
  rw [this]
  constructor
  · rintro (⟨e0, h0, h1⟩ | h)
    · simp only [setNoModif, List.getElem?_map, Option.map_eq_some_iff] at h0
      obtain ⟨a, _, rfl⟩ := h0
      simp at h1
    · exact h
  · exact Or.inr

/-- C08. `ReturnModifInd` lists the indices at the touched positions, in order of position. -/
theorem C08_modif_indices (l : List Tracked) (ops : List TrackOp) :
    let l' := ops.foldl (fun l o => o.run l) (setNoModif l)
    returnModifInd l' =
      ((l'.zipIdx.filter (fun x => decide (x.2 ∈ touched l.length ops))).map (fun x => x.1.index)) := by
  intro l'
  have hm : ∀ x ∈ l'.zipIdx, x.1.isModif = decide (x.2 ∈ touched l.length ops) := by
    intro x hx
    have hx' : l'[x.2]? = some x.1 := by
      have := List.mem_zipIdx_iff_getElem?.1 hx
      simpa using this
    have := C08_marks l ops x.2 x.1 hx'
    by_cases h : x.2 ∈ touched l.length ops
    · simp [h, this.2 h]
    · have : x.1.isModif = false := by
        rw [Bool.eq_false_iff]; intro hh; exact h (this.1 hh)
      simp [h, this]
  unfold returnModifInd
  conv_lhs => rw [← List.zipIdx_map_fst 0 l']
  rw [List.filter_map, List.map_map]
  rw [List.filter_congr (q := fun x => decide (x.2 ∈ touched l.length ops)) (by
    intro x hx; exact hm x hx)]
  rfl

/-- C08, `ReturnModifLog`: it does not report the marks.  Witness: one untouched element of index 4
is reported as modified. -/
theorem C08_modif_log_violated : ∃ l : List Tracked,
    returnModifLog (setNoModif l) ≠ (setNoModif l).map (fun e => e.isModif) :=
  ⟨[⟨4, true⟩], by decide⟩

/-- What `ReturnModifLog` reports: the positions whose index is not zero (missing: the marks). -/
theorem C08_modif_log_partial (l : List Tracked) (p : Nat) (e : Tracked) (h : l[p]? = some e) :
    (returnModifLog l)[p]? = some true ↔ e.index ≠ 0 := by
  simp [returnModifLog, h]

example : returnModifInd ([TrackOp.edit 1 6, .push 9].foldl (fun l o => o.run l)
    (setNoModif [⟨4, true⟩, ⟨5, true⟩, ⟨6, false⟩])) = [6, 9] := by decide

end RSVS.Props
