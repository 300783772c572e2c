import Mathlib.Data.List.Nodup
import Mathlib.Tactic.Linarith
import Verif.Lemmas.Border
import Verif.Props.Hash
import Verif.Lemmas.Sqp
import Verif.Spec.Triplet

/-! # Lemmas on sparse matrices held as triplets -/

set_option linter.unusedSectionVars false

namespace RSVS

open RSVS.Spec RSVS.Props RSVS.ArrayStruct

variable {S : Type}

theorem put_vec {zero : S} {h h' : HashedPair S} {k : Int} {v : S} (hi : PairInv h)
    (hp : h.put zero k v = .ok h') : ∀ x, x ∈ h'.hv.vec ↔ x ∈ h.hv.vec ∨ x = k := by
  unfold HashedPair.put at hp
  intro x
  cases hl : lookup h.hv.table k with
  | none =>
    rw [hl] at hp
    simp only at hp
    split at hp
    · cases hp
      simp [HashedPair.pushBack, HashedVector.pushBack]
    · cases hp
  | some p =>
    rw [hl] at hp
    simp only at hp
    split at hp
    · cases hp
      obtain ⟨e, he, hk⟩ := hi.ok.lookup_some hl
      simp only [id] at hk
      subst hk
      have := List.mem_of_getElem? he
      constructor
      · exact .inl
      · rintro (h | rfl)
        · exact h
        · exact this
    · cases hp

/-- In a consistent pair vector the stored values are what reading gives. -/
theorem get_at {zero : S} {h : HashedPair S} (hi : PairInv h) {k : Nat} {v : Int}
    (hv : h.hv.vec[k]? = some v) : ∃ x, h.targ[k]? = some x ∧ h.get zero v = .ok x := by
  have hk : k < h.hv.vec.length := (List.getElem?_eq_some_iff.mp hv).1
  have hkt : k < h.targ.length := by rw [hi.len]; exact hk
  refine ⟨h.targ[k], List.getElem?_eq_getElem hkt, ?_⟩
  unfold HashedPair.get
  cases hl : lookup h.hv.table v with
  | none => exact absurd rfl (hi.ok.lookup_none hl v (List.mem_of_getElem? hv))
  | some p =>
    obtain ⟨e, he, hk'⟩ := hi.ok.lookup_some hl
    simp only [id] at hk'
    subst hk'
    have hp : p < h.hv.vec.length := (List.getElem?_eq_some_iff.mp he).1
    have hpk : p = k := by
      apply (List.nodup_iff_injective_get.mp hi.nodup |> fun inj => ?_)
      have := @inj ⟨p, hp⟩ ⟨k, hk⟩ (by
        simp only [List.get_eq_getElem]
        rw [List.getElem?_eq_getElem hp] at he
        rw [List.getElem?_eq_getElem hk] at hv
        exact (Option.some.inj he).trans (Option.some.inj hv).symm)
      exact congrArg Fin.val this
    subst hpk
    simp [List.getElem?_eq_getElem hkt]

/-- Reading a key that is not stored gives zero. -/
theorem get_not {zero : S} {h : HashedPair S} (hi : PairInv h) {v : Int} (hv : v ∉ h.hv.vec) :
    h.get zero v = .ok zero := by
  unfold HashedPair.get
  cases hl : lookup h.hv.table v with
  | none => rfl
  | some p =>
    obtain ⟨e, he, hk'⟩ := hi.ok.lookup_some hl
    simp only [id] at hk'
    subst hk'
    exact absurd (List.mem_of_getElem? he) hv

namespace Triplet

/-- Keys of positions in range. -/
theorem key_ok {t : Triplet S} (hsz : (t.nRow : Int) * t.nCol ≤ 2 ^ 31) {a b : Nat}
    (ha : a < t.nRow) (hb : b < t.nCol) :
    t.key a b = .ok ((a : Int) + t.nRow * b) ∧ (0 : Int) ≤ a + t.nRow * b ∧
      (a : Int) + t.nRow * b < t.nRow * t.nCol := by
  have h1 : (a : Int) + t.nRow * b < t.nRow * t.nCol := by
    have : ((b : Int) + 1) ≤ t.nCol := by omega
    have h2 : (t.nRow : Int) * (b + 1) ≤ t.nRow * t.nCol :=
      mul_le_mul_of_nonneg_left this (by omega)
    have h3 : (t.nRow : Int) * (b + 1) = t.nRow * b + t.nRow := by ring
    omega
  have h0 : (0 : Int) ≤ t.nRow * b := mul_nonneg (by omega) (by omega)
  refine ⟨?_, by omega, h1⟩
  unfold key
  rw [if_neg (by omega), if_neg (by omega)]

/-- Row and column from a key. -/
theorem key_split {n a b : Nat} (ha : a < n) :
    ((a : Int) + n * b).tmod n = a ∧ ((a : Int) + n * b).tdiv n = b := by
  have hn : (0 : Int) < n := by omega
  have h0 : (0 : Int) ≤ (a : Int) + n * b := by positivity
  rw [Int.tmod_eq_emod_of_nonneg h0, Int.tdiv_eq_ediv_of_nonneg h0]
  constructor
  · rw [Int.add_mul_emod_self_left]
    exact Int.emod_eq_of_lt (by omega) (by omega)
  · rw [Int.add_mul_ediv_left _ _ (by omega), Int.ediv_eq_zero_of_lt (by omega) (by omega), zero_add]

theorem key_inj {n a b a' b' : Nat} (ha : a < n) (ha' : a' < n)
    (h : (a : Int) + n * b = (a' : Int) + n * b') : a = a' ∧ b = b' := by
  have h1 := key_split (b := b) ha
  have h2 := key_split (b := b') ha'
  rw [h] at h1
  constructor
  · exact_mod_cast h1.1.symm.trans h2.1
  · exact_mod_cast h1.2.symm.trans h2.2

variable [Zero S] [Add S]

/-- Representation invariant: the matrix holds `a`, and stores only positions where something was
added. -/
structure Inv (t : Triplet S) (nRow nCol : Nat) (a : Nat → Nat → S) : Prop where
  pair : PairInv t.map
  row : t.nRow = nRow
  col : t.nCol = nCol
  key : ∀ v ∈ t.map.hv.vec, ∃ i j : Nat, i < nRow ∧ j < nCol ∧ v = (i : Int) + nRow * j
  val : ∀ i j : Nat, i < nRow → j < nCol → t.map.get 0 ((i : Int) + nRow * j) = .ok (a i j)

theorem inv_empty (nRow nCol : Nat) : Inv (S := S) (empty nRow nCol) nRow nCol (fun _ _ => 0) where
  pair := ⟨List.Perm.refl _, rfl, by simp [empty, HashedPair.fresh, HashedVector.fresh]⟩
  row := rfl
  col := rfl
  key := by intro v hv; simp [empty, HashedPair.fresh, HashedVector.fresh] at hv
  val := fun _ _ _ _ => rfl

theorem inv_add {t : Triplet S} {nRow nCol : Nat} {a : Nat → Nat → S} (h : Inv t nRow nCol a)
    (hsz : nRow * nCol ≤ 2 ^ 31) {i j : Nat} (hi : i < nRow) (hj : j < nCol) (x : S) :
    ∃ t', t.addAt i j x = .ok t' ∧
      Inv t' nRow nCol (fun p q => if p = i ∧ q = j then a p q + x else a p q) := by
  obtain ⟨hp, rfl, rfl, hk, hv⟩ := h
  have hsz' : (t.nRow : Int) * t.nCol ≤ 2 ^ 31 := by exact_mod_cast hsz
  obtain ⟨k1, -, -⟩ := key_ok hsz' hi hj
  obtain ⟨m, m1, m2, m3⟩ := put_of_inv 0 hp ((i : Int) + t.nRow * j) (a i j + x)
  refine ⟨{ t with map := m }, ?_, m2, rfl, rfl, ?_, ?_⟩
  · unfold addAt
    rw [k1]
    simp only [Except.bind]
    rw [hv i j hi hj]
    simp only [m1]
  · intro v hm
    rcases (put_vec hp m1 v).mp hm with hm | rfl
    · exact hk v hm
    · exact ⟨i, j, hi, hj, rfl⟩
  · intro p q hpr hqr
    rw [m3 _ _ (hv p q hpr hqr)]
    by_cases he : p = i ∧ q = j
    · obtain ⟨rfl, rfl⟩ := he
      simp
    · rw [if_neg he, if_neg]
      intro hc
      exact he (key_inj hpr hi hc)

/-- The entries of a consistent triplet matrix. -/
theorem entries_ok {t : Triplet S} {nRow nCol : Nat} {a : Nat → Nat → S} (h : Inv t nRow nCol a) :
    ∃ es, t.entries = .ok es ∧ (es.map fun e => (e.1, e.2.1)).Nodup ∧
      (∀ e ∈ es, e.1 < nRow ∧ e.2.1 < nCol ∧ e.2.2 = a e.1 e.2.1) ∧
      ∀ i j : Nat, i < nRow → j < nCol →
        ((i, j) ∈ (es.map fun e => (e.1, e.2.1)) ↔ (i : Int) + nRow * j ∈ t.map.hv.vec) := by
  obtain ⟨hp, rfl, rfl, hk, hv⟩ := h
  have hex : ∀ k : Nat, ∃ e : Nat × Nat × S, k < t.map.hv.vec.length →
      t.entry k = .ok e ∧ e.1 < t.nRow ∧ e.2.1 < t.nCol ∧ e.2.2 = a e.1 e.2.1 ∧
      t.map.hv.vec[k]? = some ((e.1 : Int) + t.nRow * e.2.1) := by
    intro k
    by_cases hlt : k < t.map.hv.vec.length
    · have hvk := List.getElem?_eq_getElem hlt
      obtain ⟨i, j, hi, hj, he⟩ := hk _ (List.getElem_mem hlt)
      obtain ⟨x, hx, hg⟩ := get_at (zero := (0 : S)) hp hvk
      rw [he, hv i j hi hj] at hg
      have hxa : a i j = x := by simpa using hg
      refine ⟨(i, j, x), fun _ => ⟨?_, hi, hj, hxa.symm, by rw [hvk, he]⟩⟩
      unfold entry
      rw [hvk]
      simp only
      obtain ⟨s1, s2⟩ := key_split (b := j) hi
      rw [if_neg (by omega), he, s1, s2, if_neg (by omega), hx]
      simp
    · exact ⟨(0, 0, 0), fun hc => absurd hc hlt⟩
  choose e he using hex
  refine ⟨(List.range t.map.hv.vec.length).map e, ?_, ?_, ?_, ?_⟩
  · exact Mesh.mapM_pure_map fun k hk' => (he k (List.mem_range.mp hk')).1
  · rw [List.map_map]
    refine List.Nodup.map_on ?_ List.nodup_range
    intro k hk1 l hl1 hkl
    have hk2 := he k (List.mem_range.mp hk1)
    have hl2 := he l (List.mem_range.mp hl1)
    simp only [Function.comp, Prod.mk.injEq] at hkl
    have e1 := hk2.2.2.2.2
    have e2 := hl2.2.2.2.2
    rw [hkl.1, hkl.2] at e1
    have := (List.getElem?_inj (List.mem_range.mp hk1) hp.nodup).mp (e1.trans e2.symm)
    exact this
  · intro x hx
    obtain ⟨k, hk1, rfl⟩ := List.mem_map.mp hx
    have := he k (List.mem_range.mp hk1)
    exact ⟨this.2.1, this.2.2.1, this.2.2.2.1⟩
  · intro i j hi hj
    rw [List.map_map, List.mem_map]
    constructor
    · rintro ⟨k, hk1, hk2⟩
      have := (he k (List.mem_range.mp hk1)).2.2.2.2
      simp only [Function.comp, Prod.mk.injEq] at hk2
      rw [hk2.1, hk2.2] at this
      exact List.mem_of_getElem? this
    · intro hm
      obtain ⟨k, hk1⟩ := List.mem_iff_getElem?.mp hm
      have hlt := (List.getElem?_eq_some_iff.mp hk1).1
      have h1 := he k hlt
      rw [hk1] at h1
      obtain ⟨q1, q2⟩ := key_inj hi h1.2.1 (Option.some.inj h1.2.2.2.2)
      exact ⟨k, List.mem_range.mpr hlt, by simp [q1, q2]⟩

/-- Writing distinct entries to a dense matrix. -/
theorem writeDense_ok {nRow nCol : Nat} (es : List (Nat × Nat × S)) (d : Nat → Nat → S)
    (hr : ∀ e ∈ es, e.1 < nRow ∧ e.2.1 < nCol) (hn : (es.map fun e => (e.1, e.2.1)).Nodup) :
    ∃ d', es.foldlM (writeDense nRow nCol) d = .ok d' ∧
      (∀ e ∈ es, d' e.1 e.2.1 = e.2.2) ∧
      ∀ i j, (i, j) ∉ (es.map fun e => (e.1, e.2.1)) → d' i j = d i j := by
  induction es generalizing d with
  | nil => exact ⟨d, rfl, by simp, fun _ _ _ => rfl⟩
  | cons e es ih =>
    rw [List.map_cons, List.nodup_cons] at hn
    have he := hr e (List.mem_cons_self ..)
    obtain ⟨d', h1, h2, h3⟩ := ih (fun i j => if i = e.1 ∧ j = e.2.1 then e.2.2 else d i j)
      (fun x hx => hr x (List.mem_cons_of_mem _ hx)) hn.2
    refine ⟨d', ?_, ?_, ?_⟩
    · rw [List.foldlM_cons]
      have hw : writeDense nRow nCol d e
          = .ok (fun i j => if i = e.1 ∧ j = e.2.1 then e.2.2 else d i j) := by
        unfold writeDense
        rw [if_pos he]
      rw [hw]
      exact h1
    · intro x hx
      rcases List.mem_cons.mp hx with rfl | hx
      · rw [h3 _ _ hn.1]
        simp
      · exact h2 x hx
    · intro i j hij
      rw [List.map_cons, List.mem_cons, not_or] at hij
      rw [h3 i j hij.2, if_neg]
      rintro ⟨rfl, rfl⟩
      exact hij.1 rfl

theorem Inv.holds {t : Triplet S} {nRow nCol : Nat} {a : Nat → Nat → S} (h : Inv t nRow nCol a)
    (hsz : nRow * nCol ≤ 2 ^ 31) : Holds t nRow nCol a := by
  have hz : ∀ i j : Nat, i < nRow → j < nCol → (i : Int) + nRow * j ∉ t.map.hv.vec → a i j = 0 := by
    intro i j hi hj hn
    have h1 := h.val i j hi hj
    rw [get_not h.pair hn] at h1
    simpa using h1.symm
  obtain ⟨es, e1, e2, e3, e4⟩ := entries_ok h
  refine ⟨?_, ⟨es, e1, e2, e3, ?_⟩, ?_⟩
  · intro i j hi hj
    unfold Triplet.get
    have hr := h.row
    have hc := h.col
    have hsz' : (t.nRow : Int) * t.nCol ≤ 2 ^ 31 := by rw [hr, hc]; exact_mod_cast hsz
    rw [(key_ok hsz' (by omega) (by omega)).1]
    simp only [Except.bind]
    rw [hr]
    exact h.val i j hi hj
  · intro i j hi hj hne
    rw [e4 i j hi hj]
    by_contra hc
    exact hne (hz i j hi hj hc)
  · obtain ⟨d, d1, d2, d3⟩ := writeDense_ok (nRow := t.nRow) (nCol := t.nCol) es (fun _ _ => 0)
      (fun e he => by rw [h.row, h.col]; exact ⟨(e3 e he).1, (e3 e he).2.1⟩) e2
    refine ⟨d, ?_, ?_⟩
    · unfold setEqual
      rw [e1]
      exact d1
    · intro i j hi hj
      by_cases hm : (i, j) ∈ es.map fun e => (e.1, e.2.1)
      · obtain ⟨e, he, heq⟩ := List.mem_map.mp hm
        simp only [Prod.mk.injEq] at heq
        rw [← heq.1, ← heq.2, d2 e he, (e3 e he).2.2]
      · rw [d3 i j hm]
        exact (hz i j hi hj (fun hc => hm ((e4 i j hi hj).mpr hc))).symm

end Triplet

/-! ### Active sparse matrices -/

theorem pushAll_vec (l : List Int) (h : HashedVector) :
    (l.foldl HashedVector.pushBack h).vec = h.vec ++ l := by
  induction l generalizing h with
  | nil => simp
  | cons a l ih =>
    rw [List.foldl_cons, ih]
    simp [HashedVector.pushBack]

theorem activeHashed_vec (act : List Bool) :
    (activeHashed act).vec = (Sqp.activeFrom 0 act).map (fun (n : Nat) => (n : Int)) := by
  unfold activeHashed HashedVector.generate
  simp [pushAll_vec, HashedVector.fresh]

/-- The position found for an active entry. -/
theorem activeHashed_find (act : List Bool) (i : Nat) (hi : i < (Sqp.activeFrom 0 act).length) :
    (activeHashed act).find ((Sqp.activeFrom 0 act)[i] : Nat) = i := by
  have ht : TableOK id (activeHashed act).vec (activeHashed act).table := tableOK_generate _
  unfold HashedVector.find
  have hlen : i < (activeHashed act).vec.length := by rw [activeHashed_vec]; simpa using hi
  have hget : (activeHashed act).vec[i]? = some (((Sqp.activeFrom 0 act)[i] : Nat) : Int) := by
    rw [activeHashed_vec]
    simp [hi]
  have hnd : (activeHashed act).vec.Nodup := by
    rw [activeHashed_vec]
    exact (Sqp.activeFrom_nodup act 0).map (fun a b h => by exact_mod_cast h)
  rcases findSub_goodPos ht (((Sqp.activeFrom 0 act)[i] : Nat) : Int) with ⟨-, h2⟩ | ⟨p, h1, e, h2, h3⟩
  · exact absurd rfl (h2 _ (List.mem_of_getElem? hget))
  · rw [h1]
    simp only [id] at h3
    subst h3
    have hp := (List.getElem?_eq_some_iff.mp h2).1
    have := (List.getElem?_inj hp hnd).mp (h2.trans hget.symm)
    rw [this]

theorem activeHashed_len (act : List Bool) :
    (activeHashed act).vec.length = (Sqp.activeFrom 0 act).length := by
  rw [activeHashed_vec, List.length_map]




/-- An active position has a place in the list. -/
theorem active_place {act : List Bool} {p : Nat} (h : act[p]? = some true) :
    ∃ (i : Nat) (hi : i < (Sqp.activeFrom 0 act).length), (Sqp.activeFrom 0 act)[i] = p := by
  have hm : p ∈ Sqp.activeFrom 0 act := (Sqp.mem_activeFrom _ _ _).mpr ⟨Nat.zero_le _, by simpa using h⟩
  obtain ⟨i, hi, he⟩ := List.mem_iff_getElem.mp hm
  exact ⟨i, hi, he⟩

theorem active_at {act : List Bool} {i : Nat} (hi : i < (Sqp.activeFrom 0 act).length) :
    act[(Sqp.activeFrom 0 act)[i]]? = some true := by
  have := ((Sqp.mem_activeFrom act 0 _).mp (List.getElem_mem hi)).2
  simpa using this

variable [Zero S] [Add S]

/-- What has been inserted after some entries. -/
theorem sparseAct_fold (check : Bool) (actR actC : List Bool) (es : List (Nat × Nat × S))
    (hr : ∀ e ∈ es, e.1 < actR.length ∧ e.2.1 < actC.length)
    (hn : (es.map fun e => (e.1, e.2.1)).Nodup) (m : SparseMat S)
    (hm : ∀ x ∈ m, ∀ e ∈ es, ∀ (i j : Nat) (hi : i < (Sqp.activeFrom 0 actR).length)
      (hj : j < (Sqp.activeFrom 0 actC).length), x.1 = ((i : Int), (j : Int)) →
      ¬ (e.1 = (Sqp.activeFrom 0 actR)[i] ∧ e.2.1 = (Sqp.activeFrom 0 actC)[j])) :
    ∃ m', es.foldlM (sparseActStep check actR actC (activeHashed actR) (activeHashed actC)) m
        = .ok m' ∧
      ∀ (i j : Nat) (hi : i < (Sqp.activeFrom 0 actR).length)
        (hj : j < (Sqp.activeFrom 0 actC).length),
        (∀ e ∈ es, e.1 = (Sqp.activeFrom 0 actR)[i] → e.2.1 = (Sqp.activeFrom 0 actC)[j] →
          SparseMat.coeff m' i j = e.2.2) ∧
        (((Sqp.activeFrom 0 actR)[i], (Sqp.activeFrom 0 actC)[j]) ∉ es.map (fun e => (e.1, e.2.1)) →
          SparseMat.coeff m' i j = SparseMat.coeff m i j) := by
  induction es generalizing m with
  | nil => exact ⟨m, rfl, fun i j hi hj => ⟨by simp, fun _ => rfl⟩⟩
  | cons e es ih =>
    rw [List.map_cons, List.nodup_cons] at hn
    obtain ⟨hr1, hr2⟩ := hr e (List.mem_cons_self ..)
    have hrest := fun x (hx : x ∈ es) => hr x (List.mem_cons_of_mem _ hx)
    have hR := List.getElem?_eq_getElem hr1
    have hC := List.getElem?_eq_getElem hr2
    by_cases hact : actR[e.1] = true ∧ actC[e.2.1] = true
    · obtain ⟨i0, hi0, hi0e⟩ := active_place (act := actR) (p := e.1) (by rw [hR, hact.1])
      obtain ⟨j0, hj0, hj0e⟩ := active_place (act := actC) (p := e.2.1) (by rw [hC, hact.2])
      have hfi : (activeHashed actR).find (e.1 : Int) = i0 := by
        rw [← hi0e]; exact activeHashed_find actR i0 hi0
      have hfj : (activeHashed actC).find (e.2.1 : Int) = j0 := by
        rw [← hj0e]; exact activeHashed_find actC j0 hj0
      have hstep : sparseActStep check actR actC (activeHashed actR) (activeHashed actC) m e
          = .ok ((((i0 : Int), (j0 : Int)), e.2.2) :: m) := by
        unfold sparseActStep
        rw [hR, hC]
        simp only [hact.1, hact.2, Bool.and_self, if_true, hfi, hfj]
        have h1 : ((i0 : Int) == -1) = false := by simp
        have h2 : ((j0 : Int) == -1) = false := by simp
        rw [h1, h2, Bool.or_self, Bool.and_false]
        simp only [Bool.false_eq_true, if_false]
        unfold SparseMat.insert
        rw [if_pos]
        refine ⟨by omega, by rw [activeHashed_len]; omega, by omega, by rw [activeHashed_len]; omega, ?_⟩
        intro x hx hc
        exact hm x hx e (List.mem_cons_self ..) i0 j0 hi0 hj0 hc ⟨hi0e.symm, hj0e.symm⟩
      obtain ⟨m', h1, h2⟩ := ih hrest hn.2 ((((i0 : Int), (j0 : Int)), e.2.2) :: m) (by
        intro x hx e' he' i j hi hj hxe
        rcases List.mem_cons.mp hx with rfl | hx
        · simp only [Prod.mk.injEq] at hxe
          have hii : i0 = i := by exact_mod_cast hxe.1
          have hjj : j0 = j := by exact_mod_cast hxe.2
          subst hii hjj
          rintro ⟨q1, q2⟩
          apply hn.1
          rw [List.mem_map]
          exact ⟨e', he', by rw [q1, q2, hi0e, hj0e]⟩
        · exact hm x hx e' (List.mem_cons_of_mem _ he') i j hi hj hxe)
      refine ⟨m', by rw [List.foldlM_cons, hstep]; exact h1, ?_⟩
      intro i j hi hj
      obtain ⟨g1, g2⟩ := h2 i j hi hj
      constructor
      · intro x hx q1 q2
        rcases List.mem_cons.mp hx with rfl | hx
        · have hii : i0 = i := by
            have := hi0e.trans q1
            exact (List.Nodup.getElem_inj_iff (Sqp.activeFrom_nodup actR 0)).mp this
          have hjj : j0 = j := by
            have := hj0e.trans q2
            exact (List.Nodup.getElem_inj_iff (Sqp.activeFrom_nodup actC 0)).mp this
          subst hii hjj
          rw [g2 (by rw [← q1, ← q2]; exact hn.1)]
          simp [SparseMat.coeff]
        · exact g1 x hx q1 q2
      · intro hnot
        rw [List.map_cons, List.mem_cons, not_or] at hnot
        rw [g2 hnot.2]
        have hne : ¬ (i0 = i ∧ j0 = j) := by
          rintro ⟨rfl, rfl⟩
          apply hnot.1
          rw [hi0e, hj0e]
        have hb : ((((i0 : Int), (j0 : Int)) : Int × Int) == ((i : Int), (j : Int))) = false := by
          rw [beq_eq_false_iff_ne]
          intro hc
          simp only [Prod.mk.injEq] at hc
          exact hne ⟨by exact_mod_cast hc.1, by exact_mod_cast hc.2⟩
        unfold SparseMat.coeff
        rw [List.find?_cons]
        simp only [hb]
    · have hstep : sparseActStep check actR actC (activeHashed actR) (activeHashed actC) m e
          = .ok m := by
        unfold sparseActStep
        rw [hR, hC]
        have : (actR[e.1] && actC[e.2.1]) = false := by
          rw [Bool.and_eq_false_iff]
          by_cases h : actR[e.1] = true
          · exact .inr (by simpa using fun hc => hact ⟨h, hc⟩)
          · exact .inl (by simpa using h)
        simp only [this, Bool.false_eq_true, if_false]
      obtain ⟨m', h1, h2⟩ := ih hrest hn.2 m
        (fun x hx e' he' => hm x hx e' (List.mem_cons_of_mem _ he'))
      refine ⟨m', by rw [List.foldlM_cons, hstep]; exact h1, ?_⟩
      intro i j hi hj
      obtain ⟨g1, g2⟩ := h2 i j hi hj
      constructor
      · intro x hx q1 q2
        rcases List.mem_cons.mp hx with rfl | hx
        · exfalso
          apply hact
          have a1 := active_at hi
          have a2 := active_at hj
          rw [← q1, hR] at a1
          rw [← q2, hC] at a2
          exact ⟨Option.some.inj a1, Option.some.inj a2⟩
        · exact g1 x hx q1 q2
      · intro hnot
        rw [List.map_cons, List.mem_cons, not_or] at hnot
        exact g2 hnot.2

end RSVS
