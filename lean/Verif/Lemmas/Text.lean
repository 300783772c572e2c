import Verif.Model.Text
import Mathlib.Tactic.Linarith
import Mathlib.Tactic.FieldSimp
import Mathlib.Tactic.Ring
import Mathlib.Tactic.NormNum
import Mathlib.Tactic.Positivity
import Mathlib.Algebra.Order.Floor.Ring
import Mathlib.Order.Basic

/-!
# Printing and scanning numbers

What is printed by `%i` is read back by `%i`; what is printed by `%.{p}lf` is read back by
`%lf` as the number rounded to `p` decimals.
-/

namespace RSVS.Text

/-! ## Digits -/

theorem digitChar_mem {d : Nat} (h : d < 10) :
    d = 0 ∨ d = 1 ∨ d = 2 ∨ d = 3 ∨ d = 4 ∨ d = 5 ∨ d = 6 ∨ d = 7 ∨ d = 8 ∨ d = 9 := by omega

theorem charVal_digitChar {d : Nat} (h : d < 10) : charVal (digitChar d) = d := by
  rcases digitChar_mem h with rfl | rfl | rfl | rfl | rfl | rfl | rfl | rfl | rfl | rfl <;> rfl

theorem isDigit_digitChar {d : Nat} (h : d < 10) : isDigit 10 (digitChar d) = true := by
  unfold isDigit; rw [charVal_digitChar h]; simpa using h

theorem isSpace_of_isDigit {c : Char} (h : isDigit 10 c = true) : isSpace c = false := by
  unfold isDigit charVal at h
  simp only [decide_eq_true_eq] at h
  split_ifs at h with h1 h2 h3
  · unfold isSpace
    have h4 : 48 ≤ c.toNat := h1.1
    simp only [Bool.or_eq_false_iff, Bool.and_eq_false_iff, decide_eq_false_iff_not,
      beq_eq_false_iff_ne, ne_eq]
    omega
  · have h4 : 97 ≤ c.toNat := h2.1
    have h5 : c.toNat ≤ 102 := h2.2
    unfold isSpace
    simp only [Bool.or_eq_false_iff, Bool.and_eq_false_iff, decide_eq_false_iff_not,
      beq_eq_false_iff_ne, ne_eq]
    omega
  · have h4 : 65 ≤ c.toNat := h3.1
    have h5 : c.toNat ≤ 70 := h3.2
    omega
  · omega

theorem dec_digits (n : Nat) : ∀ c ∈ dec n, isDigit 10 c = true := by
  induction n using dec.induct with
  | case1 n h =>
    intro c hc
    rw [dec, if_pos h, List.mem_singleton] at hc
    rw [hc]; exact isDigit_digitChar h
  | case2 n h ih =>
    intro c hc
    rw [dec, if_neg h, List.mem_append, List.mem_singleton] at hc
    rcases hc with hc | hc
    · exact ih c hc
    · rw [hc]; exact isDigit_digitChar (Nat.mod_lt _ (by omega))

theorem dec_ne_nil (n : Nat) : dec n ≠ [] := by
  rw [dec]
  split_ifs
  · simp
  · simp

theorem digitsVal_concat (b : Nat) (s : Str) (c : Char) :
    digitsVal b (s ++ [c]) = digitsVal b s * b + charVal c := by
  unfold digitsVal
  rw [List.foldl_append]; rfl

theorem digitsVal_append (s t : Str) :
    digitsVal 10 (s ++ t) = digitsVal 10 s * 10 ^ t.length + digitsVal 10 t := by
  induction t using List.reverseRecOn with
  | nil => simp [digitsVal]
  | append_singleton t c ih =>
    rw [← List.append_assoc, digitsVal_concat, ih, digitsVal_concat, List.length_append,
      List.length_singleton, pow_succ]
    ring

theorem digitsVal_dec (n : Nat) : digitsVal 10 (dec n) = n := by
  induction n using dec.induct with
  | case1 n h =>
    rw [dec, if_pos h]
    show 0 * 10 + charVal (digitChar n) = n
    rw [charVal_digitChar h]; omega
  | case2 n h ih =>
    rw [dec, if_neg h, digitsVal_concat, ih, charVal_digitChar (Nat.mod_lt _ (by omega))]
    omega

theorem dec_head_ne_zero {n : Nat} (h : n ≠ 0) : ∃ c s, dec n = c :: s ∧ c ≠ '0' := by
  induction n using dec.induct with
  | case1 n h1 =>
    refine ⟨digitChar n, [], by rw [dec, if_pos h1], ?_⟩
    rcases digitChar_mem h1 with rfl | rfl | rfl | rfl | rfl | rfl | rfl | rfl | rfl | rfl
    · exact absurd rfl h
    all_goals decide
  | case2 n h1 ih =>
    obtain ⟨c, s, hc, h0⟩ := ih (by omega)
    refine ⟨c, s ++ [digitChar (n % 10)], by rw [dec, if_neg h1, hc]; rfl, h0⟩

theorem decPad_length (k n : Nat) : (decPad k n).length = k := by
  induction k generalizing n with
  | zero => rfl
  | succ k ih => rw [decPad, List.length_append, ih]; rfl

theorem decPad_digits (k n : Nat) : ∀ c ∈ decPad k n, isDigit 10 c = true := by
  induction k generalizing n with
  | zero => intro c hc; cases hc
  | succ k ih =>
    intro c hc
    rw [decPad, List.mem_append, List.mem_singleton] at hc
    rcases hc with hc | hc
    · exact ih _ c hc
    · rw [hc]; exact isDigit_digitChar (Nat.mod_lt _ (by omega))

theorem digitsVal_decPad (k n : Nat) (h : n < 10 ^ k) : digitsVal 10 (decPad k n) = n := by
  induction k generalizing n with
  | zero =>
    have : n = 0 := by simpa using h
    subst this; rfl
  | succ k ih =>
    rw [decPad, digitsVal_concat, ih _ (by rw [pow_succ] at h; omega),
      charVal_digitChar (Nat.mod_lt _ (by omega))]
    omega

/-! ## White space and prefixes -/

theorem takeWhile_append_stop {p : Char → Bool} {s t : Str} (h : ∀ c ∈ s, p c = true)
    (ht : ∀ c u, t = c :: u → p c = false) : (s ++ t).takeWhile p = s := by
  induction s with
  | nil =>
    cases t with
    | nil => rfl
    | cons c u => simp [ht c u rfl]
  | cons a s ih =>
    rw [List.cons_append, List.takeWhile_cons, if_pos (h a (by simp)),
      ih (fun c hc => h c (by simp [hc]))]

theorem dropWhile_append_stop {p : Char → Bool} {s t : Str} (h : ∀ c ∈ s, p c = true)
    (ht : ∀ c u, t = c :: u → p c = false) : (s ++ t).dropWhile p = t := by
  induction s with
  | nil =>
    cases t with
    | nil => rfl
    | cons c u => simp [ht c u rfl]
  | cons a s ih =>
    rw [List.cons_append, List.dropWhile_cons, if_pos (h a (by simp)),
      ih (fun c hc => h c (by simp [hc]))]

theorem dropSpace_space {c : Char} (h : isSpace c = true) (s : Str) :
    dropSpace (c :: s) = dropSpace s := by
  unfold dropSpace; rw [List.dropWhile_cons, if_pos h]

theorem dropSpace_not {c : Char} (h : isSpace c = false) (s : Str) :
    dropSpace (c :: s) = c :: s := by
  unfold dropSpace; rw [List.dropWhile_cons, if_neg (by simp [h])]

theorem dropSpace_idem (s : Str) : dropSpace (dropSpace s) = dropSpace s := by
  induction s with
  | nil => rfl
  | cons c s ih =>
    cases h : isSpace c with
    | true => rw [dropSpace_space h, ih]
    | false => rw [dropSpace_not h, dropSpace_not h]

/-- A text starting with a digit or with a sign. -/
theorem dropSpace_dec (n : Nat) (t : Str) : dropSpace (dec n ++ t) = dec n ++ t := by
  cases h : dec n with
  | nil => exact absurd h (dec_ne_nil n)
  | cons c s =>
    rw [List.cons_append]
    exact dropSpace_not (isSpace_of_isDigit (dec_digits n c (by rw [h]; simp))) _

theorem scanSign_dec (n : Nat) (t : Str) : scanSign (dec n ++ t) = (false, dec n ++ t) := by
  cases h : dec n with
  | nil => exact absurd h (dec_ne_nil n)
  | cons c s =>
    have hd := dec_digits n c (by rw [h]; simp)
    rw [List.cons_append]
    unfold scanSign
    split
    · next h1 => cases h1; exact absurd hd (by decide)
    · next h1 => cases h1; exact absurd hd (by decide)
    · rfl

/-- A text at which a number stops. -/
def Stops (t : Str) : Prop := ∃ c u, t = c :: u ∧ isSpace c = true

theorem Stops.notDigit {b : Nat} (hb : b ≤ 16) {t : Str} (h : Stops t) :
    ∀ c u, t = c :: u → isDigit b c = false := by
  intro c u hc
  obtain ⟨c', u', h1, h2⟩ := h
  rw [h1] at hc
  have hcc : c' = c := (List.cons.inj hc).1
  rw [← hcc]
  have h4 : c'.toNat ≤ 32 := by
    unfold isSpace at h2
    simp only [Bool.or_eq_true, Bool.and_eq_true, decide_eq_true_eq, beq_iff_eq] at h2
    omega
  have h5 : ¬ ('0' ≤ c' ∧ c' ≤ '9') := fun h => by
    have : 48 ≤ c'.toNat := h.1
    omega
  have h6 : ¬ ('a' ≤ c' ∧ c' ≤ 'f') := fun h => by
    have : 97 ≤ c'.toNat := h.1
    omega
  have h7 : ¬ ('A' ≤ c' ∧ c' ≤ 'F') := fun h => by
    have : 65 ≤ c'.toNat := h.1
    omega
  unfold isDigit charVal
  rw [if_neg h5, if_neg h6, if_neg h7, decide_eq_false_iff_not]
  omega

theorem scanDigits_dec (n : Nat) {t : Str} (ht : ∀ c u, t = c :: u → isDigit 10 c = false) :
    scanDigits 10 (dec n ++ t) = .ok (n, t) := by
  unfold scanDigits
  rw [takeWhile_append_stop (dec_digits n) ht, dropWhile_append_stop (dec_digits n) ht,
    if_neg (dec_ne_nil n), digitsVal_dec]

theorem scanNat_dec (n : Nat) {t : Str} (ht : Stops t) : scanNat (dec n ++ t) = .ok (n, t) := by
  by_cases h0 : n = 0
  · subst h0
    have h1 : dec 0 = ['0'] := by rw [dec]; rfl
    rw [h1]
    obtain ⟨c, u, rfl, hc⟩ := ht
    have hs : Stops (c :: u) := ⟨c, u, rfl, hc⟩
    have h8 := hs.notDigit (b := 8) (by omega)
    show scanNat ('0' :: c :: u) = _
    unfold scanNat
    split
    · next h2 => cases h2; exact absurd hc (by decide)
    · next h2 => cases h2; exact absurd hc (by decide)
    · next h2 =>
      cases h2
      show scanDigits 8 (['0'] ++ (c :: u)) = _
      unfold scanDigits
      rw [takeWhile_append_stop (by decide) h8, dropWhile_append_stop (by decide) h8]
      rfl
    · next h2 => exact absurd rfl (h2 _)
  · obtain ⟨c, s, hc, hne⟩ := dec_head_ne_zero h0
    have h1 : scanNat (dec n ++ t) = scanDigits 10 (dec n ++ t) := by
      rw [hc, List.cons_append]
      unfold scanNat
      split
      · next h2 => exact absurd (List.cons.inj h2).1 hne
      · next h2 => exact absurd (List.cons.inj h2).1 hne
      · next h2 => exact absurd (List.cons.inj h2).1 hne
      · rfl
    rw [h1]
    exact scanDigits_dec n (ht.notDigit (by omega))

theorem scanInt_print (i : Int) {t : Str} (ht : Stops t) :
    scanInt (printInt i ++ t) = .ok (i, t) := by
  unfold printInt
  by_cases h : i < 0
  · rw [if_pos h]
    unfold scanInt
    rw [List.cons_append, dropSpace_not (by decide)]
    show (scanNat (dec i.natAbs ++ t) >>= _) = _
    rw [scanNat_dec _ ht]
    show Except.ok (-(i.natAbs : Int), t) = _
    rw [show -(i.natAbs : Int) = i by omega]
  · rw [if_neg h]
    unfold scanInt
    rw [dropSpace_dec]
    rw [scanSign_dec]
    show (scanNat (dec i.natAbs ++ t) >>= _) = _
    rw [scanNat_dec _ ht]
    show Except.ok ((i.natAbs : Int), t) = _
    rw [show (i.natAbs : Int) = i by omega]

/-! ## Decimal numbers -/

theorem nearestInt_close (x : ℚ) : |(nearestInt x : ℚ) - x| ≤ 1 / 2 := by
  have h1 := Int.floor_le x
  have h2 := Int.lt_floor_add_one x
  unfold nearestInt
  rw [abs_le]
  split_ifs with h3 h4 h5
  · constructor <;> linarith
  · push_cast; constructor <;> linarith
  · constructor <;> linarith
  · push_cast; constructor <;> linarith

theorem nearestInt_int (k : Int) : nearestInt (k : ℚ) = k := by
  unfold nearestInt
  rw [Int.floor_intCast, sub_self, if_pos (by norm_num)]

theorem nearestInt_nonneg {x : ℚ} (h : 0 ≤ x) : 0 ≤ nearestInt x := by
  have h1 : 0 ≤ ⌊x⌋ := Int.floor_nonneg.mpr h
  unfold nearestInt
  split_ifs <;> omega

/-- The number printed by `%.{p}lf`. -/
def rounded (p : Nat) (x : ℚ) : ℚ :=
  if x < 0 then -((fixedUnits p x : ℚ) / 10 ^ p) else (fixedUnits p x : ℚ) / 10 ^ p

theorem fixedUnits_cast (p : Nat) (x : ℚ) :
    (fixedUnits p x : ℚ) = (nearestInt (|x| * 10 ^ p) : ℚ) := by
  have h : 0 ≤ nearestInt (|x| * 10 ^ p) :=
    nearestInt_nonneg (mul_nonneg (abs_nonneg _) (by positivity))
  unfold fixedUnits
  have h2 : ((nearestInt (|x| * 10 ^ p)).toNat : Int) = nearestInt (|x| * 10 ^ p) :=
    Int.toNat_of_nonneg h
  exact_mod_cast congrArg (fun z : Int => (z : ℚ)) h2

theorem units_close (p : Nat) (x : ℚ) :
    |(fixedUnits p x : ℚ) / 10 ^ p - (|x|)| ≤ 1 / 2 / 10 ^ p := by
  have hp : (0 : ℚ) < 10 ^ p := by positivity
  have h := nearestInt_close (|x| * 10 ^ p)
  rw [← fixedUnits_cast] at h
  have h2 : (fixedUnits p x : ℚ) / 10 ^ p - |x| = ((fixedUnits p x : ℚ) - |x| * 10 ^ p) / 10 ^ p := by
    field_simp
  rw [h2, abs_div, abs_of_pos hp]
  exact div_le_div_of_nonneg_right h hp.le

theorem rounded_close (p : Nat) (x : ℚ) : |rounded p x - x| ≤ 1 / 2 / 10 ^ p := by
  have h := units_close p x
  unfold rounded
  split_ifs with hx
  · rw [abs_of_neg hx] at h
    rw [show -((fixedUnits p x : ℚ) / 10 ^ p) - x = -((fixedUnits p x : ℚ) / 10 ^ p - -x) by ring,
      abs_neg]
    exact h
  · rw [abs_of_nonneg (not_lt.mp hx)] at h
    exact h

theorem rounded_exact {p : Nat} {x : ℚ} {k : Int} (h : x = k / 10 ^ p) : rounded p x = x := by
  have hp : (0 : ℚ) < 10 ^ p := by positivity
  have hk : |x| * 10 ^ p = ((|k| : Int) : ℚ) := by
    rw [h, abs_div, abs_of_pos hp, div_mul_cancel₀ _ hp.ne', Int.cast_abs]
  have hu : (fixedUnits p x : ℚ) / 10 ^ p = |x| := by
    rw [fixedUnits_cast, hk, nearestInt_int, ← hk, mul_div_cancel_right₀ _ hp.ne']
  unfold rounded
  rw [hu]
  split_ifs with hx
  · rw [abs_of_neg hx, neg_neg]
  · exact abs_of_nonneg (not_lt.mp hx)

theorem scanExp_stop {t : Str} (ht : Stops t) : scanExp t = .ok (0, t) := by
  obtain ⟨c, u, rfl, hc⟩ := ht
  unfold scanExp
  have h1 : ¬ (c = 'e' ∨ c = 'E') := by
    rintro (rfl | rfl) <;> exact absurd hc (by decide)
  have h2 : ¬ (c = 'x' ∨ c = 'X') := by
    rintro (rfl | rfl) <;> exact absurd hc (by decide)
  simp only [if_neg h1, if_neg h2]

/-- The digits of a number with a decimal point. -/
theorem scanReal_digits (rd : ℚ → ℚ) (neg : Bool) (n p f : Nat) (hf : f < 10 ^ p) {t : Str}
    (ht : Stops t) (s : Str)
    (hs : scanSign (dropSpace s) = (neg, dec n ++ ('.' :: (decPad p f ++ t)))) :
    scanReal rd s =
      .ok (rd (if neg then -(((n * 10 ^ p + f : Nat) : ℚ) / 10 ^ p)
        else ((n * 10 ^ p + f : Nat) : ℚ) / 10 ^ p), t) := by
  have hdot : ∀ c u, ('.' :: (decPad p f ++ t)) = c :: u → isDigit 10 c = false := by
    intro c u h; cases h; decide
  have ht10 := ht.notDigit (b := 10) (by omega)
  unfold scanReal
  rw [hs]
  simp only [takeWhile_append_stop (dec_digits n) hdot, dropWhile_append_stop (dec_digits n) hdot]
  simp only [scanFrac, takeWhile_append_stop (decPad_digits p f) ht10,
    dropWhile_append_stop (decPad_digits p f) ht10]
  rw [if_neg (fun h => dec_ne_nil n h.1), scanExp_stop ht]
  show Except.ok _ = _
  rw [decPad_length, digitsVal_append, digitsVal_dec, decPad_length, digitsVal_decPad _ _ hf]
  have : (10 : ℚ) ^ ((0 : Int) - (p : Int)) = (10 ^ p)⁻¹ := by
    rw [zero_sub, zpow_neg, zpow_natCast]
  rw [this, div_eq_mul_inv]

theorem scanReal_print (rd : ℚ → ℚ) (p : Nat) (x : ℚ) {t : Str} (ht : Stops t) :
    scanReal rd (printFixed p x ++ t) = .ok (rd (rounded p x), t) := by
  have hp : 0 < 10 ^ p := by positivity
  have hd : fixedUnits p x / 10 ^ p * 10 ^ p + fixedUnits p x % 10 ^ p = fixedUnits p x :=
    Nat.div_add_mod' _ _
  have hm := Nat.mod_lt (fixedUnits p x) hp
  unfold printFixed rounded
  by_cases h : x < 0
  · rw [if_pos h, if_pos h]
    rw [scanReal_digits rd true _ p _ hm ht]
    · rw [hd]; rfl
    · simp only [List.append_assoc, List.cons_append, List.nil_append]
      rw [dropSpace_not (by decide)]
      rfl
  · rw [if_neg h, if_neg h]
    rw [scanReal_digits rd false _ p _ hm ht]
    · rw [hd]; rfl
    · simp only [List.append_assoc, List.cons_append, List.nil_append]
      rw [dropSpace_dec]
      exact scanSign_dec _ _

/-! ## Reading back -/

/-- The scanner `r` reads the text `w` as `a` and takes it off, with the white space after
it. -/
def Reads {α : Type} (r : Scan α) (w : Str) (a : α) : Prop :=
  ∀ rest, r (dropSpace (w ++ rest)) = .ok (a, dropSpace rest)

theorem Reads.bind {α β : Type} {r : Scan α} {f : α → Scan β} {w w' : Str} {a : α} {b : β}
    (h : Reads r w a) (h' : Reads (f a) w' b) : Reads (r >>= f) (w ++ w') b := by
  intro rest
  rw [List.append_assoc]
  show (r (dropSpace (w ++ (w' ++ rest))) >>= fun p => f p.1 p.2) = _
  rw [h]
  exact h' rest

theorem Reads.pure {α : Type} (a : α) : Reads (pure a) [] a := fun _ => rfl

theorem Reads.newline {α : Type} (a : α) : Reads (Pure.pure a) ['\n'] a := by
  intro rest
  show Except.ok (a, dropSpace ('\n' :: rest)) = _
  rw [dropSpace_space (by decide)]

/-- White space before what is read. -/
theorem Reads.after {α : Type} {r : Scan α} {w : Str} {a : α} (h : Reads r w a) :
    Reads r (['\n'] ++ w) a := by
  intro rest
  show r (dropSpace ('\n' :: (w ++ rest))) = _
  rw [dropSpace_space (by decide)]
  exact h rest

theorem stops_space (t : Str) : Stops (' ' :: t) := ⟨' ', t, rfl, by decide⟩

theorem reads_int (i : Int) : Reads rInt (wInt i) i := by
  intro rest
  unfold wInt
  rw [List.append_assoc]
  have h0 : dropSpace (printInt i ++ ([' '] ++ rest)) = printInt i ++ (' ' :: rest) := by
    unfold printInt
    split_ifs
    · rw [List.cons_append, dropSpace_not (by decide)]; rfl
    · rw [dropSpace_dec]; rfl
  rw [h0]
  show (scanInt (printInt i ++ (' ' :: rest)) >>= _) = _
  rw [scanInt_print i (stops_space rest)]
  show Except.ok (i, dropSpace (' ' :: rest)) = _
  rw [dropSpace_space (by decide)]

theorem reads_real (rd : ℚ → ℚ) (p : Nat) (x : ℚ) :
    Reads (rReal rd) (wReal p x) (rd (rounded p x)) := by
  intro rest
  unfold wReal
  rw [List.append_assoc]
  have h0 : dropSpace (printFixed p x ++ ([' '] ++ rest)) = printFixed p x ++ (' ' :: rest) := by
    unfold printFixed
    split_ifs
    · simp only [List.append_assoc, List.cons_append, List.nil_append]
      rw [dropSpace_not (by decide)]
    · simp only [List.append_assoc, List.cons_append, List.nil_append]
      rw [dropSpace_dec]
  rw [h0]
  show (scanReal rd (printFixed p x ++ (' ' :: rest)) >>= _) = _
  rw [scanReal_print rd p x (stops_space rest)]
  show Except.ok (_, dropSpace (' ' :: rest)) = _
  rw [dropSpace_space (by decide)]

theorem reads_many {α β : Type} {r : Scan β} {w : α → Str} {f : α → β} {l : List α}
    (h : ∀ a ∈ l, Reads r (w a) (f a)) : Reads (rMany r l.length) (l.map w).flatten (l.map f) := by
  induction l with
  | nil => exact Reads.pure _
  | cons a l ih =>
    show Reads (r >>= fun b => rMany r l.length >>= fun t => Pure.pure (b :: t)) _ _
    have h2 : Reads (rMany r l.length >>= fun t => Pure.pure (f a :: t)) (l.map w).flatten
        (f a :: l.map f) := by
      have := Reads.bind (f := fun t => Pure.pure (f a :: t)) (ih (fun b hb => h b (by simp [hb])))
        (Reads.pure (f a :: l.map f))
      rw [List.append_nil] at this
      exact this
    exact Reads.bind (h a (by simp)) h2

theorem reads_size (n : Nat) : rSize (n : Int) = pure n := by
  unfold rSize
  rw [if_neg (by omega), Int.toNat_natCast]

end RSVS.Text
