import Verif.Lemmas.MeshIO
import Verif.Lemmas.MeshTest

/-!
# Reading the target fill from a text file
-/

namespace RSVS.MeshIO

open RSVS.Text RSVS.Spec

theorem digitText_digit (d : Fin 10) : isDigit 10 (Char.ofNat (48 + d.val)) = true := by
  revert d; decide

theorem digitText_val (d : Fin 10) : charVal (Char.ofNat (48 + d.val)) = d.val := by
  revert d; decide

theorem digitsText_digits (l : List (Fin 10)) : ∀ c ∈ digitsText l, isDigit 10 c = true := by
  intro c hc
  obtain ⟨d, _, rfl⟩ := List.mem_map.mp hc
  exact digitText_digit d

theorem digitsVal_text (l : List (Fin 10)) : digitsVal 10 (digitsText l) = digitsNum l := by
  induction l using List.reverseRecOn with
  | nil => rfl
  | append_singleton l d ih =>
    have h1 : digitsText (l ++ [d]) = digitsText l ++ [Char.ofNat (48 + d.val)] := by
      unfold digitsText; rw [List.map_append]; rfl
    have h2 : digitsNum (l ++ [d]) = d.val + 10 * digitsNum l := by
      unfold digitsNum
      rw [List.map_append, List.reverse_append]
      show Nat.ofDigits 10 (d.val :: (l.map Fin.val).reverse) = _
      rw [Nat.ofDigits_cons]
    rw [h1, digitsVal_concat, ih, h2, digitText_val]
    omega

/-- The end of the file or white space. -/
def Ends (t : Str) : Prop := t = [] ∨ Stops t

theorem Ends.notDigit {t : Str} (h : Ends t) : ∀ c u, t = c :: u → isDigit 10 c = false := by
  rcases h with rfl | h
  · intro c u h; cases h
  · exact h.notDigit (by omega)

/-- The characters of an exponent. -/
def expText : Option (Option Bool × List (Fin 10)) → Str
  | none => []
  | some (s, e) => 'e' :: (signText s ++ digitsText e)

/-- The characters after the digits before the point. -/
def fracText : Option (List (Fin 10)) → Str
  | none => []
  | some f => '.' :: digitsText f

/-- The exponent. -/
def expVal : Option (Option Bool × List (Fin 10)) → Int
  | none => 0
  | some (s, e) => (if s = some true then -1 else 1) * (digitsNum e : Int)

theorem numeral_text (n : Numeral) :
    n.text = signText n.sign ++ (digitsText n.whole ++ (fracText n.frac ++ expText n.exp)) := by
  unfold Numeral.text
  simp only [List.append_assoc]
  congr 3

theorem scanDigits_text {e : List (Fin 10)} (he : e ≠ []) {t : Str} (ht : Ends t) :
    scanDigits 10 (digitsText e ++ t) = .ok (digitsNum e, t) := by
  unfold scanDigits
  rw [takeWhile_append_stop (digitsText_digits e) ht.notDigit,
    dropWhile_append_stop (digitsText_digits e) ht.notDigit, digitsVal_text, if_neg]
  unfold digitsText
  intro h
  exact he (List.map_eq_nil_iff.mp h)

theorem scanSign_text (sg : Option Bool) {u : Str}
    (hu : ∀ c v, u = c :: v → c ≠ '-' ∧ c ≠ '+') :
    scanSign (signText sg ++ u) = (decide (sg = some true), u) := by
  rcases sg with _ | _ | _
  · show scanSign u = _
    unfold scanSign
    split
    · exact absurd rfl (hu _ _ rfl).1
    · exact absurd rfl (hu _ _ rfl).2
    · rfl
  · rfl
  · rfl

theorem digit_not_sign {c : Char} (h : isDigit 10 c = true) : c ≠ '-' ∧ c ≠ '+' := by
  constructor <;> (rintro rfl; exact absurd h (by decide))

theorem digitsText_cons {e : List (Fin 10)} (he : e ≠ []) : ∃ c u, digitsText e = c :: u := by
  cases e with
  | nil => exact absurd rfl he
  | cons d l => exact ⟨_, _, rfl⟩

theorem scanExp_text {ex : Option (Option Bool × List (Fin 10))} {t : Str} (ht : Ends t)
    (hex : ∀ s e, ex = some (s, e) → e ≠ []) :
    scanExp (expText ex ++ t) = .ok (expVal ex, t) := by
  rcases ex with _ | ⟨s, e⟩
  · show scanExp t = _
    rcases ht with rfl | ht
    · rfl
    · exact scanExp_stop ht
  · have he := hex s e rfl
    show scanExp ('e' :: (signText s ++ digitsText e ++ t)) = _
    unfold scanExp
    simp only [true_or, if_true]
    rw [List.append_assoc, scanSign_text s]
    · show (scanDigits 10 (digitsText e ++ t) >>= _) = _
      rw [scanDigits_text he ht]
      show Except.ok (if decide (s = some true) then -((digitsNum e : Nat) : Int)
        else ((digitsNum e : Nat) : Int), t) = _
      unfold expVal
      by_cases hs : s = some true
      · simp [hs]
      · simp [hs]
    · intro c v hc
      obtain ⟨c', u', h1⟩ := digitsText_cons he
      rw [h1, List.cons_append] at hc
      have h2 : c' = c := (List.cons.inj hc).1
      apply digit_not_sign
      rw [← h2]
      exact digitsText_digits e c' (by rw [h1]; simp)

theorem scanFrac_text (fr : Option (List (Fin 10))) {w : Str}
    (hw : ∀ c v, w = c :: v → isDigit 10 c = false ∧ c ≠ '.') :
    scanFrac (fracText fr ++ w) = (digitsText (fr.getD []), w) := by
  rcases fr with _ | f
  · show scanFrac w = _
    unfold scanFrac
    split
    · exact absurd rfl (hw _ _ rfl).2
    · rfl
  · show scanFrac ('.' :: (digitsText f ++ w)) = _
    unfold scanFrac
    simp only [takeWhile_append_stop (digitsText_digits f) (fun c v h => (hw c v h).1),
      dropWhile_append_stop (digitsText_digits f) (fun c v h => (hw c v h).1), Option.getD_some]

/-- Number after white space. -/
theorem scanReal_numeral (rd : ℚ → ℚ) {n : Numeral} (hn : n.Valid) {b t : Str} (hb : Blank b)
    (ht : Ends t) : scanReal rd (b ++ n.text ++ t) = .ok (rd n.value, t) := by
  -- what follows the point's digits
  have hW : ∀ c v, expText n.exp ++ t = c :: v → isDigit 10 c = false ∧ c ≠ '.' := by
    intro c v h
    cases hex : n.exp with
    | none =>
      rw [hex] at h
      change t = c :: v at h
      refine ⟨ht.notDigit c v h, ?_⟩
      rcases ht with h0 | ⟨c', u', h1, h2⟩
      · rw [h0] at h; cases h
      · rw [h1] at h
        have : c' = c := (List.cons.inj h).1
        rw [← this]
        rintro rfl
        exact absurd h2 (by decide)
    | some p =>
      rw [hex] at h
      obtain ⟨s, e⟩ := p
      change 'e' :: _ = c :: v at h
      have : 'e' = c := (List.cons.inj h).1
      rw [← this]
      exact ⟨by decide, by decide⟩
  have hV : ∀ c v, fracText n.frac ++ (expText n.exp ++ t) = c :: v → isDigit 10 c = false := by
    intro c v h
    cases hfr : n.frac with
    | none => rw [hfr] at h; exact (hW c v h).1
    | some f =>
      rw [hfr] at h
      change '.' :: _ = c :: v at h
      have : '.' = c := (List.cons.inj h).1
      rw [← this]; decide
  -- the first character after the sign
  have hU : ∃ c v, digitsText n.whole ++ (fracText n.frac ++ (expText n.exp ++ t)) = c :: v ∧
      (isDigit 10 c = true ∨ c = '.') := by
    cases hwh : n.whole with
    | cons d l =>
      exact ⟨_, _, rfl, Or.inl (digitText_digit d)⟩
    | nil =>
      cases hfr : n.frac with
      | none =>
        rcases hn.1 with h | h
        · exact absurd hwh h
        · rw [hfr] at h; exact absurd rfl h
      | some f => exact ⟨'.', _, rfl, Or.inr rfl⟩
  obtain ⟨c0, v0, hc0, hd0⟩ := hU
  have hns : isSpace c0 = false := by
    rcases hd0 with h | rfl
    · exact isSpace_of_isDigit h
    · decide
  have hsg : c0 ≠ '-' ∧ c0 ≠ '+' := by
    rcases hd0 with h | rfl
    · exact digit_not_sign h
    · decide
  have hS : scanSign (dropSpace (b ++ n.text ++ t)) = (decide (n.sign = some true),
      digitsText n.whole ++ (fracText n.frac ++ (expText n.exp ++ t))) := by
    have h1 : b ++ n.text ++ t = b ++ (signText n.sign ++
        (digitsText n.whole ++ (fracText n.frac ++ (expText n.exp ++ t)))) := by
      rw [numeral_text]; simp only [List.append_assoc]
    rw [h1]
    unfold dropSpace
    rw [dropWhile_append_stop (isSpace_of_blank hb)]
    · apply scanSign_text
      intro c v h
      rw [hc0] at h
      rw [← (List.cons.inj h).1]
      exact hsg
    · intro c v h
      rcases hs : n.sign with _ | _ | _
      · rw [hs] at h
        change digitsText n.whole ++ (fracText n.frac ++ (expText n.exp ++ t)) = c :: v at h
        rw [hc0] at h
        rw [← (List.cons.inj h).1]
        exact hns
      · rw [hs] at h
        change '+' :: _ = c :: v at h
        rw [← (List.cons.inj h).1]; decide
      · rw [hs] at h
        change '-' :: _ = c :: v at h
        rw [← (List.cons.inj h).1]; decide
  unfold scanReal
  rw [hS]
  simp only [takeWhile_append_stop (digitsText_digits n.whole) hV,
    dropWhile_append_stop (digitsText_digits n.whole) hV, scanFrac_text n.frac hW]
  rw [if_neg, scanExp_text ht hn.2]
  · show Except.ok _ = _
    have hlen : (digitsText (n.frac.getD [])).length = (n.frac.getD []).length := by
      unfold digitsText; rw [List.length_map]
    have hten : (10 : ℚ) ≠ 0 := by norm_num
    have hval : ((digitsVal 10 (digitsText n.whole ++ digitsText (n.frac.getD [])) : Nat) : ℚ) *
        (10 : ℚ) ^ (expVal n.exp - ((digitsText (n.frac.getD [])).length : Int)) =
        ((digitsNum n.whole : ℚ) + (digitsNum (n.frac.getD []) : ℚ) /
          10 ^ (n.frac.getD []).length) * 10 ^ expVal n.exp := by
      rw [digitsVal_append, digitsVal_text, digitsVal_text, hlen, zpow_sub₀ hten, zpow_natCast]
      push_cast
      field_simp
    rw [hval]
    have hv : n.value = (if n.sign = some true then -1 else 1) *
        ((digitsNum n.whole : ℚ) + (digitsNum (n.frac.getD []) : ℚ) /
          10 ^ (n.frac.getD []).length) * 10 ^ expVal n.exp := by
      unfold Numeral.value expVal
      rfl
    rw [hv]
    by_cases hs : n.sign = some true
    · rw [decide_eq_true hs, if_pos rfl, if_pos hs]
      congr 3; ring
    · rw [decide_eq_false hs, if_neg (by simp), if_neg hs, one_mul]
  · rintro ⟨h1, h2⟩
    unfold digitsText at h1 h2
    rcases hn.1 with h | h
    · exact h (List.map_eq_nil_iff.mp h1)
    · exact h (List.map_eq_nil_iff.mp h2)

/-- One value read. -/
theorem streamReal_numeral (rd : ℚ → ℚ) (ft : Option ℚ) {n : Numeral} (hn : n.Valid) {b t : Str}
    (hb : Blank b) (ht : Ends t) :
    streamReal rd ft (b ++ n.text ++ t) = .ok (some (rd n.value), t, t == []) := by
  unfold streamReal
  have h := scanReal_numeral rd hn hb ht
  rw [if_neg]
  · rw [h]; rfl
  · intro h0
    have h1 : scanReal rd (b ++ n.text ++ t) = .error .ub := by
      unfold scanReal
      rw [h0]
      rfl
    rw [h1] at h
    cases h

theorem blank_ends {b t : Str} (hb : Blank b) (hne : b ≠ []) : Ends (b ++ t) := by
  right
  cases b with
  | nil => exact absurd rfl hne
  | cons c u => exact ⟨c, u ++ t, rfl, isSpace_of_blank hb c (by simp)⟩

theorem dropSpace_blank {b : Str} (hb : Blank b) : dropSpace b = [] := by
  have := dropWhile_append_stop (t := []) (isSpace_of_blank hb) (fun c u h => by cases h)
  rwa [List.append_nil] at this

/-- Dropping white space moves into the front of a layout. -/
theorem Layout.blank {l : List Numeral} {s b : Str} (h : Layout l s) (hb : Blank b) :
    Layout l (b ++ s) := by
  have happ : ∀ {b' : Str}, Blank b' → Blank (b ++ b') := by
    intro b' hb' c hc
    rcases List.mem_append.mp hc with hc | hc
    · exact hb c hc
    · exact hb' c hc
  cases h with
  | one hn hb' =>
    rw [← List.append_assoc]
    exact Layout.one hn (happ hb')
  | more hn hb' hb'' hne hl =>
    rename_i b1 b2 s1
    have := Layout.more hn (happ hb') hb'' hne hl
    simp only [List.append_assoc] at this ⊢
    exact this

/-- The values read from a file without white space at its end. -/
theorem fillLoop_layout (rd : ℚ → ℚ) {l : List Numeral} {s : Str} (h : Layout l s) (k : Nat)
    (ft : Option ℚ) :
    fillLoop rd k ft s false = .ok ((l.map (fun n => rd n.value)).take k) := by
  induction l generalizing s k ft with
  | nil => cases h
  | cons n l ih =>
    cases k with
    | zero => rfl
    | succ k =>
      cases h with
      | one hn hb =>
        rename_i b
        have h1 := streamReal_numeral rd ft hn hb (t := []) (Or.inl rfl)
        rw [List.append_nil] at h1
        show (streamReal rd ft (b ++ n.text) >>= _) = _
        rw [h1]
        show (fillLoop rd k (some (rd n.value)) [] true >>= _) = _
        have h2 : fillLoop rd k (some (rd n.value)) [] true = .ok [] := by cases k <;> rfl
        rw [h2]
        simp only [List.map_cons, List.map_nil, List.take_succ_cons, List.take_nil]
        rfl
      | more hn hb hb' hne hl =>
        rename_i n' l' b1 b2 s1
        have h1 := streamReal_numeral rd ft hn hb (blank_ends (t := s1) hb' hne)
        have hs : b1 ++ n.text ++ b2 ++ s1 = b1 ++ n.text ++ (b2 ++ s1) := by
          rw [List.append_assoc]
        show (streamReal rd ft (b1 ++ n.text ++ b2 ++ s1) >>= _) = _
        rw [hs, h1]
        have hemp : (b2 ++ s1 == []) = false := by
          cases b2 with
          | nil => exact absurd rfl hne
          | cons c u => rfl
        rw [hemp]
        show (fillLoop rd k (some (rd n.value)) (b2 ++ s1) false >>= _) = _
        rw [ih (Layout.blank hl hb')]
        rfl

/-- The values read from a file with white space at its end: the last one is read twice. -/
theorem fillLoop_trailing (rd : ℚ → ℚ) {l : List Numeral} {s w : Str} (h : Layout l s)
    (hw : Blank w) (hne : w ≠ []) (k : Nat) (ft : Option ℚ) :
    fillLoop rd k ft (s ++ w) false =
      .ok (((l ++ l.getLast?.toList).map (fun n => rd n.value)).take k) := by
  induction l generalizing s k ft with
  | nil => cases h
  | cons n l ih =>
    cases k with
    | zero => rfl
    | succ k =>
      cases h with
      | one hn hb =>
        rename_i b
        have h1 := streamReal_numeral rd ft hn hb (t := w ++ [])
          (blank_ends (t := []) hw hne)
        rw [List.append_nil] at h1
        show (streamReal rd ft (b ++ n.text ++ w) >>= _) = _
        rw [h1]
        have hemp : (w == []) = false := by
          cases w with
          | nil => exact absurd rfl hne
          | cons c u => rfl
        rw [hemp]
        show (fillLoop rd k (some (rd n.value)) w false >>= _) = _
        cases k with
        | zero => rfl
        | succ k =>
          have h2 : fillLoop rd (k + 1) (some (rd n.value)) w false = .ok [rd n.value] := by
            show (streamReal rd (some (rd n.value)) w >>= _) = _
            have h3 : streamReal rd (some (rd n.value)) w = .ok (some (rd n.value), [], true) := by
              unfold streamReal
              rw [if_pos (dropSpace_blank hw)]
            rw [h3]
            show (fillLoop rd k (some (rd n.value)) [] true >>= _) = _
            have h4 : fillLoop rd k (some (rd n.value)) [] true = .ok [] := by cases k <;> rfl
            rw [h4]
            rfl
          rw [h2]
          simp only [List.getLast?_singleton, Option.toList_some, List.cons_append,
            List.nil_append, List.map_cons, List.map_nil, List.take_succ_cons, List.take_nil]
          rfl
      | more hn hb hb' hne' hl =>
        rename_i n' l' b1 b2 s1
        have hs : b1 ++ n.text ++ b2 ++ s1 ++ w = b1 ++ n.text ++ (b2 ++ s1 ++ w) := by
          simp only [List.append_assoc]
        have h1 := streamReal_numeral rd ft hn hb (blank_ends (t := s1 ++ w) hb' hne')
        rw [← List.append_assoc b2] at h1
        show (streamReal rd ft (b1 ++ n.text ++ b2 ++ s1 ++ w) >>= _) = _
        rw [hs, h1]
        have hemp : (b2 ++ s1 ++ w == []) = false := by
          cases b2 with
          | nil => exact absurd rfl hne'
          | cons c u => rfl
        rw [hemp]
        show (fillLoop rd k (some (rd n.value)) (b2 ++ s1 ++ w) false >>= _) = _
        rw [ih (Layout.blank hl hb')]
        rfl

theorem mapM_ok_map {α β : Type} {f : α → Res β} {g : α → β} {l : List α}
    (h : ∀ a ∈ l, f a = .ok (g a)) : l.mapM (m := Except Fault) f = .ok (l.map g) := by
  induction l with
  | nil => rfl
  | cons a l ih =>
    rw [List.mapM_cons, h a (by simp), ih (fun b hb => h b (by simp [hb]))]
    rfl

/-- Cyclic repetition. -/
theorem spread_ok (n : Nat) (vals : List ℚ) (h : vals ≠ []) :
    spread n vals = .ok ((List.range n).map (fun i => vals.getD (i % vals.length) 0)) := by
  have hpos : 0 < vals.length := List.length_pos_iff.mpr h
  unfold spread
  apply mapM_ok_map
  intro i _
  have hlt := Nat.mod_lt i hpos
  rw [if_neg (by omega)]
  unfold vecGet
  rw [if_neg (by omega), Int.toNat_natCast, List.getD_eq_getElem?_getD,
    List.getElem?_eq_getElem hlt]
  rfl

theorem zipWith_range {α : Type} (f : α → ℚ → α) (t : Nat → ℚ) (l : List α) :
    List.zipWith f l ((List.range l.length).map t) = l.mapIdx (fun i a => f a (t i)) := by
  apply List.ext_getElem?
  intro i
  rw [List.getElem?_zipWith, List.getElem?_mapIdx, List.getElem?_map]
  by_cases h : i < l.length
  · rw [List.getElem?_eq_getElem h, List.getElem?_range h]
    rfl
  · rw [List.getElem?_eq_none (by omega)]
    rfl

/-- The targets read give the mesh its targets. -/
theorem loadTargetFill_ok {rd : ℚ → ℚ} {m : Mesh} {s : Str} {t : Nat → ℚ}
    (hdim : m.meshDim = 2 ∨ m.meshDim = 3)
    (h : targetVals rd (cells m) s = .ok ((List.range (cells m)).map t)) :
    loadTargetFill rd m s = .ok (withTargets t m) := by
  unfold loadTargetFill withTargets
  rcases hdim with hd | hd
  · have hc : cells m = m.surfs.length := by unfold cells; rw [if_neg (by omega)]
    rw [if_neg (by omega), if_pos hd, if_neg (by omega), ← hc]
    show (targetVals rd (cells m) s >>= _) = _
    rw [h, hc]
    show Except.ok _ = _
    rw [zipWith_range]
  · have hc : cells m = m.volus.length := by unfold cells; rw [if_pos hd]
    rw [if_pos hd, if_pos hd, ← hc]
    show (targetVals rd (cells m) s >>= _) = _
    rw [h, hc]
    show Except.ok _ = _
    rw [zipWith_range]

/-- Cyclic repetition of the first `k` values over `k` cells. -/
theorem spread_take (k : Nat) (vals : List ℚ) (h : vals ≠ []) :
    spread k (vals.take k) = .ok ((List.range k).map (fun i => vals.getD (i % vals.length) 0)) := by
  have hpos : 0 < vals.length := List.length_pos_iff.mpr h
  cases k with
  | zero => rfl
  | succ k =>
    rw [spread_ok]
    · congr 1
      apply List.map_congr_left
      intro i hi
      have hi := List.mem_range.mp hi
      rw [List.length_take]
      by_cases hk : k + 1 ≤ vals.length
      · rw [min_eq_left hk, Nat.mod_eq_of_lt hi, Nat.mod_eq_of_lt (by omega),
          List.getD_eq_getElem?_getD, List.getD_eq_getElem?_getD, List.getElem?_take, if_pos hi]
      · rw [min_eq_right (by omega), List.take_of_length_le (by omega)]
    · intro h0
      have h1 := congrArg List.length h0
      rw [List.length_take] at h1
      simp only [List.length_nil] at h1
      omega

end RSVS.MeshIO
