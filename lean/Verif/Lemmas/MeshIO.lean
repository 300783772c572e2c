import Verif.Lemmas.Text
import Verif.Spec.MeshIO
import Mathlib.Data.Set.Finite.Lattice
import Mathlib.Data.Set.Finite.Basic
import Mathlib.Order.Interval.Finset.Defs
import Mathlib.Data.Int.Interval
import Mathlib.Data.Finset.Max
import Mathlib.Data.List.Induction

/-!
# Reading back files of meshes and snakes
-/

namespace RSVS.MeshIO

open RSVS.Text RSVS.Spec

/-! ## Doubles -/

theorem isDouble_zero : IsDouble 0 := ⟨0, 0, by norm_num, by norm_num, by norm_num, by norm_num⟩

/-- There is a nearest number in a set of multiples of powers of two. -/
theorem nearest_exists (M a b : Int) (S : ℚ → Prop) (h0 : S 0)
    (hS : ∀ x, S x → ∃ m e : Int, |m| < M ∧ a ≤ e ∧ e ≤ b ∧ x = (m : ℚ) * 2 ^ e) :
    ∃ rd : ℚ → ℚ, ∀ x, S (rd x) ∧ ∀ y, S y → |rd x - x| ≤ |y - x| := by
  classical
  let F : Finset ℚ := ((Finset.Icc (-M) M ×ˢ Finset.Icc a b).image
    (fun p => (p.1 : ℚ) * 2 ^ p.2)).filter S
  have hF : ∀ x, x ∈ F ↔ S x := by
    intro x
    simp only [F, Finset.mem_filter, Finset.mem_image, Finset.mem_product, Finset.mem_Icc,
      Prod.exists]
    constructor
    · exact fun h => h.2
    · intro h
      obtain ⟨m, e, h1, h2, h3, h4⟩ := hS x h
      have := abs_lt.mp h1
      exact ⟨⟨m, e, ⟨⟨by omega, by omega⟩, h2, h3⟩, h4.symm⟩, h⟩
  have hne : F.Nonempty := ⟨0, (hF 0).mpr h0⟩
  have hmin : ∀ x : ℚ, ∃ z ∈ F, ∀ y ∈ F, |z - x| ≤ |y - x| := fun x =>
    Finset.exists_min_image F (fun z => |z - x|) hne
  choose rd h1 h2 using hmin
  exact ⟨rd, fun x => ⟨(hF _).mp (h1 x), fun y hy => h2 x y ((hF y).mpr hy)⟩⟩

/-- There is a conversion to the nearest `double`. -/
theorem toDouble_exists : ∃ rd : ℚ → ℚ, ToDouble rd :=
  nearest_exists _ _ _ IsDouble isDouble_zero (fun _ h => h)

theorem _root_.RSVS.Spec.ToDouble.fix {rd : ℚ → ℚ} (h : ToDouble rd) {x : ℚ} (hx : IsDouble x) : rd x = x := by
  have h1 := (h x).2 x hx
  rw [sub_self, abs_zero] at h1
  have h2 := abs_eq_zero.mp (le_antisymm h1 (abs_nonneg _))
  linarith

/-- A `double` read back after rounding is off by at most twice the rounding. -/
theorem _root_.RSVS.Spec.ToDouble.close {rd : ℚ → ℚ} (h : ToDouble rd) {x y : ℚ} (hx : IsDouble x) :
    |rd y - x| ≤ 2 * |y - x| := by
  have h1 := (h y).2 x hx
  have h2 : |rd y - x| ≤ |rd y - y| + |y - x| := abs_sub_le _ _ _
  rw [abs_sub_comm x y] at h1
  linarith

theorem _root_.RSVS.Spec.ToDouble.rounded_close {rd : ℚ → ℚ} (h : ToDouble rd) (p : Nat) {x : ℚ}
    (hx : IsDouble x) : |rd (rounded p x) - x| ≤ 1 / 10 ^ p := by
  have h1 := h.close (y := rounded p x) hx
  have h2 := RSVS.Text.rounded_close p x
  have h3 : (1 : ℚ) / 2 / 10 ^ p * 2 = 1 / 10 ^ p := by ring
  linarith

theorem _root_.RSVS.Spec.ToDouble.rounded_exact {rd : ℚ → ℚ} (h : ToDouble rd) {p : Nat} {x : ℚ}
    (hx : IsDouble x) (hd : Decimal p x) : rd (rounded p x) = x := by
  obtain ⟨k, hk⟩ := hd
  rw [RSVS.Text.rounded_exact hk, h.fix hx]

/-- A `double` not below one half in size is a multiple of `2^-53`. -/
theorem double_multiple {x : ℚ} (h : IsDouble x) (hx : 1 / 2 ≤ |x|) :
    ∃ k : Int, x = (k : ℚ) / 2 ^ 53 := by
  obtain ⟨m, e, h1, _, _, rfl⟩ := h
  have he : -53 ≤ e := by
    by_contra hlt
    have h3 : e ≤ -54 := by omega
    have h4 : (2 : ℚ) ^ e ≤ 2 ^ (-54 : Int) := zpow_le_zpow_right₀ (by norm_num) h3
    have h5 : |(m : ℚ)| < 2 ^ 53 := by exact_mod_cast h1
    rw [abs_mul, abs_of_pos (zpow_pos (by norm_num : (0 : ℚ) < 2) e)] at hx
    have h6 : |(m : ℚ)| * 2 ^ e ≤ |(m : ℚ)| * 2 ^ (-54 : Int) :=
      mul_le_mul_of_nonneg_left h4 (abs_nonneg _)
    have h7 : |(m : ℚ)| * 2 ^ (-54 : Int) < 2 ^ 53 * 2 ^ (-54 : Int) :=
      mul_lt_mul_of_pos_right h5 (by positivity)
    have h8 : (2 : ℚ) ^ 53 * 2 ^ (-54 : Int) = 1 / 2 := by norm_num
    exact absurd (h6.trans_lt (h7.trans_eq h8)) (not_lt.mpr hx)
  refine ⟨m * 2 ^ (e + 53).toNat, ?_⟩
  have h2 : ((e + 53).toNat : Int) = e + 53 := Int.toNat_of_nonneg (by omega)
  rw [Int.cast_mul, Int.cast_pow, Int.cast_ofNat, mul_div_assoc, ← zpow_natCast (2 : ℚ), h2,
    zpow_add₀ (by norm_num)]
  norm_num

/-- The only `double` close to a `double` above one half is itself. -/
theorem double_gap {x y : ℚ} (hx : IsDouble x) (hy : IsDouble y) (h : 1 / 2 < |x|)
    (hne : y ≠ x) : 1 / 2 ^ 53 ≤ |y - x| := by
  obtain ⟨k, hk⟩ := double_multiple hx h.le
  have hpos : (0 : ℚ) < 2 ^ 53 := by positivity
  by_cases hy2 : 1 / 2 ≤ |y|
  · obtain ⟨l, hl⟩ := double_multiple hy hy2
    have h1 : y - x = ((l - k : Int) : ℚ) / 2 ^ 53 := by rw [hk, hl]; push_cast; ring
    have h2 : l - k ≠ 0 := by
      intro h0
      rw [h0] at h1
      apply hne
      have : y - x = 0 := by rw [h1]; norm_num
      linarith
    have h3 : (1 : Int) ≤ |l - k| := Int.one_le_abs h2
    have h4 : (1 : ℚ) ≤ |((l - k : Int) : ℚ)| := by exact_mod_cast h3
    rw [h1, abs_div, abs_of_pos hpos]
    exact div_le_div_of_nonneg_right h4 hpos.le
  · have h1 : |x| = ((|k| : Int) : ℚ) / 2 ^ 53 := by
      rw [hk, abs_div, abs_of_pos hpos, Int.cast_abs]
    have h2 : (2 ^ 52 : Int) < |k| := by
      rw [h1, lt_div_iff₀ hpos] at h
      have h5 : (1 : ℚ) / 2 * 2 ^ 53 = ((2 ^ 52 : Int) : ℚ) := by norm_num
      rw [h5] at h
      exact_mod_cast h
    have h3 : (2 ^ 52 : Int) + 1 ≤ |k| := h2
    have h4 : (1 : ℚ) / 2 + 1 / 2 ^ 53 ≤ |x| := by
      rw [h1, le_div_iff₀ hpos]
      have h5 : ((1 : ℚ) / 2 + 1 / 2 ^ 53) * 2 ^ 53 = ((2 ^ 52 + 1 : Int) : ℚ) := by norm_num
      rw [h5]
      exact_mod_cast h3
    have h6 : |x| - |y| ≤ |y - x| := by
      rw [abs_sub_comm]
      exact abs_sub_abs_le_abs_sub x y
    linarith [not_le.mp hy2]

/-- A value which the sixteen decimals represent: a multiple of `10^-16` or a size of at
least one half. -/
theorem _root_.RSVS.Spec.ToDouble.exact16 {rd : ℚ → ℚ} (h : ToDouble rd) {x : ℚ} (hx : IsDouble x)
    (hd : Decimal 16 x ∨ 1 / 2 ≤ |x|) : rd (rounded 16 x) = x := by
  rcases hd with hd | hd
  · exact h.rounded_exact hx hd
  · rcases eq_or_lt_of_le hd with h1 | h1
    · apply h.rounded_exact hx
      rcases abs_choice x with h2 | h2
      · exact ⟨5000000000000000, by rw [← h2, ← h1]; norm_num⟩
      · refine ⟨-5000000000000000, ?_⟩
        have : x = -|x| := by rw [h2, neg_neg]
        rw [this, ← h1]; norm_num
    · by_contra hne
      have h2 := double_gap hx (h (rounded 16 x)).1 h1 hne
      have h3 := h.rounded_close 16 hx
      have h4 : (1 : ℚ) / 10 ^ 16 < 1 / 2 ^ 53 := by norm_num
      linarith

/-! ## White space -/

theorem isSpace_of_blank {b : Str} (h : Blank b) : ∀ c ∈ b, isSpace c = true := by
  intro c hc
  have := h c hc
  simp only [List.mem_cons, List.not_mem_nil, or_false] at this
  rcases this with rfl | rfl | rfl | rfl | rfl | rfl <;> decide

theorem blank_of_isSpace {c : Char} (h : isSpace c = true) : Blank [c] := by
  intro c' hc
  rw [List.mem_singleton] at hc
  subst hc
  unfold isSpace at h
  simp only [Bool.or_eq_true, Bool.and_eq_true, decide_eq_true_eq, beq_iff_eq] at h
  have h2 : c'.toNat = 9 ∨ c'.toNat = 10 ∨ c'.toNat = 11 ∨ c'.toNat = 12 ∨ c'.toNat = 13 ∨
      c'.toNat = 32 := by omega
  have hc : c' = Char.ofNat c'.toNat := (Char.ofNat_toNat c').symm
  rcases h2 with h2 | h2 | h2 | h2 | h2 | h2 <;> (rw [hc, h2]; decide)

theorem dropSpace_spec (s : Str) : AfterBlank s (dropSpace s) := by
  induction s with
  | nil => exact ⟨[], (by intro c hc; cases hc), rfl, by intro c r h; cases h⟩
  | cons c s ih =>
    cases h : isSpace c with
    | true =>
      rw [dropSpace_space h]
      obtain ⟨b, h1, h2, h3⟩ := ih
      refine ⟨c :: b, ?_, by rw [List.cons_append, ← h2], h3⟩
      intro x hx
      rcases List.mem_cons.mp hx with rfl | hx
      · exact blank_of_isSpace h x (by simp)
      · exact h1 x hx
    | false =>
      rw [dropSpace_not h]
      refine ⟨[], (by intro c hc; cases hc), rfl, ?_⟩
      intro c' r hc hb
      rw [← (List.cons.inj hc).1] at hb
      rw [isSpace_of_blank hb c (by simp)] at h
      cases h

/-! ## Elements -/

theorem boolInt_ne (b : Bool) : (boolInt b != 0) = b := by cases b <;> rfl

theorem reads_ints (l : List Int) : Reads rInts (wInts l) l := by
  unfold wInts rInts
  refine Reads.bind (reads_int _) ?_
  have h := reads_many (r := rInt) (w := wInt) (f := id) (l := l) (fun a _ => reads_int a)
  rw [List.map_id] at h
  show Reads (rSize (l.length : Int) >>= fun k => rMany rInt k) _ _
  rw [reads_size]
  exact h

theorem reads_reals (rd : ℚ → ℚ) (l : List ℚ) :
    Reads (rReals rd) (wReals l) (l.map (fun x => rd (rounded 16 x))) := by
  unfold wReals rReals
  refine Reads.bind (reads_int _) ?_
  have h := reads_many (r := rReal rd) (w := wReal 16) (f := fun x => rd (rounded 16 x)) (l := l)
    (fun a _ => reads_real rd 16 a)
  show Reads (rSize (l.length : Int) >>= fun k => rMany (rReal rd) k) _ _
  rw [reads_size]
  exact h

/-- The vertex read back. -/
def backVert (f : ℚ → ℚ) (v : Vert) : Vert := { v with coord := v.coord.map f }

/-- The surface read back. -/
def backSurf (f : ℚ → ℚ) (s : Surf) : Surf :=
  { s with fill := f s.fill, target := f s.target, error := f s.error, isordered := false }

/-- The volume read back. -/
def backVolu (f : ℚ → ℚ) (v : Volu) : Volu :=
  { v with fill := f v.fill, target := f v.target, error := f v.error }

/-- The mesh read back. -/
def backMesh (f : ℚ → ℚ) (m : Mesh) : Mesh :=
  { verts := m.verts.map (backVert f), edges := m.edges, surfs := m.surfs.map (backSurf f),
    volus := m.volus.map (backVolu f) }

theorem reads_volu (rd : ℚ → ℚ) (v : Volu) :
    Reads (rVolu rd) (wVolu v) (backVolu (fun x => rd (rounded 16 x)) v) := by
  unfold wVolu rVolu
  refine Reads.bind (reads_int _) (Reads.bind (reads_real _ _ _) (Reads.bind (reads_real _ _ _)
    (Reads.bind (reads_real _ _ _) (Reads.bind (reads_int _) (Reads.bind (reads_ints _) ?_)))))
  rw [boolInt_ne]
  exact Reads.newline _

theorem reads_surf (rd : ℚ → ℚ) (s : Surf) :
    Reads (rSurf rd) (wSurf s) (backSurf (fun x => rd (rounded 16 x)) s) := by
  unfold wSurf rSurf
  refine Reads.bind (reads_int _) (Reads.bind (reads_real _ _ _) (Reads.bind (reads_real _ _ _)
    (Reads.bind (reads_real _ _ _) (Reads.bind (reads_int _) (Reads.bind (reads_ints _)
    (Reads.bind (reads_ints _) ?_))))))
  rw [boolInt_ne]
  exact Reads.newline _

theorem reads_edge (e : Edge) : Reads rEdge (wEdge e) e := by
  unfold wEdge rEdge
  refine Reads.bind (reads_int _) (Reads.bind (reads_int _) (Reads.bind (reads_ints _)
    (Reads.bind (reads_ints _) ?_)))
  rw [boolInt_ne]
  exact Reads.newline _

theorem reads_vert (rd : ℚ → ℚ) (v : Vert) :
    Reads (rVert rd) (wVert v) (backVert (fun x => rd (rounded 16 x)) v) := by
  unfold wVert rVert
  refine Reads.bind (reads_int _) (Reads.bind (reads_int _) (Reads.bind (reads_ints _)
    (Reads.bind (reads_reals _ _) ?_)))
  rw [boolInt_ne]
  exact Reads.newline _

theorem reads_array {α : Type} {r : Scan α} {w : α → Str} {f : α → α} (b : Bool) (l : List α)
    (h : ∀ a ∈ l, Reads r (w a) (f a)) : Reads (rArray r) (wArray w b l) (b, l.map f) := by
  unfold rArray wArray
  refine Reads.bind (reads_int _) (Reads.bind (reads_int _) ?_)
  show Reads (rSize (l.length : Int) >>= fun k => rMany r k >>= fun t =>
    Pure.pure (boolInt b != 0, t)) _ _
  rw [reads_size, boolInt_ne]
  apply Reads.after
  show Reads (rMany r l.length >>= fun t => Pure.pure (b, t)) _ _
  have h2 := Reads.bind (f := fun t => Pure.pure (b, t)) (reads_many h) (Reads.pure (b, l.map f))
  rw [List.append_nil] at h2
  exact h2

theorem reads_mesh (rd : ℚ → ℚ) (fl : Fin 4 → Bool) (m : Mesh) :
    Reads (readMesh rd) (writeMesh fl m) (backMesh (fun x => rd (rounded 16 x)) m) := by
  unfold readMesh writeMesh
  refine Reads.bind (reads_array (f := backVert _) _ _ (fun v _ => reads_vert rd v)) ?_
  refine Reads.bind (reads_array (f := id) _ _ (fun e _ => reads_edge e)) ?_
  refine Reads.bind (reads_array (f := backSurf _) _ _ (fun v _ => reads_surf rd v)) ?_
  have h := Reads.bind (f := fun (volus : Bool × List Volu) => Pure.pure
      ({ verts := m.verts.map (backVert (fun x => rd (rounded 16 x))), edges := m.edges.map id,
         surfs := m.surfs.map (backSurf (fun x => rd (rounded 16 x))), volus := volus.2 } : Mesh))
    (reads_array (f := backVolu (fun x => rd (rounded 16 x))) (fl 3) m.volus
      (fun v _ => reads_volu rd v)) (Reads.pure _)
  rw [List.append_nil] at h
  have h2 : backMesh (fun x => rd (rounded 16 x)) m =
      { verts := m.verts.map (backVert (fun x => rd (rounded 16 x))), edges := m.edges.map id,
         surfs := m.surfs.map (backSurf (fun x => rd (rounded 16 x))),
         volus := m.volus.map (backVolu (fun x => rd (rounded 16 x))) } := by
    unfold backMesh; rw [List.map_id]
  rw [h2]
  exact h

/-- The snaxel read back. -/
def backSnax (f : ℚ → ℚ) (s : Snax) : Snax := { s with d := f s.d, v := f s.v }

/-- The snake edge or surface read back. -/
def backPart (f : ℚ → ℚ) (s : SnaxPart) : SnaxPart :=
  { s with n0 := f s.n0, n1 := f s.n1, n2 := f s.n2 }

theorem reads_snax (rd : ℚ → ℚ) (s : Snax) :
    Reads (rSnax rd) (wSnax s) (backSnax (fun x => rd (rounded 6 x)) s) := by
  unfold wSnax rSnax
  refine Reads.bind (reads_int _) (Reads.bind (reads_real _ _ _) (Reads.bind (reads_real _ _ _)
    (Reads.bind (reads_int _) (Reads.bind (reads_int _) (Reads.bind (reads_int _)
    (Reads.bind (reads_int _) (Reads.bind (reads_int _) ?_)))))))
  exact Reads.newline _

theorem reads_part (rd : ℚ → ℚ) (s : SnaxPart) :
    Reads (rPart rd) (wPart s) (backPart (fun x => rd (rounded 6 x)) s) := by
  unfold wPart rPart
  refine Reads.bind (reads_int _) (Reads.bind (reads_int _) (Reads.bind (reads_real _ _ _)
    (Reads.bind (reads_real _ _ _) (Reads.bind (reads_real _ _ _) ?_))))
  exact Reads.newline _

/-- The snake read back. -/
def backSnake (f g : ℚ → ℚ) (s : SnakeFile) : SnakeFile :=
  { snaxs := s.snaxs.map (backSnax f), snaxedges := s.snaxedges.map (backPart f),
    snaxsurfs := s.snaxsurfs.map (backPart f), snakeconn := backMesh g s.snakeconn }

theorem reads_snake (rd : ℚ → ℚ) (fs : Fin 3 → Bool) (fl : Fin 4 → Bool) (s : SnakeFile) :
    Reads (readSnake rd) (writeSnake fs fl s)
      (backSnake (fun x => rd (rounded 6 x)) (fun x => rd (rounded 16 x)) s) := by
  unfold readSnake writeSnake
  refine Reads.bind (reads_array (f := backSnax _) _ _ (fun v _ => reads_snax rd v)) ?_
  refine Reads.bind (reads_array (f := backPart _) _ _ (fun v _ => reads_part rd v)) ?_
  refine Reads.bind (reads_array (f := backPart _) _ _ (fun v _ => reads_part rd v)) ?_
  have h := Reads.bind (f := fun (c : Mesh) => Pure.pure
      ({ snaxs := s.snaxs.map (backSnax (fun x => rd (rounded 6 x))),
         snaxedges := s.snaxedges.map (backPart (fun x => rd (rounded 6 x))),
         snaxsurfs := s.snaxsurfs.map (backPart (fun x => rd (rounded 6 x))),
         snakeconn := c } : SnakeFile))
    (reads_mesh rd fl s.snakeconn) (Reads.pure _)
  rw [List.append_nil] at h
  exact h

theorem dropSpace_printInt (i : Int) (t : Str) : dropSpace (printInt i ++ t) = printInt i ++ t := by
  unfold printInt
  split_ifs
  · rw [List.cons_append, dropSpace_not (by decide)]
  · rw [dropSpace_dec]

theorem dropSpace_writeMesh (fl : Fin 4 → Bool) (m : Mesh) (t : Str) :
    dropSpace (writeMesh fl m ++ t) = writeMesh fl m ++ t := by
  unfold writeMesh wArray wInt
  simp only [List.append_assoc]
  exact dropSpace_printInt _ _

theorem dropSpace_writeSnake (fs : Fin 3 → Bool) (fl : Fin 4 → Bool) (s : SnakeFile) (t : Str) :
    dropSpace (writeSnake fs fl s ++ t) = writeSnake fs fl s ++ t := by
  unfold writeSnake wArray wInt
  simp only [List.append_assoc]
  exact dropSpace_printInt _ _

theorem closeMesh_back {eps : ℚ} {f : ℚ → ℚ} {P : ℚ → Prop} (h : ∀ x, P x → |f x - x| ≤ eps)
    {m : Mesh} (hm : MeshValues P m) : CloseMesh eps m (backMesh f m) := by
  obtain ⟨h1, h2, h3⟩ := hm
  refine ⟨?_, ?_, ?_, ?_⟩
  · show List.Forall₂ _ m.verts (m.verts.map (backVert f))
    rw [List.forall₂_map_right_iff, List.forall₂_same]
    intro v hv
    refine ⟨rfl, rfl, rfl, ?_⟩
    show List.Forall₂ _ v.coord (v.coord.map f)
    rw [List.forall₂_map_right_iff, List.forall₂_same]
    exact fun x hx => h x (h1 v hv x hx)
  · show List.Forall₂ _ m.edges m.edges
    rw [List.forall₂_same]
    exact fun e _ => ⟨rfl, rfl, rfl, rfl⟩
  · show List.Forall₂ _ m.surfs (m.surfs.map (backSurf f))
    rw [List.forall₂_map_right_iff, List.forall₂_same]
    intro s hs
    obtain ⟨a, b, c⟩ := h2 s hs
    exact ⟨rfl, rfl, rfl, rfl, h _ a, h _ b, h _ c⟩
  · show List.Forall₂ _ m.volus (m.volus.map (backVolu f))
    rw [List.forall₂_map_right_iff, List.forall₂_same]
    intro v hv
    obtain ⟨a, b, c⟩ := h3 v hv
    exact ⟨rfl, rfl, rfl, h _ a, h _ b, h _ c⟩

theorem closeSnake_back {eps eps' : ℚ} {f g : ℚ → ℚ} {P Q : ℚ → Prop}
    (h : ∀ x, P x → |f x - x| ≤ eps) (h' : ∀ x, Q x → |g x - x| ≤ eps')
    {s : SnakeFile} (hm : SnakeValues P Q s) : CloseSnake eps eps' s (backSnake f g s) := by
  obtain ⟨h1, h2, h3, h4⟩ := hm
  refine ⟨?_, ?_, ?_, closeMesh_back h' h4⟩
  · show List.Forall₂ _ s.snaxs (s.snaxs.map (backSnax f))
    rw [List.forall₂_map_right_iff, List.forall₂_same]
    intro v hv
    obtain ⟨a, b⟩ := h1 v hv
    exact ⟨rfl, rfl, rfl, rfl, rfl, rfl, h _ a, h _ b⟩
  · show List.Forall₂ _ s.snaxedges (s.snaxedges.map (backPart f))
    rw [List.forall₂_map_right_iff, List.forall₂_same]
    intro v hv
    obtain ⟨a, b, c⟩ := h2 v hv
    exact ⟨rfl, rfl, h _ a, h _ b, h _ c⟩
  · show List.Forall₂ _ s.snaxsurfs (s.snaxsurfs.map (backPart f))
    rw [List.forall₂_map_right_iff, List.forall₂_same]
    intro v hv
    obtain ⟨a, b, c⟩ := h3 v hv
    exact ⟨rfl, rfl, h _ a, h _ b, h _ c⟩

end RSVS.MeshIO
