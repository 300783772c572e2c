import Verif.Lemmas.FillFile

/-!
# C18, C42, C46: files of meshes and snakes, file of target fills
-/

namespace RSVS.Props

open RSVS RSVS.Text RSVS.MeshIO RSVS.Spec

/-- C18, the structure: the text written for a mesh is read back, whatever text follows, as a
mesh with the same elements in the same order, the same indices, the same connectivity (of
any length) and the same border flags; what is left is the text which follows without its
leading white space; the values differ by at most `10^-16`.
Not all of C18: the values are not always the same (see `C18_violated`). -/
theorem C18_structure_partial {rd : ℚ → ℚ} (hrd : ToDouble rd) (fl : Fin 4 → Bool) (m : Mesh)
    (hm : MeshValues IsDouble m) (rest : Str) :
    ∃ m' rest', readMesh rd (writeMesh fl m ++ rest) = .ok (m', rest') ∧
      AfterBlank rest rest' ∧ CloseMesh (1 / 10 ^ 16) m m' := by
  refine ⟨backMesh (fun x => rd (rounded 16 x)) m, dropSpace rest, ?_, dropSpace_spec rest,
    closeMesh_back (fun x hx => hrd.rounded_close 16 hx) hm⟩
  rw [← dropSpace_writeMesh]
  exact reads_mesh rd fl m rest

/-- C18, the values: if every value is a multiple of `10^-16` or has a size of at least one
half, all values are read back as they were, and the text which follows is left untouched if
it does not start with white space. -/
theorem C18_round_trip_partial {rd : ℚ → ℚ} (hrd : ToDouble rd) (fl : Fin 4 → Bool) (m : Mesh)
    (hm : MeshValues (fun x => IsDouble x ∧ (Decimal 16 x ∨ 1 / 2 ≤ |x|)) m) (rest : Str)
    (hrest : ∀ c r, rest = c :: r → ¬ Blank [c]) :
    ∃ m', readMesh rd (writeMesh fl m ++ rest) = .ok (m', rest) ∧ CloseMesh 0 m m' := by
  refine ⟨backMesh (fun x => rd (rounded 16 x)) m, ?_, closeMesh_back (fun x hx => ?_) hm⟩
  · rw [← dropSpace_writeMesh]
    have h : dropSpace rest = rest := by
      cases rest with
      | nil => rfl
      | cons c r =>
        apply dropSpace_not
        cases h : isSpace c with
        | false => rfl
        | true => exact absurd (blank_of_isSpace h) (hrest c r rfl)
    have h2 := reads_mesh rd fl m rest
    rw [h] at h2
    exact h2
  · show |rd (rounded 16 x) - x| ≤ 0
    rw [hrd.exact16 hx.1 hx.2, sub_self, abs_zero]

/-- The mesh of the examples: a vertex without edges, an edge, a surface with two volumes. -/
def ioMesh (x : ℚ) : Mesh :=
  { verts := [{ index := 1, edgeind := [], coord := [x, -3 / 4, 12] },
              { index := 2, edgeind := [10, -7], coord := [1, 1, 1], isBorder := true }]
    edges := [{ index := 10, vertind := [1, 2], surfind := [] }]
    surfs := [{ index := 5, edgeind := [10], voluind := [8, 0], target := 1 / 2 }]
    volus := [{ index := 8, surfind := [5] }] }

theorem isDouble_int {k : Int} (h : |k| < 2 ^ 53) : IsDouble (k : ℚ) :=
  ⟨k, 0, h, by norm_num, by norm_num, by norm_num⟩

theorem isDouble_quarter {k : Int} (h : |k| < 2 ^ 53) : IsDouble ((k : ℚ) / 4) :=
  ⟨k, -2, h, by norm_num, by norm_num, by norm_num [div_eq_mul_inv]⟩

theorem ioMesh_values {P : ℚ → Prop} {x : ℚ} (hx : P x) (h : ∀ k : Int, |k| < 100 → P ((k : ℚ) / 4)) :
    MeshValues P (ioMesh x) := by
  have e1 : P (-3 / 4) := by simpa using h (-3) (by norm_num)
  have e2 : P 12 := by have := h 48 (by norm_num); norm_num at this; exact this
  have e3 : P 1 := by have := h 4 (by norm_num); norm_num at this; exact this
  have e4 : P 0 := by have := h 0 (by norm_num); norm_num at this; exact this
  have e5 : P (1 / 2) := by have := h 2 (by norm_num); norm_num at this; norm_num; exact this
  refine ⟨?_, ?_, ?_⟩
  · intro v hv y hy
    simp only [ioMesh, List.mem_cons, List.not_mem_nil, or_false] at hv
    rcases hv with rfl | rfl
    · simp only [List.mem_cons, List.not_mem_nil, or_false] at hy
      rcases hy with rfl | rfl | rfl
      · exact hx
      · exact e1
      · exact e2
    · simp only [List.mem_cons, List.not_mem_nil, or_false, or_self] at hy
      rw [hy]; exact e3
  · intro s hs
    simp only [ioMesh, List.mem_cons, List.not_mem_nil, or_false] at hs
    subst hs
    exact ⟨e3, e5, e3⟩
  · intro s hs
    simp only [ioMesh, List.mem_cons, List.not_mem_nil, or_false] at hs
    subst hs
    exact ⟨e4, e3, e3⟩

theorem dec16_quarter (k : Int) : Decimal 16 ((k : ℚ) / 4) :=
  ⟨k * 2500000000000000, by push_cast; norm_num; ring⟩

example : ∃ rd, ToDouble rd ∧
    MeshValues (fun x => IsDouble x ∧ (Decimal 16 x ∨ 1 / 2 ≤ |x|)) (ioMesh (1 / 4)) ∧
    ∀ c r, ['$', 'x'] = c :: r → ¬ Blank [c] := by
  obtain ⟨rd, h⟩ := toDouble_exists
  have hq : ∀ k : Int, |k| < 100 → IsDouble ((k : ℚ) / 4) ∧
      (Decimal 16 ((k : ℚ) / 4) ∨ 1 / 2 ≤ |(k : ℚ) / 4|) := fun k hk =>
    ⟨isDouble_quarter (hk.trans (by norm_num)), Or.inl (dec16_quarter k)⟩
  refine ⟨rd, h, ioMesh_values ?_ hq, ?_⟩
  · simpa using hq 1 (by norm_num)
  · intro c r hc
    rw [← (List.cons.inj hc).1]; unfold Blank; decide

/-- The text of the first lines of that mesh. -/
example : (writeMesh (fun _ => true) (ioMesh (1 / 4))).take 95 =
    ("2 1 \n" ++ "1 0 0 3 0.2500000000000000 -0.7500000000000000 12.0000000000000000 \n" ++
      "2 1 2 10 -7 3 1.000000").toList := by
  decide +kernel

/-- C18 fails: a coordinate `2^-60`, which is a `double`, is read back as zero. -/
theorem C18_violated {rd : ℚ → ℚ} (hrd : ToDouble rd) (fl : Fin 4 → Bool) (rest : Str) :
    MeshValues IsDouble (ioMesh (1 / 2 ^ 60)) ∧
    ∃ m', readMesh rd (writeMesh fl (ioMesh (1 / 2 ^ 60)) ++ rest) = .ok (m', dropSpace rest) ∧
      m'.verts.map Vert.coord = [[0, -3 / 4, 12], [1, 1, 1]] ∧
      (ioMesh (1 / 2 ^ 60)).verts.map Vert.coord = [[1 / 2 ^ 60, -3 / 4, 12], [1, 1, 1]] := by
  refine ⟨ioMesh_values ⟨1, -60, by norm_num, by norm_num, by norm_num, by norm_num⟩
    (fun k hk => isDouble_quarter (hk.trans (by norm_num))),
    backMesh (fun x => rd (rounded 16 x)) (ioMesh (1 / 2 ^ 60)), ?_, ?_, rfl⟩
  · rw [← dropSpace_writeMesh]
    exact reads_mesh rd fl _ rest
  · have h0 : rounded 16 (1 / 2 ^ 60) = 0 := by decide +kernel
    have hq : ∀ k : Int, |k| < 100 → rd (rounded 16 ((k : ℚ) / 4)) = (k : ℚ) / 4 := fun k hk =>
      hrd.rounded_exact (isDouble_quarter (hk.trans (by norm_num))) (dec16_quarter k)
    have e1 : rd (rounded 16 (-3 / 4)) = -3 / 4 := by simpa using hq (-3) (by norm_num)
    have e2 : rd (rounded 16 12) = 12 := by have := hq 48 (by norm_num); norm_num at this; exact this
    have e3 : rd (rounded 16 1) = 1 := by have := hq 4 (by norm_num); norm_num at this; exact this
    have e4 : rd (rounded 16 (1 / 2 ^ 60)) = 0 := by rw [h0]; exact hrd.fix isDouble_zero
    show [[rd (rounded 16 (1 / 2 ^ 60)), rd (rounded 16 (-3 / 4)), rd (rounded 16 12)],
      [rd (rounded 16 1), rd (rounded 16 1), rd (rounded 16 1)]] = _
    rw [e1, e2, e3, e4]

/-- C42, the structure: the text written for a snake is read back, whatever text follows, as a
snake with the same snaxels, snake edges, snake surfaces and connectivity; positions, speeds
and normals differ by at most `10^-6`, the values of the mesh by at most `10^-16`.
Not all of C42: the positions are not the same (see `C42_violated`). -/
theorem C42_structure_partial {rd : ℚ → ℚ} (hrd : ToDouble rd) (fs : Fin 3 → Bool)
    (fl : Fin 4 → Bool) (s : SnakeFile) (hs : SnakeValues IsDouble IsDouble s) (rest : Str) :
    ∃ s' rest', readSnake rd (writeSnake fs fl s ++ rest) = .ok (s', rest') ∧
      AfterBlank rest rest' ∧ CloseSnake (1 / 10 ^ 6) (1 / 10 ^ 16) s s' := by
  refine ⟨backSnake (fun x => rd (rounded 6 x)) (fun x => rd (rounded 16 x)) s, dropSpace rest,
    ?_, dropSpace_spec rest,
    closeSnake_back (fun x hx => hrd.rounded_close 6 hx) (fun x hx => hrd.rounded_close 16 hx) hs⟩
  rw [← dropSpace_writeSnake]
  exact reads_snake rd fs fl s rest

/-- C42 for positions with six decimals: the snake read back is the snake written. -/
theorem C42_round_trip_partial {rd : ℚ → ℚ} (hrd : ToDouble rd) (fs : Fin 3 → Bool)
    (fl : Fin 4 → Bool) (s : SnakeFile)
    (hs : SnakeValues (fun x => IsDouble x ∧ Decimal 6 x)
      (fun x => IsDouble x ∧ (Decimal 16 x ∨ 1 / 2 ≤ |x|)) s) (rest : Str) :
    ∃ s' rest', readSnake rd (writeSnake fs fl s ++ rest) = .ok (s', rest') ∧
      AfterBlank rest rest' ∧ CloseSnake 0 0 s s' := by
  refine ⟨backSnake (fun x => rd (rounded 6 x)) (fun x => rd (rounded 16 x)) s, dropSpace rest,
    ?_, dropSpace_spec rest, closeSnake_back (fun x hx => ?_) (fun x hx => ?_) hs⟩
  · rw [← dropSpace_writeSnake]
    exact reads_snake rd fs fl s rest
  · show |rd (rounded 6 x) - x| ≤ 0
    rw [hrd.rounded_exact hx.1 hx.2, sub_self, abs_zero]
  · show |rd (rounded 16 x) - x| ≤ 0
    rw [hrd.exact16 hx.1 hx.2, sub_self, abs_zero]

/-- The snake of the examples. -/
def ioSnake (d : ℚ) : SnakeFile :=
  { snaxs := [{ index := 1, d := d, v := 1 / 4, fromvert := 3, tovert := 4, edgeind := 9,
                isfreeze := 0, orderedge := 1 }]
    snaxedges := [{ index := 10, parent := 5, n0 := 1 / 4, n1 := 1 / 4, n2 := 1 / 4 }]
    snaxsurfs := []
    snakeconn := ioMesh (1 / 4) }

theorem ioSnake_values {P Q : ℚ → Prop} {d : ℚ} (hd : P d) (hP : P (1 / 4))
    (hQ : ∀ k : Int, |k| < 100 → Q ((k : ℚ) / 4)) : SnakeValues P Q (ioSnake d) := by
  refine ⟨?_, ?_, ?_, ioMesh_values (by simpa using hQ 1 (by norm_num)) hQ⟩
  · intro x hx
    simp only [ioSnake, List.mem_cons, List.not_mem_nil, or_false] at hx
    subst hx
    exact ⟨hd, hP⟩
  · intro x hx
    simp only [ioSnake, List.mem_cons, List.not_mem_nil, or_false] at hx
    subst hx
    exact ⟨hP, hP, hP⟩
  · intro x hx
    simp [ioSnake] at hx

example : SnakeValues (fun x => IsDouble x ∧ Decimal 6 x)
    (fun x => IsDouble x ∧ (Decimal 16 x ∨ 1 / 2 ≤ |x|)) (ioSnake (1 / 4)) := by
  have hP : IsDouble (1 / 4) ∧ Decimal 6 (1 / 4) :=
    ⟨by simpa using isDouble_quarter (k := 1) (by norm_num), 250000, by norm_num⟩
  exact ioSnake_values hP hP (fun k hk =>
    ⟨isDouble_quarter (hk.trans (by norm_num)), Or.inl (dec16_quarter k)⟩)

/-- C42 fails: a snaxel which has moved by `2^-21` along its edge is read back at its
start. -/
theorem C42_violated {rd : ℚ → ℚ} (hrd : ToDouble rd) (fs : Fin 3 → Bool) (fl : Fin 4 → Bool)
    (rest : Str) :
    SnakeValues IsDouble IsDouble (ioSnake (1 / 2 ^ 21)) ∧
    ∃ s', readSnake rd (writeSnake fs fl (ioSnake (1 / 2 ^ 21)) ++ rest) =
        .ok (s', dropSpace rest) ∧
      s'.snaxs.map Snax.d = [0] ∧ (ioSnake (1 / 2 ^ 21)).snaxs.map Snax.d = [1 / 2 ^ 21] := by
  refine ⟨ioSnake_values ⟨1, -21, by norm_num, by norm_num, by norm_num, by norm_num⟩
    (by simpa using isDouble_quarter (k := 1) (by norm_num))
    (fun k hk => isDouble_quarter (hk.trans (by norm_num))),
    backSnake (fun x => rd (rounded 6 x)) (fun x => rd (rounded 16 x))
      (ioSnake (1 / 2 ^ 21)), ?_, ?_, rfl⟩
  · rw [← dropSpace_writeSnake]
    exact reads_snake rd fs fl _ rest
  · have h0 : rounded 6 (1 / 2 ^ 21) = 0 := by decide +kernel
    show [rd (rounded 6 (1 / 2 ^ 21))] = [0]
    rw [h0, hrd.fix isDouble_zero]

/-- C46 for a file which ends after its last number, in any white space layout: cell `i` gets
the value number `i` modulo the number of values, and nothing else changes.  The same holds
for a file with white space at its end if there are at least as many values as cells. -/
theorem C46_cyclic_partial (rd : ℚ → ℚ) {l : List Numeral} {s w : Str} (hs : Layout l s)
    (hw : Blank w) (m : Mesh) (hdim : m.meshDim = 2 ∨ m.meshDim = 3)
    (hend : w = [] ∨ cells m ≤ l.length) :
    loadTargetFill rd m (s ++ w) =
      .ok (withTargets (repeated (l.map (fun n => rd n.value))) m) := by
  have hne : l.map (fun n => rd n.value) ≠ [] := by
    intro h0
    rw [List.map_eq_nil_iff.mp h0] at hs
    cases hs
  apply loadTargetFill_ok hdim
  have hloop : fillLoop rd (cells m) none (s ++ w) false =
      .ok ((l.map (fun n => rd n.value)).take (cells m)) := by
    by_cases h0 : w = []
    · rw [h0, List.append_nil]
      exact fillLoop_layout rd hs _ _
    · have hc : cells m ≤ l.length := by
        rcases hend with h | h
        · exact absurd h h0
        · exact h
      rw [fillLoop_trailing rd hs hw h0, List.map_append, List.take_append_of_le_length]
      rw [List.length_map]; exact hc
  unfold targetVals
  rw [hloop]
  exact spread_take _ _ hne

/-- C46 in the remaining case, white space at the end of the file and more cells than values:
the last value is used twice in each repetition. -/
theorem C46_trailing_partial (rd : ℚ → ℚ) {l : List Numeral} {n : Numeral} {s w : Str}
    (hs : Layout (l ++ [n]) s) (hw : Blank w) (hne : w ≠ []) (m : Mesh)
    (hdim : m.meshDim = 2 ∨ m.meshDim = 3) :
    loadTargetFill rd m (s ++ w) =
      .ok (withTargets (repeated ((l ++ [n, n]).map (fun n => rd n.value))) m) := by
  apply loadTargetFill_ok hdim
  unfold targetVals
  rw [fillLoop_trailing rd hs hw hne]
  have h1 : l ++ [n] ++ (l ++ [n]).getLast?.toList = l ++ [n, n] := by
    rw [List.getLast?_concat]; simp
  rw [h1]
  exact spread_take _ _ (by simp)

/-- The number 0.25. -/
def fillA : Numeral := { whole := [0], frac := some [2, 5] }

/-- The number 7.5e-1. -/
def fillB : Numeral := { whole := [7], frac := some [5], exp := some (some true, [1]) }

theorem fillNums_layout : Layout [fillA, fillB] "\t0.25\n 7.5e-1".toList := by
  have h := Layout.more (n := fillA) (b := ['\t'])
    (b' := ['\n', ' '])
    (⟨Or.inl (by simp [fillA]), by simp [fillA]⟩) (by unfold Blank; decide) (by unfold Blank; decide) (by simp)
    (Layout.one (n := fillB) (b := [])
      (⟨Or.inl (by simp [fillB]), by intro s e h; cases h; simp⟩) (by unfold Blank; decide))
  exact h

theorem fillA_value : fillA.value = 1 / 4 := by decide +kernel

theorem fillB_value : fillB.value = 3 / 4 := by decide +kernel

/-- Three cells in two dimensions. -/
def fillMesh : Mesh :=
  { verts := [], edges := [],
    surfs := [{ index := 1, edgeind := [], voluind := [] },
      { index := 2, edgeind := [], voluind := [] }, { index := 3, edgeind := [], voluind := [] }],
    volus := [], meshDim := 2 }

example : Layout [fillA, fillB] "\t0.25\n 7.5e-1".toList ∧ Blank [] ∧
    (fillMesh.meshDim = 2 ∨ fillMesh.meshDim = 3) ∧
    ∀ rd, ToDouble rd → (loadTargetFill rd fillMesh "\t0.25\n 7.5e-1".toList).map
      (fun m => m.surfs.map Surf.target) = .ok [1 / 4, 3 / 4, 1 / 4] := by
  refine ⟨fillNums_layout, by unfold Blank; simp, Or.inl rfl, fun rd hrd => ?_⟩
  have h := C46_cyclic_partial rd fillNums_layout (w := []) (by unfold Blank; simp) fillMesh
    (Or.inl rfl) (Or.inl rfl)
  rw [List.append_nil] at h
  rw [h]
  have e1 : rd fillA.value = 1 / 4 := by
    rw [fillA_value]; exact hrd.fix (by simpa using isDouble_quarter (k := 1) (by norm_num))
  have e2 : rd fillB.value = 3 / 4 := by
    rw [fillB_value]; exact hrd.fix (by simpa using isDouble_quarter (k := 3) (by norm_num))
  simp only [List.map_cons, List.map_nil, e1, e2]
  rfl

/-- C46 fails for a file ending with a new line: of the values 0.25 and 0.75 for three cells,
the third cell gets 0.75 and not 0.25. -/
theorem C46_violated {rd : ℚ → ℚ} (hrd : ToDouble rd) :
    Layout [fillA, fillB] "\t0.25\n 7.5e-1".toList ∧
    (loadTargetFill rd fillMesh ("\t0.25\n 7.5e-1".toList ++ ['\n'])).map
      (fun m => m.surfs.map Surf.target) = .ok [1 / 4, 3 / 4, 3 / 4] ∧
    (withTargets (repeated [rd fillA.value, rd fillB.value]) fillMesh).surfs.map Surf.target =
      [1 / 4, 3 / 4, 1 / 4] := by
  have e1 : rd fillA.value = 1 / 4 := by
    rw [fillA_value]; exact hrd.fix (by simpa using isDouble_quarter (k := 1) (by norm_num))
  have e2 : rd fillB.value = 3 / 4 := by
    rw [fillB_value]; exact hrd.fix (by simpa using isDouble_quarter (k := 3) (by norm_num))
  refine ⟨fillNums_layout, ?_, ?_⟩
  · rw [C46_trailing_partial rd (l := [fillA]) (n := fillB) fillNums_layout (w := ['\n'])
      (by unfold Blank; decide) (by simp) fillMesh (Or.inl rfl)]
    simp only [List.map_cons, List.map_nil, List.cons_append, List.nil_append, e1, e2]
    rfl
  · rw [e1, e2]
    rfl

end RSVS.Props
