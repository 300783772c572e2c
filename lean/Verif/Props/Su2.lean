import Verif.Lemmas.Su2

/-!
# C102: the file of a tetrahedral mesh holds the mesh
-/

namespace RSVS.Props

open RSVS.Su2 RSVS.Spec

variable {K : Type} [Inhabited K]

/-- The point `i` of the arrays. -/
def pointOf (t : Out K) (i : Nat) : K × K × K := (t.pointlist.getD (3 * i) default, t.pointlist.getD (3 * i + 1) default, t.pointlist.getD (3 * i + 2) default)

/-- The corners of the tetrahedron `i` counted from 0. -/
def tetOf (t : Out K) (i : Nat) : Int × Int × Int × Int :=
  let z : Int := if t.firstnumber = 0 then 0 else 1
  (t.tetrahedronlist.getD (t.numberofcorners * i) 0 - z, t.tetrahedronlist.getD (t.numberofcorners * i + 1) 0 - z,
    t.tetrahedronlist.getD (t.numberofcorners * i + 2) 0 - z, t.tetrahedronlist.getD (t.numberofcorners * i + 3) 0 - z)

/-- The corners of the face `i` counted from 0. -/
def triOf (t : Out K) (i : Nat) : Int × Int × Int :=
  let z : Int := if t.firstnumber = 0 then 0 else 1
  (t.trifacelist.getD (3 * i) 0 - z, t.trifacelist.getD (3 * i + 1) 0 - z, t.trifacelist.getD (3 * i + 2) 0 - z)

/-- The marker of the face `i`. -/
def markerOf (t : Out K) (i : Nat) : Int := t.trifacemarkerlist.getD i 0

/-- The faces with the marker `m`, in order. -/
def trisOf (t : Out K) (m : Int) : List (Int × Int × Int) :=
  ((List.range t.numberoftrifaces).filter fun i => markerOf t i = m).map (triOf t)

omit [Inhabited K] in
theorem triLines_ok {t : Out K} (h : Su2Valid t) (tag : Int) :
    ((List.range t.numberoftrifaces).mapM (m := Except Fault) (triLine t tag)).map (fun l => l.flatten) =
      .ok (((List.range t.numberoftrifaces).filter fun i => markerOf t i = tag).map fun i => Line.tri (triOf t i).1 (triOf t i).2.1 (triOf t i).2.2) := by
  have key : ∀ is : List Nat, (∀ i ∈ is, i < t.numberoftrifaces) → (is.mapM (m := Except Fault) (triLine t tag)).map (fun l => l.flatten) =
      .ok ((is.filter fun i => markerOf t i = tag).map fun i => Line.tri (triOf t i).1 (triOf t i).2.1 (triOf t i).2.2) := by
    intro is his
    rw [mapM_ok (g := fun i => if markerOf t i = tag then [Line.tri (triOf t i).1 (triOf t i).2.1 (triOf t i).2.2] else [])]
    · simp only [Except.map]
      congr 1
      induction is with
      | nil => rfl
      | cons i is ih =>
        simp only [List.map_cons, List.flatten_cons, List.filter_cons]
        rw [ih fun j hj => his j (by simp [hj])]
        by_cases e : markerOf t i = tag <;> simp [e]
    · intro i hi
      have hi := his i hi
      have h1 := h.tris
      have h2 := h.markers
      unfold triLine
      have hmk : markerOf t i = t.trifacemarkerlist[i]'(by omega) := by
        unfold markerOf; simp [List.getElem?_eq_getElem (show i < t.trifacemarkerlist.length by omega)]
      have hget : ∀ (j : Nat) (_ : j < 3), t.trifacelist.getD (3 * i + j) 0 = t.trifacelist[i * 3 + j]'(by omega) := by
        intro j hj
        rw [mul_comm 3 i]
        simp [List.getElem?_eq_getElem (show i * 3 + j < t.trifacelist.length by omega)]
      rw [vecGet_some (by omega : i < t.trifacemarkerlist.length)]
      simp only [Except.bind]
      rw [← hmk]
      by_cases e : markerOf t i = tag
      · rw [if_pos e, if_pos e, vecGet_some (by omega : i * 3 + 0 < _), vecGet_some (by omega : i * 3 + 1 < _), vecGet_some (by omega : i * 3 + 2 < _)]
        have g0 := hget 0 (by decide)
        rw [Nat.add_zero] at g0
        simp only [Except.map, triOf, g0, hget 1 (by decide), hget 2 (by decide), deincr]
        split_ifs <;> simp_all [sub_eq_add_neg]
      · rw [if_neg e, if_neg e]
  exact key _ fun i hi => List.mem_range.mp hi

omit [Inhabited K] in
theorem readMarks_ok {t : Out K} (diff : List Int) (rest : List (Line K)) :
    readMarks diff.length ((diff.map fun m => Line.tag m :: Line.elems ((trisOf t m).length : Int) ::
      ((List.range t.numberoftrifaces).filter fun i => markerOf t i = m).map fun i => Line.tri (triOf t i).1 (triOf t i).2.1 (triOf t i).2.2).flatten ++ rest) =
      some (diff.map fun m => (m, trisOf t m), rest) := by
  induction diff with
  | nil => rfl
  | cons m diff ih =>
    simp only [List.map_cons, List.flatten_cons, List.cons_append, List.length_cons, readMarks, List.append_assoc]
    rw [if_neg (by omega), Int.toNat_natCast]
    have hl : (trisOf t m).length = ((List.range t.numberoftrifaces).filter fun i => markerOf t i = m).length := by simp [trisOf]
    rw [hl, readN_ok asTri (fun i => Line.tri (triOf t i).1 (triOf t i).2.1 (triOf t i).2.2) (triOf t) (fun _ => rfl)]
    simp only [Option.bind_some]
    rw [ih]
    rfl

/-- C102: for all arrays that are as long as the counts say, the code writes a file without reading outside of the arrays, and a reader
of the format finds in it exactly the points, the tetrahedra with corners counted from 0, and for each marker but 0 that some face has,
once, the faces with this marker in order. -/
theorem C102_file {t : Out K} (h : Su2Valid t) :
    ∃ lines r, write t = .ok lines ∧ readSu2 lines = some r ∧
      r.points = (List.range t.numberofpoints).map (pointOf t) ∧
      r.tets = (List.range t.numberoftetrahedra).map (tetOf t) ∧
      (r.marks.map Prod.fst).Nodup ∧
      (∀ m, m ∈ r.marks.map Prod.fst ↔ m ≠ 0 ∧ ∃ i < t.numberoftrifaces, markerOf t i = m) ∧
      ∀ m l, (m, l) ∈ r.marks → l = trisOf t m := by
  obtain ⟨s, hs, hb⟩ := bounds_ok (t := t) h.markers
  have hpts : (List.range t.numberofpoints).mapM (m := Except Fault) (pointLine t) =
      .ok ((List.range t.numberofpoints).map fun i => Line.point (pointOf t i).1 (pointOf t i).2.1 (pointOf t i).2.2) := by
    apply mapM_ok
    intro i hi
    have hi := List.mem_range.mp hi
    have h1 := h.points
    unfold pointLine
    have hget : ∀ (j : Nat) (_ : j < 3), t.pointlist.getD (3 * i + j) default = t.pointlist[i * 3 + j]'(by omega) := by
      intro j hj
      rw [mul_comm 3 i]
      simp [List.getElem?_eq_getElem (show i * 3 + j < t.pointlist.length by omega)]
    have g0 := hget 0 (by decide)
    rw [Nat.add_zero] at g0
    rw [vecGet_some (by omega : i * 3 + 0 < _), vecGet_some (by omega : i * 3 + 1 < _), vecGet_some (by omega : i * 3 + 2 < _)]
    simp only [Except.bind, Except.map, pointOf, g0, hget 1 (by decide), hget 2 (by decide)]
  have htets : (List.range t.numberoftetrahedra).mapM (m := Except Fault) (tetLine t) =
      .ok ((List.range t.numberoftetrahedra).map fun i => Line.tet (tetOf t i).1 (tetOf t i).2.1 (tetOf t i).2.2.1 (tetOf t i).2.2.2) := by
    apply mapM_ok
    intro i hi
    have hi := List.mem_range.mp hi
    have h1 := h.tets
    have h2 := h.corners
    have h3 : i * t.numberofcorners + t.numberofcorners ≤ t.tetrahedronlist.length := by
      calc i * t.numberofcorners + t.numberofcorners = (i + 1) * t.numberofcorners := (Nat.succ_mul _ _).symm
        _ ≤ t.numberoftetrahedra * t.numberofcorners := Nat.mul_le_mul_right _ hi
        _ ≤ _ := h1
    unfold tetLine
    have hget : ∀ (j : Nat) (_ : j < 4), t.tetrahedronlist.getD (t.numberofcorners * i + j) 0 = t.tetrahedronlist[i * t.numberofcorners + j]'(by omega) := by
      intro j hj
      rw [mul_comm t.numberofcorners i]
      simp [List.getElem?_eq_getElem (show i * t.numberofcorners + j < t.tetrahedronlist.length by omega)]
    have g0 := hget 0 (by decide)
    rw [Nat.add_zero] at g0
    rw [vecGet_some (by omega : i * t.numberofcorners + 0 < _), vecGet_some (by omega : i * t.numberofcorners + 1 < _),
      vecGet_some (by omega : i * t.numberofcorners + 2 < _), vecGet_some (by omega : i * t.numberofcorners + 3 < _)]
    simp only [Except.bind, Except.map, tetOf, g0, hget 1 (by decide), hget 2 (by decide), hget 3 (by decide), deincr]
    split_ifs <;> simp_all [sub_eq_add_neg]
  obtain ⟨diff, hdiff⟩ : ∃ diff, s.1 = 0 :: diff := by
    have := hb.head
    cases hs1 : s.1 with
    | nil => rw [hs1] at this; simp at this
    | cons a r => rw [hs1] at this; simp only [List.head?_cons, Option.some.injEq] at this; exact ⟨r, by rw [this]⟩
  have hmk : ∀ i < t.numberoftrifaces, t.trifacemarkerlist[i]? = some (markerOf t i) := by
    intro i hi
    have := h.markers
    unfold markerOf
    simp [List.getElem?_eq_getElem (show i < t.trifacemarkerlist.length by omega)]
  have htake : t.trifacemarkerlist.take t.numberoftrifaces = (List.range t.numberoftrifaces).map (markerOf t) := by
    apply List.ext_getElem?
    intro i
    by_cases hi : i < t.numberoftrifaces
    · rw [List.getElem?_take_of_lt hi, hmk i hi, List.getElem?_map, List.getElem?_range hi]; rfl
    · rw [List.getElem?_eq_none (by simp; omega), List.getElem?_eq_none (by simp; omega)]
  have hcount : ∀ m, (t.trifacemarkerlist.take t.numberoftrifaces).count m = (trisOf t m).length := by
    intro m
    rw [htake]
    rw [List.count_eq_countP, List.countP_map, List.countP_eq_length_filter]
    simp only [trisOf, List.length_map]
    congr 1
  have hmarks : (List.range (s.1.length - 1)).mapM (m := Except Fault) (fun k => markLines t s (k + 1)) =
      .ok (diff.map fun m => Line.tag m :: Line.elems ((trisOf t m).length : Int) ::
        ((List.range t.numberoftrifaces).filter fun i => markerOf t i = m).map fun i => Line.tri (triOf t i).1 (triOf t i).2.1 (triOf t i).2.2) := by
    have hd : diff = (List.range (s.1.length - 1)).map fun k => diff.getD k 0 := by
      apply List.ext_getElem?
      intro i
      by_cases hi : i < diff.length
      · rw [List.getElem?_map, List.getElem?_range (by simp [hdiff]; omega), List.getElem?_eq_getElem hi]
        simp [List.getElem?_eq_getElem hi]
      · rw [List.getElem?_eq_none (by omega), List.getElem?_eq_none (by simp [hdiff]; omega)]
    conv_rhs => rw [hd, List.map_map]
    apply mapM_ok
    intro k hk
    have hk : k < diff.length := by have := List.mem_range.mp hk; simpa [hdiff] using this
    unfold markLines
    have h1 : vecGet s.1 ((k + 1 : Nat) : Int) = .ok (diff.getD k 0) := by
      rw [hdiff, vecGet_some (by simp; omega)]
      simp [List.getElem?_eq_getElem hk]
    have h2 : vecGet s.2 ((k + 1 : Nat) : Int) = .ok ((trisOf t (diff.getD k 0)).length) := by
      rw [hb.num, hdiff, vecGet_some (by simp; omega)]
      simp only [List.getElem_map, List.getElem_cons_succ, hcount]
      simp [List.getElem?_eq_getElem hk]
    rw [h1, h2]
    have := triLines_ok h (diff.getD k 0)
    simp only [Except.bind]
    cases hq : (List.range t.numberoftrifaces).mapM (m := Except Fault) (triLine t (diff.getD k 0)) with
    | error e => rw [hq] at this; simp [Except.map] at this
    | ok l =>
      rw [hq] at this
      simp only [Except.map, Except.ok.injEq] at this
      simp only [Except.map, Function.comp, this]
  have hw : write t = .ok ([.ndime 3, .npoin t.numberofpoints] ++
      ((List.range t.numberofpoints).map fun i => Line.point (pointOf t i).1 (pointOf t i).2.1 (pointOf t i).2.2) ++ [.nelem t.numberoftetrahedra] ++
      ((List.range t.numberoftetrahedra).map fun i => Line.tet (tetOf t i).1 (tetOf t i).2.1 (tetOf t i).2.2.1 (tetOf t i).2.2.2) ++
      [.nmark ((s.1.length : Int) - 1)] ++ (diff.map fun m => Line.tag m :: Line.elems ((trisOf t m).length : Int) ::
        ((List.range t.numberoftrifaces).filter fun i => markerOf t i = m).map fun i => Line.tri (triOf t i).1 (triOf t i).2.1 (triOf t i).2.2).flatten) := by
    unfold write
    rw [hpts]
    simp only [Except.bind]
    rw [htets]
    simp only
    rw [hs]
    simp only
    rw [hmarks]
    rfl
  refine ⟨_, ⟨(List.range t.numberofpoints).map (pointOf t), (List.range t.numberoftetrahedra).map (tetOf t), diff.map fun m => (m, trisOf t m)⟩, hw, ?_, rfl, rfl,
    ?_, ?_, ?_⟩
  · simp only [List.cons_append, List.nil_append, readSu2, List.append_assoc]
    rw [if_neg (by omega), Int.toNat_natCast]
    have e1 := readN_ok asPoint (fun i => Line.point (pointOf t i).1 (pointOf t i).2.1 (pointOf t i).2.2) (pointOf t) (fun _ => rfl)
    have e2 := readN_ok (K := K) asTet (fun i => Line.tet (tetOf t i).1 (tetOf t i).2.1 (tetOf t i).2.2.1 (tetOf t i).2.2.2) (tetOf t) (fun _ => rfl)
    have e3 := fun l => e1 l (List.range t.numberofpoints)
    have e4 := fun l => e2 l (List.range t.numberoftetrahedra)
    simp only [List.length_range] at e3 e4
    rw [e3]
    simp only [Option.bind_some]
    rw [if_neg (by omega), Int.toNat_natCast, e4]
    simp only [Option.bind_some]
    rw [if_neg (by simp [hdiff])]
    have hk : ((s.1.length : Int) - 1).toNat = diff.length := by simp [hdiff]
    have e5 := readMarks_ok (t := t) diff []
    rw [List.append_nil] at e5
    rw [hk, e5]
    rfl
  · have : (diff.map fun m => (m, trisOf t m)).map Prod.fst = diff := by simp [Function.comp_def]
    rw [this]
    have := hb.nodup
    rw [hdiff] at this
    exact this.of_cons
  · intro m
    have : (diff.map fun m => (m, trisOf t m)).map Prod.fst = diff := by simp [Function.comp_def]
    rw [this]
    have hnd := hb.nodup
    rw [hdiff] at hnd
    have h0 : (0 : Int) ∉ diff := (List.nodup_cons.mp hnd).1
    have hm := hb.mem m
    rw [hdiff, htake] at hm
    simp only [List.mem_cons, List.mem_map, List.mem_range] at hm
    constructor
    · intro k
      have hne : m ≠ 0 := fun e => h0 (e ▸ k)
      refine ⟨hne, ?_⟩
      rcases hm.mp (Or.inr k) with e | e
      · exact absurd e hne
      · exact e
    · rintro ⟨hne, k⟩
      rcases hm.mpr (Or.inr k) with e | e
      · exact absurd e hne
      · exact e
  · intro m l hl
    simp only [List.mem_map, Prod.mk.injEq] at hl
    obtain ⟨x, -, rfl, rfl⟩ := hl
    rfl

/-- Two tetrahedra with faces of the markers 1, 0 and 2, counted from 1. -/
def smallOut : Out ℚ where
  firstnumber := 1
  numberofpoints := 5
  pointlist := [0, 0, 0, 1, 0, 0, 0, 1, 0, 0, 0, 1, 1, 1, 1]
  numberoftetrahedra := 2
  numberofcorners := 4
  tetrahedronlist := [1, 2, 3, 4, 2, 3, 4, 5]
  numberoftrifaces := 4
  trifacelist := [1, 2, 3, 2, 3, 4, 3, 4, 5, 1, 2, 4]
  trifacemarkerlist := [1, 0, 2, 1]

/-- The hypotheses of `C102_file` hold for the two tetrahedra, and the file has two markers. -/
example : Su2Valid smallOut ∧ (write smallOut).toOption.bind (fun l => (readSu2 l).map Su2Mesh.marks) =
    some [(1, [(0, 1, 2), (0, 1, 3)]), (2, [(2, 3, 4)])] := by
  refine ⟨⟨by decide, by decide, by decide, by decide, by decide⟩, by decide +kernel⟩

end RSVS.Props
