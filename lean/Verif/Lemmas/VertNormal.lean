import Mathlib.Tactic.FinCases
import Mathlib.Tactic.Linarith
import Mathlib.Tactic.Ring
import Mathlib.Tactic.FieldSimp
import Mathlib.Algebra.BigOperators.Group.List.Basic
import Verif.Lemmas.GeometryCentre
import Verif.Model.VertNormal
import Verif.Spec.Geometry
import Verif.Spec.VertNormal

/-!
# Lemmas for the normal at a vertex: the sums
-/

namespace RSVS.VertNormal

open RSVS RSVS.Mesh RSVS.Geo RSVS.Spec

variable {K : Type} [Field K] [LinearOrder K] [IsStrictOrderedRing K]

theorem plane_eq (ang : P3 K → P3 K → K) (c p q : P3 K) :
    planeAndAngle ang c p q = (cornerNormal c p q, cornerAngle ang c (p, q)) := by
  unfold planeAndAngle cornerNormal cornerAngle diffPoints cross
  refine Prod.ext (funext fun i => ?_) rfl
  fin_cases i <;> simp <;> rfl

theorem nearZero_eq (eps x : K) : nearZero eps x = !decide (eps ≤ |x|) := by
  unfold nearZero
  rw [sub_zero]
  by_cases h : eps ≤ |x|
  · simp [h]
  · simp [h, not_le.1 h]

/-- One triangle which is wide enough. -/
def stepFace (len : P3 K → K) (ang : P3 K → P3 K → K) (c : P3 K) (s : Sums K) (q : P3 K × P3 K) : Sums K where
  normal := fun i => s.normal i + cornerUnit len c q i * cornerAngle ang c q
  total := s.total + cornerAngle ang c q
  turn := s.turn + ang (cornerUnit len c q) s.prev
  prev := cornerUnit len c q

theorem addFace_eq {len : P3 K → K} {ang : P3 K → P3 K → K} {eps : K} {c : P3 K} (s : Sums K) (q : P3 K × P3 K)
    (h : eps ≤ |len (cornerNormal c q.1 q.2)| → cornerAngle ang c q ≠ 0) :
    addFace len ang eps c s q = if eps ≤ |len (cornerNormal c q.1 q.2)| then stepFace len ang c s q else s := by
  unfold addFace
  rw [plane_eq, nearZero_eq]
  by_cases hw : eps ≤ |len (cornerNormal c q.1 q.2)|
  · have ha := h hw
    have hu : (fun i => unit len (cornerNormal c q.1 q.2) i * cornerAngle ang c q / (cornerAngle ang c q * 1)) = cornerUnit len c q := by
      funext i
      rw [mul_one, mul_div_assoc, div_self ha, mul_one]
      rfl
    simp only [hw, decide_true, Bool.not_true, Bool.false_eq_true, if_false, if_true, stepFace, hu]
    rfl
  · simp [hw]

theorem foldl_filter {len : P3 K → K} {ang : P3 K → P3 K → K} {eps : K} {c : P3 K} : ∀ (l : List (P3 K × P3 K)) (s : Sums K),
    (∀ q ∈ l, eps ≤ |len (cornerNormal c q.1 q.2)| → cornerAngle ang c q ≠ 0) →
    l.foldl (addFace len ang eps c) s = (l.filter fun q => decide (eps ≤ |len (cornerNormal c q.1 q.2)|)).foldl (stepFace len ang c) s
  | [], _, _ => rfl
  | q :: l, s, h => by
    rw [List.foldl_cons, addFace_eq s q (h q (by simp)), foldl_filter l _ fun x hx => h x (by simp [hx]), List.filter_cons]
    by_cases hw : eps ≤ |len (cornerNormal c q.1 q.2)| <;> simp [hw]

theorem fanPairs_eq (pts : List (P3 K)) : fanPairs pts = (List.range pts.length).map fun k =>
    (pts.getD k fun _ => 0, pts.getD ((k + 1) % pts.length) fun _ => 0) := by
  unfold fanPairs
  refine List.ext_getElem (by simp) fun k h1 h2 => ?_
  have hk : k < pts.length := by simpa using h1
  have hp : 0 < pts.length := by omega
  simp [List.getElem_rotate, hk, Nat.mod_lt _ hp]

theorem steps_eq {len : P3 K → K} {ang : P3 K → P3 K → K} {c : P3 K} : ∀ (fs : List (P3 K × P3 K)) (s : Sums K) (p : P3 K × P3 K),
    s.prev = cornerUnit len c p →
    (fs.foldl (stepFace len ang c) s).normal = (fun i => s.normal i + (fs.map fun q => cornerUnit len c q i * cornerAngle ang c q).sum) ∧
    (fs.foldl (stepFace len ang c) s).total = s.total + (fs.map (cornerAngle ang c)).sum ∧
    (fs.foldl (stepFace len ang c) s).turn =
      s.turn + ((fs.zip (p :: fs)).map fun x => ang (cornerUnit len c x.1) (cornerUnit len c x.2)).sum
  | [], s, p, h => by simp
  | q :: fs, s, p, h => by
    obtain ⟨h1, h2, h3⟩ := steps_eq fs (stepFace len ang c s q) q rfl
    rw [List.foldl_cons, h1, h2, h3]
    refine ⟨funext fun i => ?_, ?_, ?_⟩
    · simp only [stepFace, List.map_cons, List.sum_cons]
      ring
    · simp only [stepFace, List.map_cons, List.sum_cons]
      ring
    · simp only [stepFace, List.zip_cons_cons, List.map_cons, List.sum_cons, h]
      ring

theorem zip_last {α β : Type} [AddCommMonoid β] (g : α × α → β) (l : List α) (x : α) (h : l.getLast? = some x) :
    ((l.zip (x :: l)).map g).sum = (((l.rotate 1).zip l).map g).sum := by
  obtain ⟨l', rfl⟩ : ∃ l', l = l' ++ [x] := ⟨l.dropLast, by
    rw [List.dropLast_append_getLast? x h]⟩
  match l' with
  | [] => simp
  | a :: t =>
    have e1 : (a :: t ++ [x]).zip (x :: (a :: t ++ [x])) = (a, x) :: (t ++ [x]).zip (a :: t) := by
      rw [List.cons_append, List.zip_cons_cons]
      congr 1
      have := List.zip_append (l₁ := t ++ [x]) (r₁ := []) (l₂ := a :: t) (r₂ := [x]) (by simp)
      simpa using this
    have e2 : ((a :: t ++ [x]).rotate 1).zip (a :: t ++ [x]) = (t ++ [x]).zip (a :: t) ++ [(a, x)] := by
      rw [List.cons_append, List.rotate_cons_succ, List.rotate_zero, ← List.cons_append]
      exact List.zip_append (by simp)
    rw [e1, e2]
    simp [add_comm]

theorem last_pair {pts : List (P3 K)} {a b : P3 K} (ha : pts.getLast? = some a) (hb : pts.head? = some b) :
    (fanPairs pts).getLast? = some (a, b) := by
  match pts with
  | [] => simp at hb
  | x :: l =>
    simp only [List.head?_cons, Option.some.injEq] at hb
    subst hb
    obtain ⟨l', hl'⟩ : ∃ l', x :: l = l' ++ [a] := ⟨(x :: l).dropLast, by rw [List.dropLast_append_getLast? a ha]⟩
    unfold fanPairs
    rw [List.rotate_cons_succ, List.rotate_zero, hl', List.zip_append (by
      have := congrArg List.length hl'
      simp at this
      omega)]
    simp

theorem vertexNormal_eq {len : P3 K → K} {ang : P3 K → P3 K → K} {eps : K} {c : P3 K} {pts : List (P3 K)} {a b : P3 K}
    (ha : pts.getLast? = some a) (hb : pts.head? = some b) (hw : eps ≤ |len (cornerNormal c a b)|)
    (hang : ∀ q ∈ wideFaces len eps c pts, cornerAngle ang c q ≠ 0) :
    vertexNormal len ang eps c pts = .ok (angleMean len ang c (wideFaces len eps c pts), turning len ang c (wideFaces len eps c pts)) := by
  have hstart : findStart len ang eps c a 0 pts = some (0, cornerNormal c a b) := by
    match pts, hb with
    | x :: l, hb =>
      simp only [List.head?_cons, Option.some.injEq] at hb
      subst hb
      unfold findStart
      rw [plane_eq, nearZero_eq]
      simp [hw]
  have hlast : (wideFaces len eps c pts).getLast? = some (a, b) := by
    unfold wideFaces
    have := last_pair ha hb
    obtain ⟨l', hl'⟩ : ∃ l', fanPairs pts = l' ++ [(a, b)] := ⟨(fanPairs pts).dropLast, by rw [List.dropLast_append_getLast? _ this]⟩
    rw [hl', List.filter_append]
    simp [hw]
  have hang' : ∀ q ∈ fanPairs pts, eps ≤ |len (cornerNormal c q.1 q.2)| → cornerAngle ang c q ≠ 0 := fun q hq h =>
    hang q (List.mem_filter.2 ⟨hq, by simpa using h⟩)
  unfold vertexNormal
  rw [ha]
  simp only [hstart, List.drop_zero]
  have hfold : ∀ s0 : Sums K, (List.range pts.length).foldl (fun s k =>
      addFace len ang eps c s (pts.getD k fun _ => 0, pts.getD ((k + 1) % pts.length) fun _ => 0)) s0 =
      (wideFaces len eps c pts).foldl (stepFace len ang c) s0 := fun s0 => by
    rw [wideFaces, ← foldl_filter _ _ hang', fanPairs_eq, List.foldl_map]
  rw [hfold]
  obtain ⟨h1, h2, h3⟩ := steps_eq (len := len) (ang := ang) (c := c) (wideFaces len eps c pts)
    ⟨fun _ => 0, 0, 0, unit len (cornerNormal c a b)⟩ (a, b) rfl
  rw [h1, h2, h3]
  refine congrArg Except.ok (Prod.ext (funext fun i => ?_) ?_)
  · simp only [angleMean, zero_add, mul_one_div]
  · simp only [turning, zero_add]
    exact zip_last (fun x => ang (cornerUnit len c x.1) (cornerUnit len c x.2)) _ _ hlast

end RSVS.VertNormal
