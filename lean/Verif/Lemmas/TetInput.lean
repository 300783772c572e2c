import Verif.Lemmas.Order
import Verif.Lemmas.Spawn
import Verif.Model.TetInput
import Verif.Spec.TetInput

/-!
# Lemmas about the input of the tetrahedral mesher
-/

namespace RSVS.Tet

open RSVS.Mesh RSVS.Geo RSVS.Spec

variable {α K : Type}

/-- The list with `xs` written from `off` on. -/
def written (l : List (Option α)) (off : Nat) (xs : List α) : List (Option α) := l.take off ++ xs.map some ++ l.drop (off + xs.length)

theorem length_written {l : List (Option α)} {off : Nat} {xs : List α} (h : off + xs.length ≤ l.length) :
    (written l off xs).length = l.length := by
  unfold written
  simp
  omega

theorem put_ok {l : List (Option α)} {i : Nat} (h : i < l.length) (x : α) : put l (i : Int) x = .ok (l.set i (some x)) := by
  unfold put
  rw [if_neg (by omega), Int.toNat_natCast, if_pos h]

theorem set_written {l : List (Option α)} {off : Nat} {x : α} {xs : List α} (h : off + (xs.length + 1) ≤ l.length) :
    written (l.set off (some x)) (off + 1) xs = written l off (x :: xs) := by
  unfold written
  have h1 : (l.set off (some x)).take (off + 1) = l.take off ++ [some x] := by
    rw [List.take_add_one, List.take_set_of_le (le_refl off), List.getElem?_set_self (by omega)]
    rfl
  have h2 : (l.set off (some x)).drop (off + 1 + xs.length) = l.drop (off + (x :: xs).length) := by
    rw [List.drop_set_of_lt (by omega)]
    congr 1
    simp only [List.length_cons]
    omega
  rw [h1, h2]
  simp

theorem fill_ok {l : List (Option α)} {off : Nat} {xs : List α} (h : off + xs.length ≤ l.length) : fill l off xs = .ok (written l off xs) := by
  have key : ∀ (xs : List α) (k : Nat) (l : List (Option α)), k + off + xs.length ≤ l.length →
      (xs.zipIdx k).foldlM (m := Except Fault) (fun l p => put l ((p.2 + off : Nat) : Int) p.1) l = .ok (written l (k + off) xs) := by
    intro xs
    induction xs with
    | nil => intro k l h; simp [written, pure, Except.pure]
    | cons x xs ih =>
      intro k l h
      simp only [List.length_cons] at h
      rw [List.zipIdx_cons, List.foldlM_cons, put_ok (by omega)]
      simp only [bind, Except.bind]
      rw [ih (k + 1) _ (by simp; omega), show k + 1 + off = k + off + 1 by omega, set_written (by omega)]
  have := key xs 0 l (by omega)
  rw [Nat.zero_add] at this
  exact this

/-- A loop that writes the same value. -/
theorem range_ok {l : List (Option α)} {start n : Nat} (h : start + n ≤ l.length) (x : α) :
    (List.range n).foldlM (m := Except Fault) (fun l (i : Nat) => put l ((start : Int) + (i : Int)) x) l = .ok (written l start (List.replicate n x)) := by
  induction n with
  | zero => simp [written, pure, Except.pure]
  | succ n ih =>
    rw [List.range_succ, List.foldlM_append, ih (by omega)]
    simp only [bind, Except.bind, List.foldlM_cons, List.foldlM_nil]
    have hl : (written l start (List.replicate n x)).length = l.length := length_written (by simp; omega)
    have : ((start : Int) + (n : Int)) = ((start + n : Nat) : Int) := by push_cast; rfl
    rw [this, put_ok (by omega)]
    simp only [pure, Except.pure]
    congr 1
    unfold written
    rw [List.set_append_right _ _ (by simp), List.replicate_succ']
    simp only [List.map_append, List.map_cons, List.map_nil, List.length_append, List.length_take, List.length_map, List.length_replicate,
      List.length_cons, List.length_nil]
    rw [show min start l.length = start by omega, show start + n - (start + n) = 0 by omega]
    have hd : l.drop (start + n) = l[start + n]'(by omega) :: l.drop (start + n + 1) := (List.drop_eq_getElem_cons (by omega))
    rw [hd, List.set_cons_zero, show start + n + 1 = start + (n + 1) by omega]
    simp only [List.append_assoc, List.cons_append, List.nil_append]

/-- Reading what was written. -/
theorem written_get {l : List (Option α)} {off : Nat} {xs : List α} (h : off + xs.length ≤ l.length) (p : Nat) :
    (written l off xs)[p]? = if p < off then l[p]? else if p < off + xs.length then (xs[p - off]?).map some else l[p]? := by
  unfold written
  have h1 : (l.take off).length = off := by simp; omega
  split_ifs with k1 k2
  · rw [List.append_assoc, List.getElem?_append_left (by omega), List.getElem?_take_of_lt k1]
  · rw [List.append_assoc, List.getElem?_append_right (by omega), List.getElem?_append_left (by simp; omega), h1, List.getElem?_map]
  · rw [List.getElem?_append_right (by simp; omega), List.getElem?_drop]
    congr 1
    simp
    omega

theorem replicate_written (n m : Nat) (xs ys : List α) (hx : xs.length = n) (hy : ys.length = m) :
    written (written (List.replicate (n + m) none) 0 xs) n ys = (xs ++ ys).map some := by
  subst hx hy
  unfold written
  simp [List.drop_append]

/-- The vertices of `OrderedVerts` are ends of edges. -/
theorem orderedVerts_has {m : Mesh} (hm : Sound m) {es ov : List Int} (h : Order.orderedVerts m es = .ok ov) : ∀ v ∈ ov, HasVert m v := by
  have hends : ∀ e x, Order.endsOf m e = .ok x → HasVert m x.1 ∧ HasVert m x.2 := by
    intro e x h
    unfold Order.endsOf at h
    simp only [RSVS.bind_ok_iff] at h
    obtain ⟨y, h1, a, h2, b, h3, h4⟩ := h
    have hx : x = (a, b) := by simpa [pure, Except.pure] using h4.symm
    subst hx
    have hy : y ∈ m.edges := by
      unfold elemAt at h1
      split_ifs at h1
      cases hp : m.edges[(posOf Edge.index m.edges e).toNat]? <;> rw [hp] at h1
      · simp at h1
      · simp only [Except.ok.injEq] at h1
        subst h1
        exact List.mem_of_getElem? hp
    have hmem : ∀ (i : Int) v, vecGet y.vertind i = .ok v → v ∈ y.vertind := by
      intro i v hv
      unfold vecGet at hv
      split_ifs at hv
      cases hp : y.vertind[i.toNat]? <;> rw [hp] at hv
      · simp at hv
      · simp only [Except.ok.injEq] at hv
        subst hv
        exact List.mem_of_getElem? hp
    have hv : ∀ v ∈ y.vertind, HasVert m v := fun v hv =>
      hm.noDangling.edgeVert y.index v ⟨y, hy, rfl, hv⟩ fun h0 => hm.zeroOutside.edgeVert y.index ⟨y, hy, rfl, h0 ▸ hv⟩
    exact ⟨hv _ (hmem 0 a h2), hv _ (hmem 1 b h3)⟩
  have hloop : ∀ (es : List Int) (past : Int × Int) (r : List Int), HasVert m past.1 → HasVert m past.2 →
      Order.orderedVertsLoop m past es = .ok r → ∀ v ∈ r, HasVert m v := by
    intro es
    induction es with
    | nil => intro past r _ _ h v hv; simp only [Order.orderedVertsLoop, Except.ok.injEq] at h; subst h; simp at hv
    | cons e es ih =>
      intro past r h1 h2 h v hv
      simp only [Order.orderedVertsLoop, RSVS.bind_ok_iff] at h
      obtain ⟨now, k1, w, k2, r', k3, k4⟩ := h
      have hr : r = w :: r' := by simpa [pure, Except.pure] using k4.symm
      subst hr
      have hn := hends e now k1
      rcases List.mem_cons.mp hv with rfl | hv
      · unfold Order.sharedVert at k2
        split_ifs at k2
        · simp only [Except.ok.injEq] at k2; subst k2; exact h1
        · simp only [Except.ok.injEq] at k2; subst k2; exact h2
      · exact ih now r' hn.1 hn.2 k3 v hv
  unfold Order.orderedVerts at h
  simp only [RSVS.bind_ok_iff] at h
  obtain ⟨l, -, past, h2, h3⟩ := h
  exact hloop es past ov (hends l past h2).1 (hends l past h2).2 h3

theorem written_written {l : List (Option α)} {off : Nat} {xs ys : List α} (h : off + xs.length + ys.length ≤ l.length) :
    written (written l off xs) (off + xs.length) ys = written l off (xs ++ ys) := by
  unfold written
  have h1 : (l.take off ++ xs.map some).length = off + xs.length := by simp; omega
  rw [List.take_append_of_le_length (by omega), List.take_of_length_le (by omega), List.drop_append]
  rw [List.drop_of_length_le (by omega), h1, List.nil_append, List.drop_drop]
  simp only [List.map_append, List.append_assoc, List.length_append]
  congr 4
  omega

/-- What `MeshData2Tetgenio` gives. -/
theorem meshData_ok {m : Mesh} {ring : Surf → List Int} (hr : ∀ f ∈ m.surfs, Order.orderedVerts m f.edgeind = .ok (ring f))
    (co : Int → P3 K) {io : Io K} {nP nF fo po : Nat} (hs : TetSized nP nF io) (hP : po + m.verts.length ≤ nP) (hF : fo + m.surfs.length ≤ nF)
    (mark : Int) (mtr : K) (fc : Int) :
    meshData m co io fo po mark mtr fc = .ok ⟨written io.points po (m.verts.map fun v => co v.index),
      written io.mtrs po (m.verts.map fun _ => mtr), written io.marks po (m.verts.map fun _ => mark),
      written io.facets fo (m.surfs.map fun f => (ring f).map fun v => posOf Vert.index m.verts v + po),
      written io.facetMarks fo (m.surfs.map fun _ => fc + 1)⟩ := by
  unfold meshData
  have hmap : m.surfs.mapM (m := Except Fault) (facetOf m po) = .ok (m.surfs.map fun f => (ring f).map fun v => posOf Vert.index m.verts v + po) := by
    have : ∀ l : List Surf, (∀ f ∈ l, f ∈ m.surfs) → l.mapM (m := Except Fault) (facetOf m po) =
        .ok (l.map fun f => (ring f).map fun v => posOf Vert.index m.verts v + po) := by
      intro l
      induction l with
      | nil => intro _; rfl
      | cons f l ih =>
        intro hl
        have h1 : facetOf m po f = .ok ((ring f).map fun v => posOf Vert.index m.verts v + po) := by
          unfold facetOf
          rw [hr f (hl f (by simp))]
          rfl
        rw [List.mapM_cons, h1, ih fun f hf => hl f (by simp [hf])]
        rfl
    exact this _ fun _ h => h
  rw [fill_ok (by rw [hs.points]; simpa using hP)]
  simp only [Except.bind]
  rw [fill_ok (by rw [hs.mtrs]; simpa using hP)]
  simp only
  rw [fill_ok (by rw [hs.marks]; simpa using hP)]
  simp only
  rw [hmap]
  simp only
  rw [fill_ok (by rw [hs.facets]; simpa using hF)]
  simp only
  rw [fill_ok (by rw [hs.facetMarks]; simpa using hF)]
  simp [Except.map]

/-- The corners of a facet are points with the coordinates of the vertices. -/
theorem corners_ok {m : Mesh} {ring : List Int} (h : ∀ v ∈ ring, HasVert m v) (co : Int → P3 K) (po : Nat) (pts : List (Option (P3 K)))
    (hp : ∀ (p : Nat) v, m.verts[p]? = some v → pts[po + p]? = some (some (co v.index))) :
    List.Forall₂ (fun i v => 0 ≤ i ∧ pts[i.toNat]? = some (some (co v))) (ring.map fun v => posOf Vert.index m.verts v + po) ring := by
  induction ring with
  | nil => exact .nil
  | cons v r ih =>
    refine .cons ?_ (ih fun w hw => h w (by simp [hw]))
    obtain ⟨x, hx, hv⟩ := h v (by simp)
    obtain ⟨p, h1, h2, h3⟩ := posOf_mem (ix := Vert.index) (l := m.verts) (k := v) ⟨x, hx, hv⟩
    simp only [h1]
    refine ⟨by omega, ?_⟩
    rw [show ((p : Int) + (po : Int)).toNat = po + p by omega, hp p _ (List.getElem?_eq_getElem h2), h3]

theorem specifyMetric_ok {io : Io K} {start n : Nat} (hs : io.mtrs.length = io.points.length) (h : start + n ≤ io.points.length) (x : K) (r : List K) :
    specifyMetric io start n (x :: r) = .ok { io with mtrs := written io.mtrs start (List.replicate n x) } := by
  unfold specifyMetric
  rw [if_neg (by omega), if_neg (by omega), Int.toNat_natCast]
  have : ∀ l : List (Option K), ∀ i : Nat, ((x :: r).take 1).foldlM (m := Except Fault) (fun l x => put l ((start : Int) + (i : Int)) x) l =
      put l ((start : Int) + (i : Int)) x := by
    intro l i
    simp only [List.take_succ_cons, List.take_zero, List.foldlM_cons, List.foldlM_nil]
    cases put l ((start : Int) + (i : Int)) x <;> rfl
  simp only [this]
  rw [range_ok (by omega)]
  rfl

theorem specifyFacets_ok {io : Io K} {start n : Nat} (hs : io.facetMarks.length = io.facets.length) (h : start + n ≤ io.facets.length) (x : Int) :
    specifyFacets io start n x = .ok { io with facetMarks := written io.facetMarks start (List.replicate n x) } := by
  unfold specifyFacets
  rw [if_neg (by omega), if_neg (by omega), Int.toNat_natCast, range_ok (by omega)]
  rfl

/-- The metrics of the boxes, one after the other. -/
def spread (ns : List Nat) (xs : List K) : List K := (List.zipWith List.replicate ns xs).flatten

theorem boxMetrics_ok (vertPer : List Nat) : ∀ (lens : List K) (k start : Nat) (io : Io K), io.mtrs.length = io.points.length →
    (vertPer.drop k).length = lens.length → start + (vertPer.drop k).sum ≤ io.points.length →
    boxMetrics vertPer (lens.zipIdx k) start io = .ok { io with mtrs := written io.mtrs start (spread (vertPer.drop k) lens) } ∧
      (spread (vertPer.drop k) lens).length = (vertPer.drop k).sum
  | [], k, start, io, hs, hl, hb => by
    have : vertPer.drop k = [] := List.eq_nil_of_length_eq_zero (by simpa using hl)
    rw [this]
    simp [boxMetrics, spread, written]
  | x :: lens, k, start, io, hs, hl, hb => by
    have hk : k < vertPer.length := by simp at hl; omega
    have hd : vertPer.drop k = vertPer[k] :: vertPer.drop (k + 1) := List.drop_eq_getElem_cons hk
    rw [hd] at hl hb
    simp only [List.length_cons, List.sum_cons] at hl hb
    have hv : vecGet vertPer (k : Int) = .ok vertPer[k] := by
      unfold vecGet
      rw [if_neg (by omega), Int.toNat_natCast, List.getElem?_eq_getElem hk]
    have hw : (written io.mtrs start (List.replicate vertPer[k] x)).length = io.mtrs.length := length_written (by simp; omega)
    have ih := boxMetrics_ok vertPer lens (k + 1) (start + vertPer[k]) { io with mtrs := written io.mtrs start (List.replicate vertPer[k] x) }
      (by simp only; omega) (by omega) (by simp only; omega)
    have hsp : spread (vertPer.drop k) (x :: lens) = List.replicate vertPer[k] x ++ spread (vertPer.drop (k + 1)) lens := by
      rw [hd]; rfl
    constructor
    · rw [List.zipIdx_cons]
      simp only [boxMetrics]
      rw [hv]
      simp only [Except.bind]
      rw [specifyMetric_ok hs (by omega)]
      simp only
      rw [ih.1, hsp]
      have := written_written (l := io.mtrs) (off := start) (xs := List.replicate vertPer[k] x) (ys := spread (vertPer.drop (k + 1)) lens)
        (by rw [ih.2]; simp; omega)
      simp only [List.length_replicate] at this
      simp only [this]
    · rw [hsp, List.length_append, ih.2, List.length_replicate, hd, List.sum_cons]

theorem boxFacets_ok (n : Nat) : ∀ (k start : Nat) (io : Io K), io.facetMarks.length = io.facets.length → start + k * n ≤ io.facets.length →
    boxFacets n k start io = .ok { io with facetMarks := written io.facetMarks start (List.replicate (k * n) 0) }
  | 0, start, io, hs, h => by simp [boxFacets, written]
  | k + 1, start, io, hs, h => by
    have e : (k + 1) * n = n + k * n := by ring
    rw [e] at h
    simp only [boxFacets]
    rw [specifyFacets_ok hs (by omega)]
    simp only [Except.bind]
    have hw : (written io.facetMarks start (List.replicate n (0 : Int))).length = io.facetMarks.length := length_written (by simp; omega)
    rw [boxFacets_ok n k (start + n) _ (by simp only; omega) (by simp only; omega)]
    have := written_written (l := io.facetMarks) (off := start) (xs := List.replicate n (0 : Int)) (ys := List.replicate (k * n) (0 : Int))
      (by simp; omega)
    simp only [List.length_replicate] at this
    simp only [this, e, ← List.replicate_add]

theorem spread_get : ∀ (ns : List Nat) (xs : List K) (k j : Nat) (x : K) (n : Nat), ns[k]? = some n → xs[k]? = some x → j < n →
    (spread ns xs)[(ns.take k).sum + j]? = some x
  | [], _, k, j, x, n, h1, _, _ => by simp at h1
  | _ :: _, [], k, j, x, n, _, h2, _ => by simp at h2
  | a :: ns, y :: xs, 0, j, x, n, h1, h2, h3 => by
    simp only [List.getElem?_cons_zero, Option.some.injEq] at h1 h2
    subst h1 h2
    simp only [spread, List.zipWith_cons_cons, List.flatten_cons, List.take_zero, List.sum_nil, Nat.zero_add]
    rw [List.getElem?_append_left (by simpa using h3)]
    simp [h3]
  | a :: ns, y :: xs, k + 1, j, x, n, h1, h2, h3 => by
    simp only [List.getElem?_cons_succ] at h1 h2
    have := spread_get ns xs k j x n h1 h2 h3
    simp only [spread, List.zipWith_cons_cons, List.flatten_cons, List.take_succ_cons, List.sum_cons]
    rw [List.getElem?_append_right (by simp; omega), List.length_replicate, show a + (ns.take k).sum + j - a = (ns.take k).sum + j by omega]
    exact this

end RSVS.Tet
