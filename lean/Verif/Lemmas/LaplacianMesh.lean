import Verif.Lemmas.Laplacian

/-!
# Lemmas for the Laplacians of a mesh
-/

namespace RSVS.Laplacian

open RSVS RSVS.Mesh RSVS.Geo RSVS.Spec RSVS.VertNormal RSVS.Props

variable {K : Type} [Field K] [LinearOrder K] [IsStrictOrderedRing K]

/-- The end of the function for a ring of triangles which have an area. -/
theorem lap_ring {len : P3 K → K} (hl : IsLen len) {ang : P3 K → P3 K → K} {cot : K → Option K} (hc : IsCot len ang cot) (eps : K)
    {c : P3 K} {pts : List (P3 K)} (hne : pts ≠ []) (h : ∀ q ∈ fanPairs pts, cornerNormal c q.1 q.2 ≠ 0) :
    ∃ s, lapLoop cot ang c pts (List.range pts.length) (fun _ => 0, 0) = (s, true) ∧
      lapEnd len eps c s = cutShort len eps (cotLaplacian len c pts) := by
  obtain ⟨s, h0, h1, h2⟩ := lap_sums hl hc h
  refine ⟨s, h0, ?_⟩
  unfold lapEnd cutShort
  rw [lap_value hl hne h h1 h2, nearZero_eq]
  by_cases g : eps ≤ |len (cotLaplacian len c pts)|
  · simp [g, not_lt.2 g]
  · simp only [g, decide_false, Bool.not_false, if_true, not_le.1 g]
    rfl

theorem lap_perm {len : P3 K → K} {c : P3 K} {l l' : List (P3 K)} (h : (fanPairs l).Perm (fanPairs l')) :
    cotLaplacian len c l = cotLaplacian len c l' := by
  funext i
  unfold cotLaplacian
  rw [(h.map _).sum_eq, (h.map (sideWeight len c)).sum_eq]

theorem pull_swap {len : P3 K → K} (hl : IsLen len) (c : P3 K) (q : P3 K × P3 K) : areaPull len c q.swap = areaPull len c q := by
  have e : len (cornerNormal c q.2 q.1) = len (cornerNormal c q.1 q.2) := by
    refine len_neg hl _ _ ?_
    simp only [Spec.inner, Fin.sum_univ_three, cornerNormal, Matrix.cons_val_zero, Matrix.cons_val_one, Matrix.cons_val]
    ring
  funext i
  unfold areaPull
  simp only [Prod.swap, e]
  congr 1
  unfold cornerNormal
  fin_cases i <;> simp <;> ring

theorem side_swap {len : P3 K → K} (hl : IsLen len) (c : P3 K) (q : P3 K × P3 K) : sideWeight len c q.swap = sideWeight len c q := by
  have e : len (cornerNormal c q.2 q.1) = len (cornerNormal c q.1 q.2) := by
    refine len_neg hl _ _ ?_
    simp only [Spec.inner, Fin.sum_univ_three, cornerNormal, Matrix.cons_val_zero, Matrix.cons_val_one, Matrix.cons_val]
    ring
  unfold sideWeight
  simp only [Prod.swap, e]
  congr 1
  simp only [Spec.inner, Fin.sum_univ_three]
  ring

theorem fan_reverse (pts : List (P3 K)) : (fanPairs pts.reverse).Perm ((fanPairs pts).map Prod.swap) := by
  unfold fanPairs
  rw [List.rotate_reverse]
  have e : pts.reverse.zip (pts.rotate (pts.length - 1 % pts.length)).reverse =
      (pts.zip (pts.rotate (pts.length - 1 % pts.length))).reverse := by
    refine List.ext_getElem (by simp) fun k h1 h2 => ?_
    simp
  rw [e]
  refine (List.reverse_perm _).trans ?_
  rw [← List.zip_swap (pts.rotate (pts.length - 1 % pts.length)) pts]
  refine List.Perm.map _ ?_
  have h := fanPairs_rotate pts (pts.length - 1 % pts.length)
  unfold fanPairs at h
  rw [List.rotate_rotate] at h
  have e2 : pts.rotate (pts.length - 1 % pts.length + 1) = pts := by
    match pts, Nat.lt_or_ge 1 pts.length with
    | [], _ => rfl
    | [a], _ => simp
    | a :: b :: l, _ =>
      have : (a :: b :: l).length - 1 % (a :: b :: l).length + 1 = (a :: b :: l).length := by
        simp only [List.length_cons]
        rw [Nat.mod_eq_of_lt (by omega)]
        omega
      rw [this, List.rotate_length]
  rw [e2] at h
  rw [h]
  exact List.rotate_perm _ _

theorem ring_point {m : Mesh} {co : Int → P3 K} {v : Vert} {r : List Int} {pts : List (P3 K)} (h : RingAround m co v r pts) {x : P3 K}
    (hx : x ∈ pts) : ∃ e ∈ r, ∃ a, EdgeJoins m e v.index a ∧ a ≠ v.index ∧ x = co a := by
  obtain ⟨k, hk⟩ := List.getElem?_of_mem hx
  obtain ⟨hk', rfl⟩ := List.getElem?_eq_some_iff.1 hk
  have hl := h.ends.length_eq
  exact ⟨r[k], List.getElem_mem (by omega), List.Forall₂.get h.ends (by omega) hk'⟩

theorem ring_open {m : Mesh} {co : Int → P3 K} {v : Vert} {r : List Int} {pts : List (P3 K)} (h : RingAround m co v r pts)
    (ho : OpenVert m co v) : pts ≠ [] ∧ ∀ q ∈ fanPairs pts, cornerNormal (co v.index) q.1 q.2 ≠ 0 := by
  obtain ⟨es, h3, hnd, hmem, -⟩ := ho.ring
  have hlen : r.length = es.length := ((List.perm_ext_iff_of_nodup h.once hnd).2 fun e => by rw [h.edges, hmem]).length_eq
  have hl := h.ends.length_eq
  refine ⟨fun h0 => by rw [h0] at hl; simp at hl; simp [hl] at hlen; omega, fun q hq => ?_⟩
  rw [fanPairs_eq, List.mem_map] at hq
  obtain ⟨k, hk, rfl⟩ := hq
  rw [List.mem_range] at hk
  have hk1 : (k + 1) % pts.length < pts.length := Nat.mod_lt _ (by omega)
  have g1 : pts.getD k (fun _ => 0) = pts[k] := by simp [hk]
  have g2 : pts.getD ((k + 1) % pts.length) (fun _ => 0) = pts[(k + 1) % pts.length] := by simp [hk1]
  simp only [g1, g2]
  obtain ⟨a, ha, -, ea⟩ := List.Forall₂.get h.ends (i := k) (by omega) hk
  obtain ⟨b, hb, -, eb⟩ := List.Forall₂.get h.ends (i := (k + 1) % pts.length) (by omega) hk1
  simp only [List.get_eq_getElem] at ha ea hb eb
  rw [ea, eb]
  obtain ⟨w, w1, w2, -⟩ := h.loop
  have hw : w ((k + 1) % pts.length) = w (k + 1) := by
    rcases Nat.lt_or_ge (k + 1) pts.length with g | g
    · rw [Nat.mod_eq_of_lt g]
    · rw [show k + 1 = pts.length by omega, Nat.mod_self, ← hl, w2]
  obtain ⟨x, hx, hxi, hxs⟩ := w1 k _ (List.getElem?_eq_getElem (by omega))
  obtain ⟨y, hy, hyi, hys⟩ := w1 ((k + 1) % pts.length) _ (List.getElem?_eq_getElem (by omega))
  refine ho.corners _ _ _ _ (w (k + 1)) ?_ ha hb
    ⟨x, hx, hxi, by rcases hxs with g | g <;> rw [g] <;> simp⟩ ⟨y, hy, hyi, by rw [← hw]; rcases hys with g | g <;> rw [g] <;> simp⟩
  intro g0
  have h' := (List.Nodup.getElem_inj_iff h.once).1 g0
  rcases Nat.lt_or_ge (k + 1) pts.length with g | g
  · rw [Nat.mod_eq_of_lt g] at h'
    omega
  · rw [show k + 1 = pts.length by omega, Nat.mod_self] at h'
    omega

theorem lap_height {len : P3 K → K} (hl : IsLen len) {c d : P3 K} {pts : List (P3 K)} (hne : pts ≠ [])
    (h : ∀ q ∈ fanPairs pts, cornerNormal c q.1 q.2 ≠ 0) {t : K} (ht : ∀ p ∈ pts, Spec.inner d (fun i => p i - c i) = t) :
    Spec.inner d (cotLaplacian len c pts) = t := by
  have hfan : fanPairs pts ≠ [] := by
    rw [fanPairs_eq]
    simpa using hne
  have hW : 0 < ((fanPairs pts).map (sideWeight len c)).sum := sum_pos_of _ _ hfan fun q hq => side_pos hl (h q hq)
  have hq : ∀ q ∈ fanPairs pts, Spec.inner d (areaPull len c q) = sideWeight len c q * t := by
    intro q hq
    unfold fanPairs at hq
    have h1 := ht _ (List.of_mem_zip (a := q.1) (b := q.2) hq).1
    have h2 := ht _ (List.mem_rotate.1 (List.of_mem_zip (a := q.1) (b := q.2) hq).2)
    have e : areaPull len c q = fun i => cotFirst len c q * (q.2 i - c i) + cotSecond len c q * (q.1 i - c i) :=
      funext fun i => (pull_eq len c q i).symm
    rw [e, ← side_eq, add_mul]
    nth_rw 1 [← h2]
    rw [← h1]
    simp only [Spec.inner, Fin.sum_univ_three]
    ring
  have hs : ((fanPairs pts).map fun q => Spec.inner d (areaPull len c q)).sum = ((fanPairs pts).map (sideWeight len c)).sum * t := by
    rw [List.map_congr_left hq, List.sum_map_mul_right]
  unfold cotLaplacian
  have e : Spec.inner d (fun i => ((fanPairs pts).map fun q => areaPull len c q i).sum / ((fanPairs pts).map (sideWeight len c)).sum) =
      ((fanPairs pts).map fun q => Spec.inner d (areaPull len c q)).sum / ((fanPairs pts).map (sideWeight len c)).sum := by
    simp only [Spec.inner, Fin.sum_univ_three, List.sum_map_add, List.sum_map_mul_left]
    ring
  rw [e, hs, mul_div_cancel_left₀ _ hW.ne']

/-- The Laplacian of one vertex of a mesh. -/
theorem vertex_lap {m : Mesh} (hm : Sound m) (h2 : TwoEnds m) {tab : List Int → Table} (ht : ∀ l, IsTable l (tab l)) {v : Vert}
    (hv : v ∈ m.verts) {co : Int → P3 K} (ho : OpenVert m co v) {len : P3 K → K} (hl : IsLen len) {ang : P3 K → P3 K → K}
    {cot : K → Option K} (hc : IsCot len ang cot) (eps : K) :
    ∃ r pts, RingAround m co v r pts ∧
      ∀ old, vertexLaplacian len ang cot eps tab m co v false old = .ok (cutShort len eps (cotLaplacian len (co v.index) pts), true) := by
  obtain ⟨es, h3, hnd, hmem, hloop⟩ := ho.ring
  have hperm : es.Perm (sortUnique v.edgeind) := (List.perm_ext_iff_of_nodup hnd (Order.nodup_sortUnique _)).2 fun e => by
    rw [hmem, mem_sortUnique]
  obtain ⟨r, hr, hlr, hrn, hrm⟩ := C23_vertex tab ht m hm v hv ⟨es, by omega, hperm, hloop⟩
  have hlen : r.length = es.length := ((List.perm_ext_iff_of_nodup hrn hnd).2 fun e => by rw [hrm, hmem]).length_eq
  have hend : ∀ e, ∃ p, e ∈ r → EdgeJoins m e v.index p ∧ v.index ≠ p := by
    intro e
    by_cases he : e ∈ r
    · obtain ⟨x, hx, hxi, hxv⟩ := (FaceFan.sound_ve hm v.index e).1 ⟨v, hv, rfl, (hrm e).1 he⟩
      obtain ⟨a, b, hab, hne⟩ := h2 x hx
      rw [hab] at hxv
      simp only [List.mem_cons, List.not_mem_nil, or_false] at hxv
      rcases hxv with h | h
      · exact ⟨b, fun _ => ⟨⟨x, hx, hxi, .inl (by rw [h]; exact hab)⟩, by rw [h]; exact hne⟩⟩
      · exact ⟨a, fun _ => ⟨⟨x, hx, hxi, .inr (by rw [h]; exact hab)⟩, by rw [h]; exact hne.symm⟩⟩
    · exact ⟨0, fun h => absurd h he⟩
  choose p hp using hend
  have hpts : pointsAround m co v r = .ok (r.map fun e => co (p e)) := by
    refine MeshIO.mapM_ok_map fun e he => ?_
    obtain ⟨hj, hn⟩ := hp e he
    rw [otherEnd_ok hm hj hn]
    obtain ⟨x, hx, hxi, hxv⟩ := hj
    obtain ⟨y, hy, hyi, -⟩ := (FaceFan.sound_ve hm (p e) e).2 ⟨x, hx, hxi, by rcases hxv with h | h <;> rw [h] <;> simp⟩
    simp only [Except.bind]
    rw [← hyi, Smooth.isearch_self hm.unique.verts hy]
    rfl
  have hra : RingAround m co v r (r.map fun e => co (p e)) := by
    refine ⟨hlr, hrn, hrm, ?_⟩
    rw [List.forall₂_map_right_iff, List.forall₂_same]
    exact fun e he => ⟨p e, (hp e he).1, (hp e he).2.symm, rfl⟩
  obtain ⟨hne, hfan⟩ := ring_open hra ho
  refine ⟨r, r.map fun e => co (p e), hra, fun old => ?_⟩
  · obtain ⟨s, s1, s2⟩ := lap_ring hl hc eps (c := co v.index) hne hfan
    unfold vertexLaplacian edgesAround
    rw [hr]
    simp only [Bool.false_eq_true, if_false, Except.map, Except.bind, if_true, hpts]
    rw [if_neg (by omega), s1]
    simp only [if_true, s2]

/-- The loop over vertices whose Laplacians are found. -/
theorem lapAll_ok {len : P3 K → K} {ang : P3 K → P3 K → K} {cot : K → Option K} {eps : K} {tab : List Int → Table} {m : Mesh}
    {co : Int → P3 K} {f : Vert → P3 K} {k : List Vert} : ∀ {l : List Vert} {old : P3 K},
    (∀ v ∈ l, ∀ old, vertexLaplacian len ang cot eps tab m co v false old = .ok (f v, true)) →
    lapAll len ang cot eps tab m co (l ++ k) old =
      (lapAll len ang cot eps tab m co k ((l.map f).getLast?.getD old)).map fun rest => l.map f ++ rest
  | [], old, _ => by
    simp only [List.nil_append, List.map_nil, List.getLast?_nil, Option.getD_none]
    cases lapAll len ang cot eps tab m co k old <;> rfl
  | v :: l, old, h => by
    rw [show lapAll len ang cot eps tab m co (v :: l ++ k) old = (vertexLaplacian len ang cot eps tab m co v false old).bind fun r =>
      (lapAll len ang cot eps tab m co (l ++ k) r.1).map fun rest => r.1 :: rest from rfl, h v (by simp) old]
    simp only [Except.bind]
    rw [lapAll_ok fun w hw => h w (by simp [hw])]
    have e : ((v :: l).map f).getLast?.getD old = (l.map f).getLast?.getD (f v) := by
      cases l with
      | nil => rfl
      | cons a l => simp only [List.map_cons, List.getLast?_cons_cons, List.getLast?_cons, Option.getD_some]
    rw [e]
    cases lapAll len ang cot eps tab m co k ((l.map f).getLast?.getD (f v)) <;> rfl

end RSVS.Laplacian
