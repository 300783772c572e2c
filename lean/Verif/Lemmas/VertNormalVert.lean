import Verif.Lemmas.VertNormalOut

/-!
# Lemmas for the normal at a vertex: `vert::Normal`
-/

namespace RSVS.VertNormal

open RSVS RSVS.Mesh RSVS.Geo RSVS.Spec RSVS.Props

variable {K : Type} [Field K] [LinearOrder K] [IsStrictOrderedRing K]

theorem otherEnd_ok {m : Mesh} (hm : Sound m) {e v p : Int} (hj : EdgeJoins m e v p) (hne : v ≠ p) : otherEnd m v e = .ok p := by
  obtain ⟨x, hx, rfl, hv⟩ := hj
  unfold otherEnd
  rw [Smooth.isearch_self hm.unique.edges hx]
  rcases hv with hv | hv
  · simp [Except.bind, hv, vecGet]
  · simp [Except.bind, hv, vecGet, hne.symm]

/-- The edges in the order which is found, the other ends and the surfaces. -/
theorem around_exists {m : Mesh} {w : Int → Nat → Int} (hm : SolidMesh m w) {tab : List Int → Table} (ht : ∀ l, IsTable l (tab l))
    {v : Vert} (hv : v ∈ m.verts) {c : Int} (hb : BoundaryVert m v c) :
    ∃ r p F, Order.vertOrderEdges tab m v = .ok (r, 0) ∧ Around m w v.index c r p F ∧ (∀ e ∈ r, v.index ≠ p e) ∧
      ∃ ws : Nat → Int, (∀ (k : Nat) (e : Int), r[k]? = some e → EdgeParts m e (ws k) (ws (k + 1))) ∧
        (∀ k < r.length, (F k).index = ws (k + 1)) ∧ ws r.length = ws 0 ∧
        ∀ i j, i < r.length → j < r.length → ws i = ws j → i = j := by
  obtain ⟨es, h3, hnd, hmem, hloop⟩ := hb.ring
  have hperm : es.Perm (sortUnique v.edgeind) := (List.perm_ext_iff_of_nodup hnd (Order.nodup_sortUnique _)).2 fun e => by
    rw [hmem, mem_sortUnique]
  obtain ⟨r, hr, ⟨ws, g1, g2, g3⟩, hrn, hrm⟩ := C23_vertex tab ht m hm.sound v hv ⟨es, by omega, hperm, hloop⟩
  have hlen : r.length = es.length := ((List.perm_ext_iff_of_nodup hrn hnd).2 fun e => by rw [hrm, hmem]).length_eq
  have hsurf : ∀ (e s t : Int), EdgeParts m e s t → (∃ f ∈ m.surfs, f.index = s ∧ e ∈ f.edgeind) ∧
      ∃ f ∈ m.surfs, f.index = t ∧ e ∈ f.edgeind := by
    rintro e s t ⟨x, hx, rfl, hs⟩
    have h1 : s ∈ x.surfind ∧ t ∈ x.surfind := by rcases hs with hs | hs <;> rw [hs] <;> simp
    have h0 := hm.noZero x hx
    refine ⟨(FaceFan.sound_es hm.sound _ _).2 ⟨⟨x, hx, rfl, h1.1⟩, fun h => h0 (h ▸ h1.1)⟩,
      (FaceFan.sound_es hm.sound _ _).2 ⟨⟨x, hx, rfl, h1.2⟩, fun h => h0 (h ▸ h1.2)⟩⟩
  have hF : ∀ k, ∃ f, k < r.length → f ∈ m.surfs ∧ f.index = ws (k + 1) := by
    intro k
    by_cases hk : k < r.length
    · obtain ⟨-, f, hf, hfi, -⟩ := hsurf _ _ _ (g1 k _ (List.getElem?_eq_getElem hk))
      exact ⟨f, fun _ => ⟨hf, hfi⟩⟩
    · exact ⟨{ index := 0, edgeind := [], voluind := [] }, fun h => absurd h hk⟩
  choose F hF using hF
  have hthe : ∀ {f g : Surf}, f ∈ m.surfs → g ∈ m.surfs → f.index = g.index → f = g := fun hf hg h =>
    inj_of_nodup hm.sound.unique.surfs hf hg h
  have hhere : ∀ k (e : Int), r[k]? = some e → e ∈ (F k).edgeind := by
    intro k e hk
    obtain ⟨-, f, hf, hfi, hfe⟩ := hsurf _ _ _ (g1 k e hk)
    obtain ⟨a1, a2⟩ := hF k (List.getElem?_eq_some_iff.1 hk).1
    rw [hthe a1 hf (a2.trans hfi.symm)]
    exact hfe
  have hnext : ∀ k (e : Int), k < r.length → r[(k + 1) % r.length]? = some e → e ∈ (F k).edgeind := by
    intro k e hkl hk
    obtain ⟨⟨f, hf, hfi, hfe⟩, -⟩ := hsurf _ _ _ (g1 _ e hk)
    obtain ⟨a1, a2⟩ := hF k hkl
    have : ws ((k + 1) % r.length) = ws (k + 1) := by
      rcases Nat.lt_or_ge (k + 1) r.length with h | h
      · rw [Nat.mod_eq_of_lt h]
      · rw [show k + 1 = r.length by omega, Nat.mod_self, g2]
    rw [hthe a1 hf (a2.trans (this.symm.trans hfi.symm))]
    exact hfe
  have hend : ∀ e, ∃ p, e ∈ r → EdgeJoins m e v.index p ∧ v.index ≠ p := by
    intro e
    by_cases he : e ∈ r
    · obtain ⟨k, hk⟩ := List.getElem?_of_mem he
      have hkl := (List.getElem?_eq_some_iff.1 hk).1
      have hf := (hF k hkl).1
      have hring := hm.ring _ hf
      obtain ⟨j, hj⟩ := List.getElem?_of_mem (hhere k e hk)
      have hjl := (List.getElem?_eq_some_iff.1 hj).1
      obtain ⟨x, hx, hxi, hxv⟩ := hring.2.1 j e hj
      have hne : w (F k).index j ≠ w (F k).index (j + 1) := by
        intro h
        obtain ⟨i, a1, a2, a3⟩ := ring_next hring hjl
        have := hring.2.2.2 j i hjl a1 (h.trans a2.symm)
        have := hring.1
        omega
      have hin : v.index ∈ x.vertind := by
        obtain ⟨y, hy, hyi, hyv⟩ := (FaceFan.sound_ve hm.sound v.index e).1 ⟨v, hv, rfl, (hrm e).1 he⟩
        cases inj_of_nodup hm.sound.unique.edges hx hy (hxi.trans hyi.symm)
        exact hyv
      have hin' : v.index = w (F k).index j ∨ v.index = w (F k).index (j + 1) := by
        rcases hxv with h | h <;> rw [h] at hin <;> simp at hin <;> tauto
      rcases hin' with h | h
      · exact ⟨w (F k).index (j + 1), fun _ => ⟨⟨x, hx, hxi, by rw [h]; exact hxv⟩, by rw [h]; exact hne⟩⟩
      · exact ⟨w (F k).index j, fun _ => ⟨⟨x, hx, hxi, by rw [h]; exact hxv.symm⟩, by rw [h]; exact hne.symm⟩⟩
    · exact ⟨0, fun h => absurd h he⟩
  choose p hp using hend
  refine ⟨r, p, F, hr, ⟨by omega, fun e he => (hp e he).1, fun k hk => (hF k hk).1, hhere, hnext, hrn, fun k hk h => ?_, fun k hk => ?_⟩,
    fun e he => (hp e he).2, ws, g1, fun k hk => (hF k hk).2, g2, g3⟩
  · rw [(hF k (by omega)).2, (hF (k + 1) hk).2] at h
    rcases Nat.lt_or_ge (k + 2) r.length with g | g
    · have := g3 _ _ (by omega) g h
      omega
    · rw [show k + 1 + 1 = r.length by omega, g2] at h
      have := g3 _ _ (by omega) (by omega) h
      omega
  · have hk' : r[k]? = some r[k] := List.getElem?_eq_getElem hk
    exact hb.side _ (hF k hk).1 ⟨r[k], (hrm _).1 (List.mem_of_getElem? hk'), hhere k _ hk'⟩

theorem common_surf {m : Mesh} {w : Int → Nat → Int} (hm : SolidMesh m w) {e0 e1 a b d : Int} (h0 : EdgeParts m e0 a b)
    (h1 : EdgeParts m e1 b d) (hab : a ≠ d) (hbd : b ≠ d) : Order.surfFromEdges m e0 e1 (-1) = .ok b := by
  obtain ⟨x, hx, rfl, hxs⟩ := h0
  obtain ⟨y, hy, rfl, hys⟩ := h1
  have h0 := hm.noZero x hx
  have h1 := hm.noZero y hy
  have hfind : ∀ z ∈ m.edges, ∀ s ∈ z.surfind, ∃ f ∈ m.surfs, f.index = s := by
    intro z hz s hs
    obtain ⟨f, hf, hfi, -⟩ := (FaceFan.sound_es hm.sound z.index s).2 ⟨⟨z, hz, rfl, hs⟩, fun h => hm.noZero z hz (h ▸ hs)⟩
    exact ⟨f, hf, hfi⟩
  have hbx : b ∈ x.surfind := by rcases hxs with h | h <;> rw [h] <;> simp
  have hby : b ∈ y.surfind := by rcases hys with h | h <;> rw [h] <;> simp
  have hdy : d ∈ y.surfind := by rcases hys with h | h <;> rw [h] <;> simp
  obtain ⟨f, hf, rfl⟩ := hfind y hy b hby
  obtain ⟨g, hg, rfl⟩ := hfind y hy d hdy
  have hfx : x.index ∈ f.edgeind := by
    obtain ⟨f', hf', hi, he⟩ := (FaceFan.sound_es hm.sound x.index f.index).2 ⟨⟨x, hx, rfl, hbx⟩, fun h => h0 (h ▸ hbx)⟩
    rw [inj_of_nodup hm.sound.unique.surfs hf hf' hi.symm]
    exact he
  have hgx : x.index ∉ g.edgeind := by
    intro h
    obtain ⟨⟨x', hx', hi, hs⟩, -⟩ := (FaceFan.sound_es hm.sound x.index g.index).1 ⟨g, hg, rfl, h⟩
    rw [inj_of_nodup hm.sound.unique.edges hx' hx hi] at hs
    rcases hxs with k | k <;> rw [k] at hs <;> simp at hs <;> rcases hs with hs | hs
    · exact hab hs.symm
    · exact hbd hs.symm
    · exact hbd hs.symm
    · exact hab hs.symm
  unfold Order.surfFromEdges
  have sf := Smooth.isearch_self hm.sound.unique.surfs hf
  have sg := Smooth.isearch_self hm.sound.unique.surfs hg
  rw [Smooth.isearch_self hm.sound.unique.edges hx, Smooth.isearch_self hm.sound.unique.edges hy]
  have hlen : ¬ x.surfind.length < y.surfind.length := by
    rcases hxs with k | k <;> rcases hys with k' | k' <;> rw [k, k'] <;> simp
  simp only [bind, Except.bind, if_neg hlen]
  rcases hys with k | k <;> rw [k] <;>
    simp [Order.surfSearch, bind, Except.bind, sf, sg, hfx, hgx]

theorem vertNormal_out {m : Mesh} {w : Int → Nat → Int} (hm : SolidMesh m w) (hco : Coherent m.edges m.surfs w)
    {tab : List Int → Table} (ht : ∀ l, IsTable l (tab l)) {v : Vert} (hv : v ∈ m.verts) {c : Int} (hc : c ≠ 0)
    (hb : BoundaryVert m v c) {len : P3 K → K} (hl : IsLen len) {ang : P3 K → P3 K → K} (ha : IsAngle ang) {eps : K} (he : 0 < eps)
    (co : Int → P3 K)
    (hw : ∀ f ∈ m.surfs, ∀ k < f.edgeind.length, w f.index (k + 1) = v.index → eps ≤ len (outCorner co f (w f.index) k)) (d : P3 K)
    (hd : ∀ f ∈ m.surfs, ∀ k < f.edgeind.length, w f.index (k + 1) = v.index → 0 < Spec.inner d (outCorner co f (w f.index) k)) :
    ∃ n, vertNormal len ang eps tab m co v false = .ok (n, true) ∧ len n = 1 ∧ 0 < Spec.inner d n := by
  classical
  obtain ⟨r, p, F, hr, har, hpv, ws, g1, g2, g3, g4⟩ := around_exists hm ht hv hb
  have h3 := har.three
  match r, h3 with
  | e0 :: e1 :: e2 :: r', _ =>
  generalize hR : e0 :: e1 :: e2 :: r' = r at *
  have hr0 : r[0]? = some e0 := by rw [← hR]; rfl
  have hr1 : r[1]? = some e1 := by rw [← hR]; rfl
  have hr2 : r[2]? = some e2 := by rw [← hR]; rfl
  have hr1' : r[(0 + 1) % r.length]? = some e1 := by rw [Nat.mod_eq_of_lt (by omega), hr1]
  have hpts : surrounding tab m co v false = .ok (some (r, r.map fun e => co (p e))) := by
    unfold surrounding
    have hmap : r.mapM (m := Except Fault) (fun e => (otherEnd m v.index e).bind fun a =>
        (isearch Vert.index m.verts a).map fun x => co x.index) = .ok (r.map fun e => co (p e)) := by
      refine MeshIO.mapM_ok_map fun e he => ?_
      rw [otherEnd_ok hm.sound (har.ends e he) (hpv e he)]
      obtain ⟨x, hx, hxi, hxv⟩ := har.ends e he
      have hin : p e ∈ x.vertind := by rcases hxv with h | h <;> rw [h] <;> simp
      have hne : p e ≠ 0 := fun h => hm.sound.zeroOutside.edgeVert e ⟨x, hx, hxi, h ▸ hin⟩
      obtain ⟨y, hy, hyi⟩ := hm.sound.noDangling.edgeVert e (p e) ⟨x, hx, hxi, hin⟩ hne
      simp only [Except.bind, ← hyi, Smooth.isearch_self hm.sound.unique.verts hy, Except.map]
    simp only [Bool.false_eq_true, if_false, hr]
    show Except.map _ (r.mapM (m := Except Fault) _) = _
    rw [hmap]
    rfl
  -- the triangles
  have hfan : ∀ q ∈ fanPairs (r.map fun e => co (p e)), ∃ (k : Nat) (e e' : Int), r[k]? = some e ∧ r[(k + 1) % r.length]? = some e' ∧
      q = (co (p e), co (p e')) := by
    intro q hq
    rw [fanPairs_eq, List.mem_map] at hq
    obtain ⟨k, hk, rfl⟩ := hq
    rw [List.mem_range, List.length_map] at hk
    have hk' := Nat.mod_lt (k + 1) (show 0 < r.length by omega)
    refine ⟨k, r[k], r[(k + 1) % r.length], List.getElem?_eq_getElem hk, List.getElem?_eq_getElem hk', ?_⟩
    simp [hk, hk']
  have hrel : ∀ q ∈ fanPairs (r.map fun e => co (p e)), ∃ f ∈ m.surfs, ∃ j < f.edgeind.length, w f.index (j + 1) = v.index ∧
      outCorner co f (w f.index) j = fun i => (if Rightly w v.index c p (F 0) e0 then 1 else -1) * cornerNormal (co v.index) q.1 q.2 i := by
    intro q hq
    obtain ⟨k, e, e', hk, hk', rfl⟩ := hfan q hq
    obtain ⟨j, a1, a2, a3⟩ := out_eq hm hc har co hk hk'
    refine ⟨F k, har.mem k (List.getElem?_eq_some_iff.1 hk).1, j, a1, a2, funext fun i => ?_⟩
    rw [a3, if_congr (rightly_all hm hco hc har hr0 k e hk) rfl rfl]
  generalize hσ : (if Rightly w v.index c p (F 0) e0 then 1 else -1 : K) = σ at hrel
  have hσ2 : σ * σ = 1 := by rw [← hσ]; split_ifs <;> norm_num
  have hlenq : ∀ q ∈ fanPairs (r.map fun e => co (p e)), eps ≤ len (cornerNormal (co v.index) q.1 q.2) := by
    intro q hq
    obtain ⟨f, hf, j, hj, hjv, ho⟩ := hrel q hq
    have := hw f hf j hj hjv
    rw [ho, len_neg hl _ (cornerNormal (co v.index) q.1 q.2)] at this
    · exact this
    · have e1 : ∀ x y : P3 K, Spec.inner (fun i => σ * x i) (fun i => σ * y i) = (σ * σ) * Spec.inner x y := fun x y => by
        unfold Spec.inner
        rw [Finset.mul_sum]
        exact Finset.sum_congr rfl fun i _ => by ring
      rw [e1, hσ2, one_mul]
  have hwide : wideFaces len eps (co v.index) (r.map fun e => co (p e)) = fanPairs (r.map fun e => co (p e)) :=
    List.filter_eq_self.2 fun q hq => by
      simpa using (hlenq q hq).trans (le_abs_self _)
  have hang : ∀ q ∈ fanPairs (r.map fun e => co (p e)), 0 < cornerAngle ang (co v.index) q := by
    intro q hq
    refine ha _ _ fun h => ?_
    have e : cornerNormal 0 (fun i => q.1 i - co v.index i) (fun i => q.2 i - co v.index i) = cornerNormal (co v.index) q.1 q.2 := by
      funext i
      unfold cornerNormal
      fin_cases i <;> simp
    rw [e] at h
    have hz := hlenq q hq
    have h0 : len (0 : P3 K) = 0 := by
      have := (hl 0).2
      simp only [Spec.inner, Pi.zero_apply, mul_zero, Finset.sum_const_zero, mul_self_eq_zero] at this
      exact this
    rw [h, h0] at hz
    exact absurd hz (not_le.2 he)
  have hside : ∀ q ∈ fanPairs (r.map fun e => co (p e)), 0 < σ * Spec.inner d (cornerNormal (co v.index) q.1 q.2) := by
    intro q hq
    obtain ⟨f, hf, j, hj, hjv, ho⟩ := hrel q hq
    have := hd f hf j hj hjv
    rw [ho, inner_smul] at this
    exact this
  have hne : fanPairs (r.map fun e => co (p e)) ≠ [] := by
    rw [fanPairs_eq, ← hR]
    simp
  have hptne : (r.map fun e => co (p e)) ≠ [] := by rw [← hR]; simp
  obtain ⟨a, hal⟩ : ∃ a, (r.map fun e => co (p e)).getLast? = some a := ⟨_, List.getLast?_eq_getLast_of_ne_nil hptne⟩
  obtain ⟨b, hbl⟩ : ∃ b, (r.map fun e => co (p e)).head? = some b := ⟨_, List.head?_eq_some_head hptne⟩
  have hab := List.mem_of_getLast? (last_pair hal hbl)
  have hvn := vertexNormal_eq (len := len) (ang := ang) (eps := eps) (c := co v.index) hal hbl ((hlenq _ hab).trans (le_abs_self _))
    fun q hq => (hang q (by rw [← hwide]; exact hq)).ne'
  rw [hwide] at hvn
  have hpos := mean_side (len := len) (ang := ang) (c := co v.index) hne (fun q hq => he.trans_le (hlenq q hq)) hang hside
  have hsign : signOf m r = .ok (!decide (Rightly w v.index c p (F 0) e0)) := by
    have hcom : Order.surfFromEdges m e0 e1 (-1) = .ok (F 0).index := by
      rw [g2 0 (by omega)]
      refine common_surf hm (g1 0 e0 hr0) (g1 1 e1 hr1) (fun h => ?_) (fun h => ?_)
      · have := g4 0 2 (by omega) (by rw [← hR]; simp) h
        omega
      · have := g4 1 2 (by omega) (by rw [← hR]; simp) h
        omega
    have h0m := har.mem 0 (by omega)
    have hpos0 := hm.sound.pos.surfs _ ⟨F 0, h0m, rfl⟩
    have hord := (har.side 0 (by omega)).2.2
    have hfl := flip_at hm hc har hr0 hr1'
    rw [← hR]
    unfold signOf
    simp only [hcom, Except.bind]
    rw [if_neg (by omega), Smooth.isearch_self hm.sound.unique.surfs h0m]
    simp only [hord, if_true, hfl, Except.map]
    by_cases hR0 : Rightly w v.index c p (F 0) e0 <;> simp [hR0]
  refine ⟨fun i => σ * unit len (angleMean len ang (co v.index) (fanPairs (r.map fun e => co (p e)))) i, ?_, ?_, ?_⟩
  · unfold vertNormal
    rw [hpts]
    simp only [Except.bind, hvn, hsign, Except.map]
    refine congrArg Except.ok (Prod.ext (funext fun i => ?_) rfl)
    rw [← hσ]
    by_cases hR0 : Rightly w v.index c p (F 0) e0 <;> simp [hR0]
  · refine unit_len hl (fun h => ?_) σ hσ2
    rw [len_zero hl h] at hpos
    simp [Spec.inner] at hpos
  · have hn0 : len (angleMean len ang (co v.index) (fanPairs (r.map fun e => co (p e)))) ≠ 0 := fun h => by
      rw [len_zero hl h] at hpos
      simp [Spec.inner] at hpos
    have hn : 0 < len (angleMean len ang (co v.index) (fanPairs (r.map fun e => co (p e)))) := lt_of_le_of_ne (hl _).1 hn0.symm
    rw [inner_smul]
    have : Spec.inner d (unit len (angleMean len ang (co v.index) (fanPairs (r.map fun e => co (p e))))) =
        (1 / len (angleMean len ang (co v.index) (fanPairs (r.map fun e => co (p e))))) *
          Spec.inner d (angleMean len ang (co v.index) (fanPairs (r.map fun e => co (p e)))) := by
      rw [← inner_smul]
      congr 1
      funext i
      unfold unit
      ring
    rw [this, mul_left_comm]
    exact mul_pos (by positivity) hpos

end RSVS.VertNormal
