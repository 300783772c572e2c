import Verif.Lemmas.VertNormalSign

/-!
# Lemmas for the normal at a vertex: the outward side
-/

namespace RSVS.VertNormal

open RSVS RSVS.Mesh RSVS.Geo RSVS.Spec RSVS.Props

variable {K : Type} [Field K] [LinearOrder K] [IsStrictOrderedRing K]

/-- The surroundings of a vertex: edges `r` in a ring with the other ends `p`, edge `k` between the surfaces `F (k - 1)` and `F k`. -/
structure Around (m : Mesh) (w : Int → Nat → Int) (v c : Int) (r : List Int) (p : Int → Int) (F : Nat → Surf) : Prop where
  three : 3 ≤ r.length
  ends : ∀ e ∈ r, EdgeJoins m e v (p e)
  mem : ∀ k < r.length, F k ∈ m.surfs
  here : ∀ k (e : Int), r[k]? = some e → e ∈ (F k).edgeind
  next : ∀ k (e : Int), k < r.length → r[(k + 1) % r.length]? = some e → e ∈ (F k).edgeind
  once : r.Nodup
  apart : ∀ k, k + 1 < r.length → (F k).index ≠ (F (k + 1)).index
  side : ∀ k < r.length, c ∈ (F k).voluind ∧ 0 ∈ (F k).voluind ∧ (F k).isordered = true

theorem around_passes {m : Mesh} {w : Int → Nat → Int} (hm : SolidMesh m w) {v c : Int} {r : List Int} {p : Int → Int} {F : Nat → Surf}
    (h : Around m w v c r p F) {k : Nat} {e e' : Int} (hk : r[k]? = some e) (hk' : r[(k + 1) % r.length]? = some e') :
    Passes (F k) (w (F k).index) e e' v (p e) (p e') ∨ Passes (F k) (w (F k).index) e' e v (p e') (p e) := by
  have hkl := (List.getElem?_eq_some_iff.1 hk).1
  refine passes hm.sound (hm.ring _ (h.mem k hkl)) ?_ (h.here k e hk) (h.next k e' hkl hk') (h.ends e (List.mem_of_getElem? hk))
    (h.ends e' (List.mem_of_getElem? hk'))
  rintro rfl
  have h3 := h.three
  have hlt := Nat.mod_lt (k + 1) (show 0 < r.length by omega)
  obtain ⟨h1, h2⟩ := List.getElem?_eq_some_iff.1 hk
  obtain ⟨h1', h2'⟩ := List.getElem?_eq_some_iff.1 hk'
  have := (List.Nodup.getElem_inj_iff h.once).1 (h2.trans h2'.symm)
  rcases Nat.lt_or_ge (k + 1) r.length with g | g
  · rw [Nat.mod_eq_of_lt g] at this
    omega
  · rw [show k + 1 = r.length by omega, Nat.mod_self] at this
    omega

/-- The ring of surface `k` goes along edge `k` to the vertex exactly if the volume is its first one. -/
def Rightly (w : Int → Nat → Int) (v c : Int) (p : Int → Int) (f : Surf) (e : Int) : Prop :=
  RunsAlong (w f.index) f.edgeind.length (p e) v ↔ f.voluind.head? = some c

theorem runs_iff {m : Mesh} (hm : Sound m) {f : Surf} {w : Nat → Int} (hr : RingFace m f w) {e a b : Int} (hj : EdgeJoins m e a b)
    (he : e ∈ f.edgeind) : RunsAlong w f.edgeind.length a b ↔ ¬ RunsAlong w f.edgeind.length b a := by
  obtain ⟨x, hx, rfl, hv | hv⟩ := hj
  · rcases Orient.ring_dir hm hr hx hv he with h | h <;> tauto
  · rcases Orient.ring_dir hm hr hx hv he with h | h <;> tauto

theorem rightly_step {m : Mesh} {w : Int → Nat → Int} (hm : SolidMesh m w) (hco : Coherent m.edges m.surfs w) {v c : Int} (hc : c ≠ 0)
    {r : List Int} {p : Int → Int} {F : Nat → Surf} (h : Around m w v c r p F) {k : Nat} {e e' : Int} (hk : r[k]? = some e)
    (hk' : r[k + 1]? = some e') : Rightly w v c p (F k) e ↔ Rightly w v c p (F (k + 1)) e' := by
  have hl := (List.getElem?_eq_some_iff.1 hk).1
  have hl' := (List.getElem?_eq_some_iff.1 hk').1
  have hmod : r[(k + 1) % r.length]? = some e' := by rw [Nat.mod_eq_of_lt hl', hk']
  have hf := h.mem k hl
  have hg := h.mem (k + 1) hl'
  have hef := h.next k e' hl hmod
  have heg := h.here (k + 1) e' hk'
  have hj := h.ends e' (List.mem_of_getElem? hk')
  have h1 := runs_iff hm.sound (hm.ring _ hf) hj hef
  have h2 := runs_iff hm.sound (hm.ring _ hg) hj heg
  have hA : RunsAlong (w (F k).index) (F k).edgeind.length (p e) v ↔ RunsAlong (w (F k).index) (F k).edgeind.length v (p e') := by
    have h3 := runs_iff hm.sound (hm.ring _ hf) (h.ends e (List.mem_of_getElem? hk)) (h.here k e hk)
    rcases around_passes hm h hk hmod with g | g
    · have := passes_runs (hm.ring _ hf) g
      tauto
    · have := passes_runs (hm.ring _ hf) g
      tauto
  obtain ⟨x, hx, hxi, hxv⟩ := hj
  have hs : SharesEdge (F k) (F (k + 1)) x c := ⟨h.apart k hl', hxi ▸ hef, hxi ▸ heg, hc, (h.side k hl).1, (h.side (k + 1) hl').1⟩
  unfold Rightly
  rcases hxv with hv | hv
  · have := hco _ hf _ hg x hx _ _ c hv hs
    tauto
  · have := hco _ hf _ hg x hx _ _ c hv hs
    tauto

theorem rightly_all {m : Mesh} {w : Int → Nat → Int} (hm : SolidMesh m w) (hco : Coherent m.edges m.surfs w) {v c : Int} (hc : c ≠ 0)
    {r : List Int} {p : Int → Int} {F : Nat → Surf} (h : Around m w v c r p F) {e0 : Int} (h0 : r[0]? = some e0) :
    ∀ (k : Nat) (e : Int), r[k]? = some e → (Rightly w v c p (F k) e ↔ Rightly w v c p (F 0) e0)
  | 0, e, hk => by
    rw [h0] at hk
    cases hk
    exact Iff.rfl
  | k + 1, e, hk => by
    have hl := (List.getElem?_eq_some_iff.1 hk).1
    have hk' : r[k]? = some r[k] := List.getElem?_eq_getElem (by omega)
    exact (rightly_step hm hco hc h hk' hk).symm.trans (rightly_all hm hco hc h h0 k _ hk')

open Classical in
/-- The outward normal of a corner from the points around the vertex. -/
theorem out_eq {m : Mesh} {w : Int → Nat → Int} (hm : SolidMesh m w) {v c : Int} (hc : c ≠ 0)
    {r : List Int} {p : Int → Int} {F : Nat → Surf} (h : Around m w v c r p F) (co : Int → P3 K) {k : Nat} {e e' : Int}
    (hk : r[k]? = some e) (hk' : r[(k + 1) % r.length]? = some e') :
    ∃ j < (F k).edgeind.length, w (F k).index (j + 1) = v ∧ ∀ i, outCorner co (F k) (w (F k).index) j i =
      (if Rightly w v c p (F k) e then 1 else -1) * cornerNormal (co v) (co (p e)) (co (p e')) i := by
  have hl := (List.getElem?_eq_some_iff.1 hk).1
  have hr := hm.ring _ (h.mem k hl)
  obtain ⟨a, b, hab, hne⟩ := hm.two _ (h.mem k hl)
  obtain ⟨hcv, h0v, -⟩ := h.side k hl
  rw [hab] at hcv h0v
  have hhead : (F k).voluind.head? = some 0 ↔ ¬ (F k).voluind.head? = some c := by
    rw [hab]
    simp only [List.mem_cons, List.not_mem_nil, or_false, List.head?_cons, Option.some.injEq] at hcv h0v ⊢
    omega
  have h3 := runs_iff hm.sound hr (h.ends e (List.mem_of_getElem? hk)) (h.here k e hk)
  rcases around_passes hm h hk hk' with g | g
  · have hrun := (passes_runs hr g).1
    obtain ⟨j, g1, g2, g3, g4, g5⟩ := g
    refine ⟨j, (List.getElem?_eq_some_iff.1 g1).1, g4, fun i => ?_⟩
    unfold outCorner Rightly
    rw [g3, g4, g5]
    by_cases hh : (F k).voluind.head? = some 0
    · rw [if_pos hh, if_neg (by tauto)]
    · rw [if_neg hh, if_pos (by tauto)]
  · have hrun := (passes_runs hr g).2
    obtain ⟨j, g1, g2, g3, g4, g5⟩ := g
    refine ⟨j, (List.getElem?_eq_some_iff.1 g1).1, g4, fun i => ?_⟩
    unfold outCorner Rightly
    rw [g3, g4, g5, corner_swap]
    by_cases hh : (F k).voluind.head? = some 0
    · rw [if_pos hh, if_pos (by tauto)]
      ring
    · rw [if_neg hh, if_neg (by tauto)]
      ring

open Classical in
theorem flip_at {m : Mesh} {w : Int → Nat → Int} (hm : SolidMesh m w) {v c : Int} (hc : c ≠ 0)
    {r : List Int} {p : Int → Int} {F : Nat → Surf} (h : Around m w v c r p F) {k : Nat} {e e' : Int}
    (hk : r[k]? = some e) (hk' : r[(k + 1) % r.length]? = some e') :
    normalShouldFlip (F k).edgeind e e' (F k).voluind true = .ok (if Rightly w v c p (F k) e then 1 else -1) := by
  have hl := (List.getElem?_eq_some_iff.1 hk).1
  have hr := hm.ring _ (h.mem k hl)
  obtain ⟨a, b, hab, hne⟩ := hm.two _ (h.mem k hl)
  obtain ⟨hcv, h0v, -⟩ := h.side k hl
  rw [hab] at hcv h0v
  simp only [List.mem_cons, List.not_mem_nil, or_false] at hcv h0v
  have hflip := flip_ok (ring_nodup hm.sound hr) hr.1 (e1 := e) (e2 := e') hne (by omega) true
  have hb : b = 0 ↔ a = c := by omega
  have h3 := runs_iff hm.sound hr (h.ends e (List.mem_of_getElem? hk)) (h.here k e hk)
  have hhead : (F k).voluind.head? = some c ↔ b = 0 := by
    rw [hab, hb]
    simp
  rw [hab]
  rcases around_passes hm h hk hk' with g | g
  · have hrun := (passes_runs hr g).1
    rw [hflip.1 (passes_follows g)]
    unfold Rightly
    by_cases hh : b = 0
    · rw [if_pos (show _ ↔ _ by tauto)]
      simp [hh]
    · rw [if_neg (show ¬ (_ ↔ _) by tauto)]
      simp [hh]
  · have hrun := (passes_runs hr g).2
    rw [hflip.2 (passes_follows g)]
    unfold Rightly
    by_cases hh : b = 0
    · rw [if_neg (show ¬ (_ ↔ _) by tauto)]
      simp [hh]
    · rw [if_pos (show _ ↔ _ by tauto)]
      simp [hh]

end RSVS.VertNormal
