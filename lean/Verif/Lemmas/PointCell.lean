import Mathlib.Tactic.Ring
import Mathlib.Tactic.Linarith
import Verif.Lemmas.FaceFanMesh
import Verif.Lemmas.SmoothPlane
import Verif.Model.PointCell
import Verif.Spec.PointCell

/-!
# Lemmas about the volume in which a point lies
-/

namespace RSVS.PointCell

open RSVS RSVS.Mesh RSVS.Geo RSVS.Spec RSVS.FaceFan

variable {K : Type} [Field K] [LinearOrder K] [IsStrictOrderedRing K]

theorem bindOk {α β : Type} {x : Res α} {f : α → Res β} {b : β} (h : Except.bind x f = .ok b) : ∃ a, x = .ok a ∧ f a = .ok b := by
  cases x with
  | error e => cases h
  | ok a => exact ⟨a, rfl, h⟩

theorem isearch_found {α : Type} {ix : α → Int} {l : List α} {k : Int} {a : α} (h : isearch ix l k = .ok a) : a ∈ l ∧ ix a = k := by
  by_cases hk : ∃ a ∈ l, ix a = k
  · obtain ⟨b, hb, hb2⟩ := elemAt_posOf_ok hk
    have : isearch ix l k = .ok b := hb
    rw [h] at this
    cases this
    exact hb2
  · exfalso
    rcases posOf_cases (ix := ix) l k with ⟨g, -⟩ | ⟨p, -, hp, g⟩
    · unfold isearch at h
      rw [g] at h
      cases h
    · exact hk ⟨_, List.getElem_mem hp, g⟩

theorem foldl_three {near : Int → Int → Bool} (a b c : Int) : ∀ es : List (Int × Int),
    es.foldl (Curv.pointStep near) [a, b, c] = [a, b, c]
  | [] => rfl
  | e :: es => by
    rw [List.foldl_cons]
    have : Curv.pointStep near [a, b, c] e = [a, b, c] := by
      unfold Curv.pointStep
      split <;> rfl
    rw [this]
    exact foldl_three a b c es

theorem mapM_ok {α β : Type} {f : α → Res β} : ∀ (l : List α), (∀ a ∈ l, ∃ b, f a = .ok b) →
    ∃ r, l.mapM (m := Except Fault) f = .ok r
  | [], _ => ⟨[], rfl⟩
  | a :: l, h => by
    obtain ⟨b, hb⟩ := h a (by simp)
    obtain ⟨r, hr⟩ := mapM_ok l fun a ha => h a (List.mem_cons_of_mem _ ha)
    refine ⟨b :: r, ?_⟩
    rw [List.mapM_cons, hb, hr]
    rfl

theorem mapM_get {α β : Type} {f : α → Res β} : ∀ {l : List α} {r : List β}, l.mapM (m := Except Fault) f = .ok r →
    r.length = l.length ∧ ∀ (i : Nat) (b : β), r[i]? = some b → ∃ a, l[i]? = some a ∧ f a = .ok b
  | [], r, h => by cases h; simp
  | a :: l, r, h => by
    rw [List.mapM_cons] at h
    obtain ⟨b, hb, h⟩ := bindOk h
    obtain ⟨r', hr, h⟩ := bindOk h
    cases h
    obtain ⟨g1, g2⟩ := mapM_get hr
    refine ⟨by simp [g1], fun i c hi => ?_⟩
    cases i with
    | zero => simp at hi; exact ⟨a, rfl, hi ▸ hb⟩
    | succ i => exact g2 i c (by simpa using hi)

theorem endsOf_ok {m : Mesh} (hm : Sound m) {e : Edge} (he : e ∈ m.edges) {a b : Int} (h : e.vertind = [a, b]) :
    Curv.endsOf m e.index = .ok (a, b) := by
  unfold Curv.endsOf
  rw [Smooth.isearch_self hm.unique.edges he]
  simp only [Except.bind, h]
  rfl

/-- The three points of a surface. -/
theorem threePoints_ok {m : Mesh} (hm : Sound m) {near : Int → Int → Bool} {co : Int → P3 K} {fw : Bool} {w : Int → Nat → Int}
    (hf : FacesAlong m near co fw w) {f : Surf} (h : f ∈ m.surfs) :
    Curv.threePoints m near f.index =
      .ok (if fw then [w f.index 0, w f.index 1, w f.index 2] else [w f.index 1, w f.index 0, w f.index 2]) := by
  obtain ⟨h3, hj, hc, hi⟩ := hf.ring f h
  have ha := hf.apart f h
  have h1 := hf.first f h
  unfold Curv.threePoints
  rw [Smooth.isearch_self hm.unique.surfs h]
  simp only [Except.bind]
  generalize f.edgeind = es at *
  match es, h3 with
  | e0 :: e1 :: e2 :: es, _ =>
    have n02 : w f.index 2 ≠ w f.index 0 := fun e => by have := hi 2 0 (by simp) (by simp) e; omega
    have n12 : w f.index 2 ≠ w f.index 1 := fun e => by have := hi 2 1 (by simp) (by simp) e; omega
    have d20 := ha 2 0 (by simp) (by simp) (by omega)
    have d21 := ha 2 1 (by simp) (by simp) (by omega)
    have d12 := ha 1 2 (by simp) (by simp) (by omega)
    have d01 := ha 0 1 (by simp) (by simp) (by omega)
    have d10 := ha 1 0 (by simp) (by simp) (by omega)
    obtain ⟨x0, hx0, i0, -⟩ := hj 0 e0 rfl
    obtain ⟨x1, hx1, i1, v1⟩ := hj 1 e1 rfl
    have v0 := h1 x0 hx0 (by simp [i0])
    have hr : ∀ e ∈ e2 :: es, ∃ b, Curv.endsOf m e = .ok b := by
      intro e he
      obtain ⟨k, hk⟩ := List.getElem?_of_mem he
      obtain ⟨x, hx, ix, vx⟩ := hj (k + 2) e (by simpa using hk)
      subst ix
      rcases vx with vx | vx <;> exact ⟨_, endsOf_ok hm hx vx⟩
    obtain ⟨r, hr⟩ := mapM_ok _ hr
    have g0 : Curv.endsOf m e0 = .ok (if fw then (w f.index 0, w f.index 1) else (w f.index 1, w f.index 0)) := by
      rw [← i0]
      cases fw
      · exact endsOf_ok hm hx0 v0
      · exact endsOf_ok hm hx0 v0
    have g1 : Curv.endsOf m e1 = .ok (w f.index 1, w f.index 2) ∨ Curv.endsOf m e1 = .ok (w f.index 2, w f.index 1) := by
      rw [← i1]
      rcases v1 with v1 | v1
      · exact .inl (endsOf_ok hm hx1 v1)
      · exact .inr (endsOf_ok hm hx1 v1)
    rw [List.mapM_cons, List.mapM_cons, hr, g0]
    rcases g1 with g1 | g1 <;> rw [g1] <;> cases fw <;>
      simp [bind, Except.bind, pure, Except.pure, Except.map, Curv.pointStep, n02, n12, d20, d21, d12, d01, d10, foldl_three]

omit [LinearOrder K] [IsStrictOrderedRing K] in
/-- The distance to the plane of a surface. -/
theorem distance_ok (fw : Bool) (a b c x : P3 K) :
    vertexDistance (if fw then a else b) (if fw then b else a) c [x 0, x 1, x 2] =
      .ok ((if fw then -1 else 1) * sixVol a b c x) := by
  cases fw
  · simp only [vertexDistance, dotList, planeNormal, diffPoints, cross, dot, sixVol, vecGet]
    simp [bind, Except.bind, pure, Except.pure]
    ring
  · simp only [vertexDistance, dotList, planeNormal, diffPoints, cross, dot, sixVol, vecGet]
    simp [bind, Except.bind, pure, Except.pure]
    ring

/-- What a surface of volume `c` tells. -/
theorem lookAt_ok {m : Mesh} (hm : Sound m) {near : Int → Int → Bool} {co : Int → P3 K} {fw : Bool} {w : Int → Nat → Int}
    (hf : FacesAlong m near co fw w) {eps : K} (he : 0 < eps) (flip : Bool) (x : P3 K) {f : Surf} (h : f ∈ m.surfs) {c : Int} (hc : c ∈ f.voluind) :
    ∃ o ∈ f.voluind, o ≠ c ∧ (∀ d ∈ f.voluind, d = c ∨ d = o) ∧
      lookAt m near co eps flip [x 0, x 1, x 2] c f.index =
        if |beyond co (w f.index) f c x| < eps then .ok .on
        else if 0 < (if flip = fw then 1 else -1) * beyond co (w f.index) f c x then .ok (.side o) else .ok (.side c) := by
  obtain ⟨a, b, hv, hab⟩ := hf.two f h
  have h3 := (hf.ring f h).1
  have key : lookAt m near co eps flip [x 0, x 1, x 2] c f.index =
      (if |(if fw then -1 else 1) * sixVol (co (w f.index 0)) (co (w f.index 1)) (co (w f.index 2)) x| < eps then .ok .on
      else (vecGet f.voluind (if 0 < ((if fw then -1 else 1) * sixVol (co (w f.index 0)) (co (w f.index 1)) (co (w f.index 2)) x) *
        (if flip then -1 else 1) then 1 else 0)).map Look.side) := by
    unfold lookAt
    rw [Smooth.isearch_self hm.unique.surfs h]
    simp only [Except.bind]
    rw [if_neg (by rw [hf.ordered f h]; simp), if_neg (by omega), threePoints_ok hm hf h]
    have := distance_ok fw (co (w f.index 0)) (co (w f.index 1)) (co (w f.index 2)) x
    cases fw
    · simp only [Bool.false_eq_true, if_false] at this ⊢
      simp only [List.length_cons, List.length_nil, ne_eq, List.getD_cons_zero, List.getD_cons_succ]
      simp [this]
    · simp only [if_true] at this ⊢
      simp only [List.length_cons, List.length_nil, ne_eq, List.getD_cons_zero, List.getD_cons_succ]
      simp [this]
  rw [key]
  unfold beyond
  rw [hv] at hc ⊢
  generalize sixVol (co (w f.index 0)) (co (w f.index 1)) (co (w f.index 2)) x = s
  have g0 : vecGet [a, b] 0 = .ok a := rfl
  have g1 : vecGet [a, b] 1 = .ok b := rfl
  simp only [List.mem_cons, List.not_mem_nil, or_false] at hc
  rcases hc with rfl | rfl
  · refine ⟨b, by simp, hab.symm, by simp, ?_⟩
    cases fw <;> cases flip <;> simp <;>
      · split
        · rfl
        · split
          · simp [g1, Except.map]
          · simp [g0, Except.map]
  · refine ⟨a, by simp, hab, by simp [or_comm], ?_⟩
    have e : |(-s)| = |s| := abs_neg s
    cases fw <;> cases flip <;> simp [hab] <;>
      · split
        · rfl
        · rename_i hs
          have hs0 : s ≠ 0 := fun h0 => hs (by simpa [h0] using he)
          rcases lt_or_gt_of_ne hs0 with hs0 | hs0
          · simp [hs0, not_lt.2 hs0.le, g1, g0, Except.map]
          · simp [hs0, not_lt.2 hs0.le, g1, g0, Except.map]

theorem faceLoop_ok {look : Int → Res Look} {c : Int} : ∀ {ss : List Int} {valid : Bool} {alt : Option Int} {o : Out},
    faceLoop look c ss valid alt = .ok o →
      (o = .inside → (∀ s ∈ ss, (∃ a, look s = .ok (.flat a)) ∨ look s = .ok .on ∨ look s = .ok (.side c)) ∧
        (valid = true ∨ ∃ s ∈ ss, look s = .ok .on ∨ look s = .ok (.side c))) ∧
      (o = .outside → ∃ s ∈ ss, look s = .ok (.side 0))
  | [], true, _, _, h => by cases h; simp
  | [], false, some _, _, h => by cases h; simp
  | [], false, none, _, h => by cases h
  | s :: ss, valid, alt, o, h => by
    unfold faceLoop at h
    obtain ⟨l, h1, h2⟩ := bindOk h
    cases l with
    | flat a =>
      have ih := faceLoop_ok h2
      refine ⟨fun ho => ⟨?_, ?_⟩, fun ho => ?_⟩
      · intro t ht
        rcases List.mem_cons.1 ht with rfl | ht
        · exact .inl ⟨a, h1⟩
        · exact (ih.1 ho).1 t ht
      · rcases (ih.1 ho).2 with g | ⟨t, ht, g⟩
        · exact .inl g
        · exact .inr ⟨t, List.mem_cons_of_mem _ ht, g⟩
      · obtain ⟨t, ht, g⟩ := ih.2 ho
        exact ⟨t, List.mem_cons_of_mem _ ht, g⟩
    | on =>
      have ih := faceLoop_ok h2
      refine ⟨fun ho => ⟨?_, .inr ⟨s, by simp, .inl h1⟩⟩, fun ho => ?_⟩
      · intro t ht
        rcases List.mem_cons.1 ht with rfl | ht
        · exact .inr (.inl h1)
        · exact (ih.1 ho).1 t ht
      · obtain ⟨t, ht, g⟩ := ih.2 ho
        exact ⟨t, List.mem_cons_of_mem _ ht, g⟩
    | side d =>
      simp only at h2
      split at h2
      · rename_i hd
        cases h2
        exact ⟨fun ho => by simp at ho, fun _ => ⟨s, by simp, hd ▸ h1⟩⟩
      · split at h2
        · cases h2
          exact ⟨fun ho => by simp at ho, fun ho => by simp at ho⟩
        · rename_i hd
          have hd : d = c := not_not.1 hd
          subst hd
          have ih := faceLoop_ok h2
          refine ⟨fun ho => ⟨?_, .inr ⟨s, by simp, .inr h1⟩⟩, fun ho => ?_⟩
          · intro t ht
            rcases List.mem_cons.1 ht with rfl | ht
            · exact .inr (.inr h1)
            · exact (ih.1 ho).1 t ht
          · obtain ⟨t, ht, g⟩ := ih.2 ho
            exact ⟨t, List.mem_cons_of_mem _ ht, g⟩

theorem walk_ok {m : Mesh} {look : Int → Int → Res Look} :
    ∀ {n : Nat} {c : Int} {alt : Option Int} {r : Int}, walk m look n c alt = .ok r →
      (∃ v ∈ m.volus, v.index = r ∧
        ∀ s ∈ v.surfind, (∃ a, look r s = .ok (.flat a)) ∨ look r s = .ok .on ∨ look r s = .ok (.side r)) ∨
      (r = 0 ∧ ∃ v ∈ m.volus, ∃ s ∈ v.surfind, look v.index s = .ok (.side 0))
  | 0, _, _, _, h => by cases h
  | n + 1, c, alt, r, h => by
    unfold walk at h
    obtain ⟨v, hv, h⟩ := bindOk h
    obtain ⟨o, ho, h⟩ := bindOk h
    obtain ⟨hvm, hvi⟩ : v ∈ m.volus ∧ v.index = c := isearch_found hv
    cases o with
    | inside => cases h; exact .inl ⟨v, hvm, hvi, ((faceLoop_ok ho).1 rfl).1⟩
    | outside =>
      cases h
      obtain ⟨s, hs, g⟩ := (faceLoop_ok ho).2 rfl
      exact .inr ⟨rfl, v, hvm, s, hs, hvi ▸ g⟩
    | next d a => exact walk_ok h

/-- One point, with the right sign: the volume in which it is, or it is outside of a surface of the outside. -/
theorem point_right {m : Mesh} (hm : Sound m) {near : Int → Int → Bool} {co : Int → P3 K} {fw : Bool} {w : Int → Nat → Int}
    (hf : FacesAlong m near co fw w) {eps : K} (he : 0 < eps) {x : P3 K} {r : Int}
    (h : pointInVolume m near co eps fw [x 0, x 1, x 2] = .ok r) :
    (m.volus = [] ∧ r = 0) ∨ InCell m co w eps r x ∨
      (r = 0 ∧ ∃ f ∈ m.surfs, 0 ∈ f.voluind ∧ ∃ d ∈ f.voluind, d ≠ 0 ∧ eps ≤ beyond co (w f.index) f d x) := by
  unfold pointInVolume at h
  split at h
  · rename_i hv
    cases h
    exact .inl ⟨hv, rfl⟩
  · right
    rcases walk_ok h with ⟨v, hv, hi, g⟩ | ⟨h0, v, hv, s, hs, g⟩
    · left
      refine ⟨⟨v, hv, hi⟩, fun f hfm hc => ?_⟩
      have hr : r ≠ 0 := by have := hm.pos.volus r ⟨v, hv, hi⟩; omega
      have hs : VoluSurf m r f.index := (sound_sc hm f.index r).2 ⟨⟨f, hfm, rfl, hc⟩, hr⟩
      obtain ⟨v', hv', hi', hs'⟩ := hs
      cases inj_of_nodup hm.unique.volus hv' hv (hi'.trans hi.symm)
      obtain ⟨o, -, ho, -, hl⟩ := lookAt_ok hm hf he fw x hfm hc
      have := g f.index hs'
      rw [hl] at this
      by_cases h1 : |beyond co (w f.index) f r x| < eps
      · exact ((le_abs_self _).trans_lt h1).le
      · rw [if_neg h1] at this
        by_cases h2 : 0 < (if fw = fw then 1 else -1) * beyond co (w f.index) f r x
        · rw [if_pos h2] at this
          simp at this
          exact absurd this ho
        · simp at h2
          exact h2.trans he.le
    · right
      refine ⟨h0, ?_⟩
      obtain ⟨⟨f, hfm, hfi, hc⟩, hv0⟩ := (sound_sc hm s v.index).1 ⟨v, hv, rfl, hs⟩
      obtain ⟨o, hom, ho, -, hl⟩ := lookAt_ok hm hf he fw x hfm hc
      rw [← hfi, hl] at g
      by_cases h1 : |beyond co (w f.index) f v.index x| < eps
      · rw [if_pos h1] at g
        cases g
      · rw [if_neg h1] at g
        by_cases h2 : 0 < (if fw = fw then 1 else -1) * beyond co (w f.index) f v.index x
        · rw [if_pos h2] at g
          simp at g
          subst g
          refine ⟨f, hfm, hom, v.index, hc, hv0, ?_⟩
          simp at h2
          rw [abs_of_pos h2] at h1
          exact not_lt.1 h1
        · rw [if_neg h2] at g
          simp at g
          exact absurd g hv0

/-- One point, with the wrong sign: never a volume. -/
theorem point_wrong {m : Mesh} (hm : Sound m) {near : Int → Int → Bool} {co : Int → P3 K} {fw : Bool} {w : Int → Nat → Int}
    (hf : FacesAlong m near co fw w) {eps : K} (he : 0 < eps) (hb : Bounded m co w eps) {x : P3 K} {r : Int}
    (h : pointInVolume m near co eps (!fw) [x 0, x 1, x 2] = .ok r) : r = 0 := by
  unfold pointInVolume at h
  split at h
  · cases h
    rfl
  · rcases walk_ok h with ⟨v, hv, hi, g⟩ | ⟨h0, -⟩
    · exfalso
      obtain ⟨f, hfm, hc, hn⟩ := hb r ⟨v, hv, hi⟩ x
      have hr : r ≠ 0 := by have := hm.pos.volus r ⟨v, hv, hi⟩; omega
      have hs : VoluSurf m r f.index := (sound_sc hm f.index r).2 ⟨⟨f, hfm, rfl, hc⟩, hr⟩
      obtain ⟨v', hv', hi', hs'⟩ := hs
      cases inj_of_nodup hm.unique.volus hv' hv (hi'.trans hi.symm)
      obtain ⟨o, -, ho, -, hl⟩ := lookAt_ok hm hf he (!fw) x hfm hc
      have := g f.index hs'
      have hneg : beyond co (w f.index) f r x < 0 := by linarith
      rw [hl, if_neg (by rw [abs_of_neg hneg]; linarith), if_pos (by simp; exact hneg)] at this
      simp at this
      exact ho this
    · exact h0

omit [IsStrictOrderedRing K] in
theorem readPoint_ok {l : List K} {size i : Nat} {x : List K} (h : readPoint l size i = .ok x) :
    x = [ptAt l size i 0, ptAt l size i 1, ptAt l size i 2] := by
  unfold readPoint at h
  split at h
  · rename_i hl
    cases h
    apply List.ext_getElem?
    intro k
    unfold ptAt
    match k with
    | 0 => simp [show i * size < l.length by omega]
    | 1 => simp [show i * size + 1 < l.length by omega]
    | 2 => simp [show i * size + 2 < l.length by omega]
    | k + 3 => simp
  · cases h

/-- Many points. -/
theorem points_right {m : Mesh} (hm : Sound m) {near : Int → Int → Bool} {co : Int → P3 K} {fw : Bool} {w : Int → Nat → Int}
    (hf : FacesAlong m near co fw w) {eps : K} (he : 0 < eps) (hb : Bounded m co w eps) (hx : ConvexMesh m co w) {l : List K}
    {size : Nat} (h1 : fw = true ∨ ∃ c, InCell m co w 0 c (ptAt l size 0)) {rs : List Int}
    (h : pointsInVolumes m near co eps l size = .ok rs) :
    rs.length = l.length / size ∧ ∀ i r, rs[i]? = some r → RightCell m co w eps (ptAt l size i) r := by
  have hout : ∀ {x : P3 K} {r : Int}, pointInVolume m near co eps fw [x 0, x 1, x 2] = .ok r → RightCell m co w eps x r := by
    intro x r h
    rcases point_right hm hf he h with ⟨g1, g2⟩ | g | ⟨g1, f, hfm, h0, d, hd, hd0, g⟩
    · refine .inr ⟨g2, fun c hc => ?_⟩
      obtain ⟨v, hv, -⟩ := hc.1
      rw [g1] at hv
      cases hv
    · refine .inl ⟨?_, g⟩
      have := hm.pos.volus r g.1
      omega
    · refine .inr ⟨g1, fun c hc => ?_⟩
      have := hx c x hc f hfm h0 d hd hd0
      linarith
  unfold pointsInVolumes at h
  split at h
  · cases h
  split at h
  · cases h
  obtain ⟨x, hx1, h2⟩ := bindOk h
  obtain ⟨r, hr, h3⟩ := bindOk h2
  rw [readPoint_ok hx1] at hr
  have hflip : decide (r = 0) = fw := by
    cases fw
    · rcases hout hr with ⟨g, -⟩ | ⟨-, g⟩
      · simpa using g
      · rcases h1 with h1 | ⟨c, hc⟩
        · cases h1
        · exact absurd hc (g c)
    · simpa using point_wrong hm hf he hb hr
  rw [hflip] at h3
  obtain ⟨g1, g2⟩ := mapM_get h3
  refine ⟨by simpa using g1, fun i r hi => ?_⟩
  obtain ⟨a, ha, hb⟩ := g2 i r hi
  obtain rfl : i = a := by
    have := (List.getElem?_eq_some_iff.1 ha).2
    simpa using this
  obtain ⟨y, hy1, hy2⟩ := bindOk hb
  have hy1 := readPoint_ok hy1
  subst hy1
  exact hout hy2

theorem faceLoop_run {look : Int → Res Look} {c : Int} : ∀ {ss : List Int} {valid : Bool} {alt : Option Int},
    (ss ≠ [] ∨ valid = true) → (∀ s ∈ ss, look s = .ok .on ∨ ∃ d, look s = .ok (.side d)) →
      faceLoop look c ss valid alt = .ok .inside ∨ faceLoop look c ss valid alt = .ok .outside ∨
        ∃ d alt', faceLoop look c ss valid alt = .ok (.next d alt') ∧ d ≠ 0 ∧ d ≠ c ∧ ∃ s ∈ ss, look s = .ok (.side d)
  | [], valid, alt, h, _ => by
    simp at h
    subst h
    exact .inl rfl
  | s :: ss, valid, alt, _, hl => by
    have ih := faceLoop_run (look := look) (c := c) (ss := ss) (valid := true) (alt := alt) (.inr rfl)
      fun s hs => hl s (List.mem_cons_of_mem _ hs)
    have up : faceLoop look c (s :: ss) valid alt = faceLoop look c ss true alt →
        faceLoop look c (s :: ss) valid alt = .ok .inside ∨ faceLoop look c (s :: ss) valid alt = .ok .outside ∨
        ∃ d alt', faceLoop look c (s :: ss) valid alt = .ok (.next d alt') ∧ d ≠ 0 ∧ d ≠ c ∧ ∃ t ∈ s :: ss, look t = .ok (.side d) := by
      intro e
      rw [e]
      rcases ih with g | g | ⟨d, a, g, g0, gc, t, ht, g1⟩
      · exact .inl g
      · exact .inr (.inl g)
      · exact .inr (.inr ⟨d, a, g, g0, gc, t, List.mem_cons_of_mem _ ht, g1⟩)
    rcases hl s (by simp) with g | ⟨d, g⟩
    · refine up ?_
      rw [faceLoop, g]
      rfl
    · by_cases h0 : d = 0
      · refine .inr (.inl ?_)
        rw [faceLoop, g]
        simp only [Except.bind, h0, if_true]
      · by_cases hc : d = c
        · refine up ?_
          rw [faceLoop, g]
          simp only [Except.bind]
          rw [if_neg h0, if_neg (not_not.2 hc)]
        · refine .inr (.inr ⟨d, alt, ?_, h0, hc, s, by simp, g⟩)
          rw [faceLoop, g]
          simp only [Except.bind, if_neg h0, ne_eq, hc, not_false_eq_true, if_true]

/-- The walk does not run into undefined behaviour. -/
theorem walk_run {m : Mesh} (hm : Sound m) {near : Int → Int → Bool} {co : Int → P3 K} {fw : Bool} {w : Int → Nat → Int}
    (hf : FacesAlong m near co fw w) {eps : K} (he : 0 < eps) (hb : Bounded m co w eps) (flip : Bool) (x : P3 K) :
    ∀ {n : Nat} {c : Int} {alt : Option Int}, HasVolu m c →
      (∃ r, walk m (lookAt m near co eps flip [x 0, x 1, x 2]) n c alt = .ok r) ∨
      (walk m (lookAt m near co eps flip [x 0, x 1, x 2]) n c alt = .error .throws ∧
        (n = 0 ∨ ∃ d, HasVolu m d ∧ d ≠ c))
  | 0, c, alt, _ => .inr ⟨rfl, .inl rfl⟩
  | n + 1, c, alt, ⟨v, hv, hi⟩ => by
    subst hi
    have hr : v.index ≠ 0 := by have := hm.pos.volus _ ⟨v, hv, rfl⟩; omega
    rw [walk, Smooth.isearch_self hm.unique.volus hv]
    simp only [Except.bind]
    have hne : v.surfind ≠ [] := by
      obtain ⟨f, hfm, hc, -⟩ := hb v.index ⟨v, hv, rfl⟩ x
      obtain ⟨v', hv', hi', hs'⟩ := (sound_sc hm f.index v.index).2 ⟨⟨f, hfm, rfl, hc⟩, hr⟩
      cases inj_of_nodup hm.unique.volus hv' hv hi'
      intro h
      rw [h] at hs'
      cases hs'
    have hl : ∀ s ∈ v.surfind, lookAt m near co eps flip [x 0, x 1, x 2] v.index s = .ok .on ∨
        ∃ d, lookAt m near co eps flip [x 0, x 1, x 2] v.index s = .ok (.side d) ∧ (d ≠ 0 → HasVolu m d) := by
      intro s hs
      obtain ⟨⟨f, hfm, hfi, hc⟩, hv0⟩ := (sound_sc hm s v.index).1 ⟨v, hv, rfl, hs⟩
      obtain ⟨o, hom, ho, -, hl⟩ := lookAt_ok hm hf he flip x hfm hc
      rw [← hfi, hl]
      by_cases h1 : |beyond co (w f.index) f v.index x| < eps
      · rw [if_pos h1]
        exact .inl rfl
      · rw [if_neg h1]
        by_cases h2 : 0 < (if flip = fw then 1 else -1) * beyond co (w f.index) f v.index x
        · rw [if_pos h2]
          exact .inr ⟨o, rfl, fun h0 => hm.noDangling.surfVolu f.index o ⟨f, hfm, rfl, hom⟩ h0⟩
        · rw [if_neg h2]
          exact .inr ⟨v.index, rfl, fun _ => ⟨v, hv, rfl⟩⟩
    rcases faceLoop_run (look := lookAt m near co eps flip [x 0, x 1, x 2] v.index) (c := v.index) (valid := false) (alt := alt)
      (.inl hne) (fun s hs => (hl s hs).imp id fun ⟨d, g, _⟩ => ⟨d, g⟩) with g | g | ⟨d, a, g, g0, gc, s, hs, gs⟩
    · rw [g]
      exact .inl ⟨_, rfl⟩
    · rw [g]
      exact .inl ⟨_, rfl⟩
    · rw [g]
      have hd : HasVolu m d := by
        rcases hl s hs with h | ⟨d', h, h'⟩
        · rw [h] at gs
          cases gs
        · rw [h] at gs
          cases gs
          exact h' g0
      rcases walk_run hm hf he hb flip x (n := n) (alt := a) hd with h | ⟨h, -⟩
      · exact .inl h
      · exact .inr ⟨h, .inr ⟨d, hd, gc⟩⟩

end RSVS.PointCell
