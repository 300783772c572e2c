import Verif.Model.StepLimit
import Verif.Spec.StepLimit
import Verif.Lemmas.MeshDetach
import Verif.Lemmas.Order
import Mathlib.Tactic

namespace RSVS.StepLimit

open RSVS RSVS.Mesh RSVS.Spec

theorem foldlM_flat {α β γ : Type} {step : γ → α → Res γ} {f : γ → β → Res γ} {g : α → List β} : ∀ {L : List α} (acc : γ),
    (∀ x ∈ L, ∀ a, step a x = (g x).foldlM (m := Except Fault) f a) →
      L.foldlM (m := Except Fault) step acc = (L.flatMap g).foldlM (m := Except Fault) f acc
  | [], acc, _ => rfl
  | x :: L, acc, h => by
    rw [List.foldlM_cons, h x (by simp), List.flatMap_cons, List.foldlM_append]
    refine congrArg _ (funext fun a => ?_)
    exact foldlM_flat a fun y hy => h y (by simp [hy])

variable {K : Type} [Field K] [LinearOrder K]

/-- What has been gathered. -/
def Gathered (m : Mesh) (len : Edge → K) (acc : List Int × Option K) : Prop :=
  acc.1.Nodup ∧ (∀ e ∈ acc.1, HasEdge m e) ∧
    ((acc.1 = [] ∧ acc.2 = none) ∨ ∃ a, acc.2 = some a ∧ IsLeast {l | ∃ x ∈ m.edges, x.index ∈ acc.1 ∧ len x = l} a)

theorem gatherEdge_ok {m : Mesh} (hn : (m.edges.map Edge.index).Nodup) (len : Edge → K) {acc : List Int × Option K}
    (ha : Gathered m len acc) {e : Int} (he : HasEdge m e) :
    ∃ r, gatherEdge m len acc e = .ok r ∧ Gathered m len r ∧ ∀ f, f ∈ r.1 ↔ f ∈ acc.1 ∨ f = e := by
  obtain ⟨h1, h2, h3⟩ := id ha
  unfold gatherEdge
  by_cases hmem : e ∈ acc.1
  · rw [if_pos hmem]
    refine ⟨acc, rfl, ha, fun f => ⟨.inl, ?_⟩⟩
    rintro (h | rfl)
    · exact h
    · exact hmem
  · rw [if_neg hmem]
    obtain ⟨x, hx, hxm, hxe⟩ := elemAt_posOf_ok (ix := Edge.index) he
    have hx' : isearch Edge.index m.edges e = .ok x := hx
    rw [hx']
    refine ⟨_, rfl, ⟨?_, ?_, .inr ⟨_, rfl, ?_⟩⟩, by simp⟩
    · exact List.nodup_append.2 ⟨h1, by simp, by rintro a ha b hb rfl; simp at hb; exact hmem (hb ▸ ha)⟩
    · intro f hf
      rcases List.mem_append.1 hf with h | h
      · exact h2 f h
      · rw [List.mem_singleton.1 h]; exact he
    · have huniq : ∀ y ∈ m.edges, y.index = e → y = x := fun y hy hye => inj_of_nodup hn hy hxm (hye.trans hxe.symm)
      rcases h3 with ⟨h4, h5⟩ | ⟨a, h4, h5⟩
      · rw [h5, h4]
        refine ⟨⟨x, hxm, by simp [hxe], rfl⟩, ?_⟩
        rintro l ⟨y, hy, hye, rfl⟩
        rw [huniq y hy (by simpa using hye)]
        exact le_refl _
      · rw [h4]
        refine ⟨?_, ?_⟩
        · change ∃ y ∈ m.edges, _ ∧ len y = min a (len x)
          rcases le_total a (len x) with h | h
          · obtain ⟨y, hy, hye, hl⟩ := h5.1
            exact ⟨y, hy, List.mem_append.2 (.inl hye), by rw [min_eq_left h, hl]⟩
          · exact ⟨x, hxm, List.mem_append.2 (.inr (by simp [hxe])), by rw [min_eq_right h]⟩
        · rintro l ⟨y, hy, hye, rfl⟩
          rcases List.mem_append.1 hye with h | h
          · exact le_trans (min_le_left _ _) (h5.2 ⟨y, hy, h, rfl⟩)
          · rw [huniq y hy (by simpa using h)]
            exact min_le_right _ _

theorem gatherList_ok {m : Mesh} (hn : (m.edges.map Edge.index).Nodup) (len : Edge → K) : ∀ {E : List Int}
    {acc : List Int × Option K}, Gathered m len acc → (∀ e ∈ E, HasEdge m e) →
      ∃ r, E.foldlM (m := Except Fault) (gatherEdge m len) acc = .ok r ∧ Gathered m len r ∧
        ∀ f, f ∈ r.1 ↔ f ∈ acc.1 ∨ f ∈ E
  | [], acc, ha, _ => ⟨acc, rfl, ha, by simp⟩
  | e :: E, acc, ha, hE => by
    obtain ⟨r, h1, h2, h3⟩ := gatherEdge_ok hn len ha (hE e (by simp))
    obtain ⟨q, h4, h5, h6⟩ := gatherList_ok hn len (E := E) h2 (fun f hf => hE f (by simp [hf]))
    refine ⟨q, ?_, h5, fun f => ?_⟩
    · rw [List.foldlM_cons, h1]
      exact h4
    · rw [h6, h3]
      simp [or_assoc]

/-- The edges met in the loops over the volumes of a cell. -/
def edgesMet (m : Mesh) (vols : List Nat) : List Int :=
  vols.flatMap fun v => match m.volus[v]? with
    | some c => c.surfind.flatMap fun s => match isearch Surf.index m.surfs s with
      | .ok f => f.edgeind
      | .error _ => []
    | none => []

variable {m : Mesh} {parents : List (List Int)} {conn : Nat → List Int} {kids : Nat → Int → List Nat}

theorem kid_lt (h : LimitReady m parents conn kids) {i : Nat} (hi : i < parents.length) {k : Int} {p : Nat}
    (hp : p ∈ kids i k) : p < m.volus.length ∧ (conn i)[p]? = some k := by
  obtain ⟨e, he, hk⟩ := ((h.kids i hi k).2 p).1 hp
  have h1 := (List.getElem?_eq_some_iff.1 he).1
  have h2 := h.short i hi
  exact ⟨by omega, by rw [he]; exact congrArg some hk⟩

theorem gatherCell_flat (h : LimitReady m parents conn kids) (len : Edge → K) {i : Nat} (hi : i < parents.length) (k : Int) :
    gatherCell m len (kids i k) = (edgesMet m (kids i k)).foldlM (m := Except Fault) (gatherEdge m len) ([], none) := by
  unfold gatherCell edgesMet
  refine foldlM_flat _ fun v hv a => ?_
  have hlt := (kid_lt h hi hv).1
  rw [elemAt_nat m.volus v hlt, List.getElem?_eq_getElem hlt]
  change List.foldlM (m := Except Fault) _ a m.volus[v].surfind = _
  refine foldlM_flat _ fun s hs b => ?_
  obtain ⟨f, hf, _, _⟩ := elemAt_posOf_ok (ix := Surf.index) (h.voluSurf _ (List.getElem_mem hlt) s hs)
  have hf' : isearch Surf.index m.surfs s = .ok f := hf
  rw [hf']
  rfl

theorem mem_edgesMet (h : LimitReady m parents conn kids) {i : Nat} (hi : i < parents.length) (k e : Int) :
    e ∈ edgesMet m (kids i k) ↔ EdgeInCell m (conn i) k e := by
  unfold edgesMet EdgeInCell
  rw [List.mem_flatMap]
  constructor
  · rintro ⟨v, hv, he⟩
    obtain ⟨hlt, hc⟩ := kid_lt h hi hv
    rw [List.getElem?_eq_getElem hlt] at he
    obtain ⟨s, hs, he⟩ := List.mem_flatMap.1 he
    obtain ⟨f, hf, hfm, hfi⟩ := elemAt_posOf_ok (ix := Surf.index) (h.voluSurf _ (List.getElem_mem hlt) s hs)
    have hf' : isearch Surf.index m.surfs s = .ok f := hf
    rw [hf'] at he
    exact ⟨v, m.volus[v], hc, List.getElem?_eq_getElem hlt, f, hfm, hfi ▸ hs, he⟩
  · rintro ⟨p, c, hp, hc, s, hs, hsc, he⟩
    refine ⟨p, ((h.kids i hi k).2 p).2 ⟨k, hp, rfl⟩, ?_⟩
    rw [hc]
    refine List.mem_flatMap.2 ⟨s.index, hsc, ?_⟩
    obtain ⟨f, hf, hfm, hfi⟩ := elemAt_posOf_ok (ix := Surf.index) (l := m.surfs) (k := s.index) ⟨s, hs, rfl⟩
    have hf' : isearch Surf.index m.surfs s.index = .ok f := hf
    rw [hf', inj_of_nodup h.surfs hfm hs hfi]
    exact he

theorem edgeInCell_has (h : LimitReady m parents conn kids) {i : Nat} {k e : Int} (he : EdgeInCell m (conn i) k e) :
    HasEdge m e := by
  obtain ⟨p, c, _, _, s, hs, _, he⟩ := he
  exact h.surfEdge s hs e he

theorem gatherCell_ok (h : LimitReady m parents conn kids) (len : Edge → K) {i : Nat} (hi : i < parents.length) (k : Int) :
    ∃ r, gatherCell m len (kids i k) = .ok r ∧ Gathered m len r ∧ ∀ e, e ∈ r.1 ↔ EdgeInCell m (conn i) k e := by
  rw [gatherCell_flat h len hi]
  obtain ⟨r, h1, h2, h3⟩ := gatherList_ok h.edges len (E := edgesMet m (kids i k)) (acc := ([], none))
    ⟨List.nodup_nil, by simp, .inl ⟨rfl, rfl⟩⟩ (fun e he => edgeInCell_has h ((mem_edgesMet h hi k e).1 he))
  refine ⟨r, h1, h2, fun e => ?_⟩
  rw [h3, mem_edgesMet h hi]
  simp

theorem addTo_ok (hn : (m.edges.map Edge.index).Nodup) (len : Edge → K) (least : Option K) (f : Edge → Nat × K) {e : Int}
    (he : HasEdge m e) : addTo m len least (m.edges.map f) e =
      .ok (m.edges.map fun x => if x.index = e then ((f x).1 + 1, (f x).2 + least.getD 0 / len x) else f x) := by
  obtain ⟨x, hx, hxm, hxe⟩ := elemAt_posOf_ok (ix := Edge.index) he
  rcases posOf_cases (ix := Edge.index) m.edges e with ⟨hneg, hno⟩ | ⟨p, hp, hpl, hpe⟩
  · exact absurd hxe (hno x hxm)
  · unfold addTo
    rw [hp, Order.vecGet_nat (a := f m.edges[p]) (by simp [hpl]), elemAt_nat m.edges p hpl]
    change (.ok _ : Res _) = _
    refine congrArg _ ?_
    rw [Int.toNat_natCast]
    refine List.ext_getElem (by simp) fun q hq1 hq2 => ?_
    have hq : q < m.edges.length := by simpa using hq2
    rw [List.getElem_set]
    by_cases hqp : p = q
    · subst hqp
      simp [hpe]
    · have hne : m.edges[q].index ≠ e := by
        intro h1
        refine hqp ?_
        have h2 := (List.Nodup.getElem_inj_iff hn (i := p) (hi := by simpa using hpl) (j := q) (hj := by simpa using hq)).1
          (by simp [h1, hpe])
        exact h2
      simp [hqp, hne]

theorem addList_ok (hn : (m.edges.map Edge.index).Nodup) (len : Edge → K) (least : Option K) : ∀ {I : List Int}
    (f : Edge → Nat × K), I.Nodup → (∀ e ∈ I, HasEdge m e) →
      I.foldlM (m := Except Fault) (addTo m len least) (m.edges.map f) =
        .ok (m.edges.map fun x => if x.index ∈ I then ((f x).1 + 1, (f x).2 + least.getD 0 / len x) else f x)
  | [], f, _, _ => by simp [pure, Except.pure]
  | e :: I, f, hI, hE => by
    rw [List.foldlM_cons, addTo_ok hn len least f (hE e (by simp))]
    obtain ⟨h1, h2⟩ := List.nodup_cons.1 hI
    refine (addList_ok hn len least _ h2 (fun g hg => hE g (by simp [hg]))).trans ?_
    refine congrArg _ (List.map_congr_left fun x _ => ?_)
    by_cases hx : x.index = e
    · rw [if_neg (hx ▸ h1), if_pos hx, if_pos (by simp [hx])]
    · rw [if_neg hx]
      simp [hx]

section
open Classical

/-- The least length found for a cell. -/
noncomputable def leastOf (m : Mesh) (len : Edge → K) (kids : Nat → Int → List Nat) (c : Nat × Int) : K :=
  match gatherCell m len (kids c.1 c.2) with
  | .ok g => g.2.getD 0
  | .error _ => 0

theorem leastOf_least (h : LimitReady m parents conn kids) (len : Edge → K) {c : Nat × Int} (hi : c.1 < parents.length)
    (hx : ∃ x ∈ m.edges, EdgeInCell m (conn c.1) c.2 x.index) :
    LeastLength m len (conn c.1) c.2 (leastOf m len kids c) := by
  obtain ⟨r, h1, ⟨_, _, h2⟩, h3⟩ := gatherCell_ok h len hi c.2
  unfold leastOf
  rw [h1]
  obtain ⟨x, hxm, hxe⟩ := hx
  have hne : x.index ∈ r.1 := (h3 _).2 hxe
  rcases h2 with ⟨h2, _⟩ | ⟨a, h2, h4⟩
  · rw [h2] at hne; simp at hne
  · simp only [h2, Option.getD_some]
    unfold LeastLength
    simpa only [h3] using h4

theorem oneCell_ok (h : LimitReady m parents conn kids) (len : Edge → K) {c : Nat × Int} (hi : c.1 < parents.length)
    (f : Edge → Nat × K) : oneCell m len kids (m.edges.map f) c =
      .ok (m.edges.map fun x => if EdgeInCell m (conn c.1) c.2 x.index then
        ((f x).1 + 1, (f x).2 + leastOf m len kids c / len x) else f x) := by
  obtain ⟨r, h1, ⟨h2, h3, _⟩, h4⟩ := gatherCell_ok h len hi c.2
  unfold oneCell
  have hl : leastOf m len kids c = r.2.getD 0 := by unfold leastOf; rw [h1]
  rw [h1]
  refine (addList_ok h.edges len r.2 f h2 h3).trans ?_
  refine congrArg _ (List.map_congr_left fun x _ => ?_)
  rw [hl]
  by_cases hx : x.index ∈ r.1
  · rw [if_pos hx, if_pos ((h4 _).1 hx)]
  · rw [if_neg hx, if_neg (fun h5 => hx ((h4 _).2 h5))]

/-- The ratios of the cells an edge is in. -/
noncomputable def ratios (m : Mesh) (conn : Nat → List Int) (len : Edge → K) (least : Nat × Int → K) (C : List (Nat × Int))
    (x : Edge) : List K :=
  (C.filter fun c => decide (EdgeInCell m (conn c.1) c.2 x.index)).map fun c => least c / len x

theorem cells_ok (h : LimitReady m parents conn kids) (len : Edge → K) : ∀ {C : List (Nat × Int)} (f : Edge → Nat × K),
    (∀ c ∈ C, c.1 < parents.length) → C.foldlM (m := Except Fault) (oneCell m len kids) (m.edges.map f) =
      .ok (m.edges.map fun x => ((f x).1 + (ratios m conn len (leastOf m len kids) C x).length,
        (f x).2 + (ratios m conn len (leastOf m len kids) C x).sum))
  | [], f, _ => by simp [pure, Except.pure, ratios]
  | c :: C, f, hC => by
    rw [List.foldlM_cons, oneCell_ok h len (hC c (by simp))]
    refine (cells_ok h len _ fun d hd => hC d (by simp [hd])).trans ?_
    refine congrArg _ (List.map_congr_left fun x _ => ?_)
    unfold ratios
    rw [List.filter_cons]
    by_cases hx : EdgeInCell m (conn c.1) c.2 x.index
    · simp only [hx, if_true, decide_true, List.map_cons, List.length_cons, List.sum_cons, Prod.mk.injEq]
      exact ⟨by omega, by ring⟩
    · simp only [hx, if_false, decide_false]
      simp

theorem finish_mean (l : List K) : finish (l.length, l.sum) = meanOr1 l := by
  unfold finish meanOr1
  match l with
  | [] => simp
  | [a] => simp
  | a :: b :: t => simp

theorem cellsOf_eq (parents : List (List Int)) : cellsOf parents = allCells parents := by
  unfold cellsOf allCells
  have : parents.zipIdx = (List.range parents.length).map fun i => (parents.getD i [], i) := by
    refine List.ext_getElem (by simp) fun i h1 h2 => ?_
    have : i < parents.length := by simpa using h1
    simp [this]
  rw [this, List.flatMap_map]

theorem allCells_lt {parents : List (List Int)} : ∀ c ∈ allCells parents, c.1 < parents.length := by
  intro c hc
  obtain ⟨i, hi, hc⟩ := List.mem_flatMap.1 hc
  obtain ⟨k, _, rfl⟩ := List.mem_map.1 hc
  simpa using hi

theorem set_ok (h : LimitReady m parents conn kids) (len : Edge → K) :
    setEdgeStepLimits m len parents kids =
      .ok (m.edges.map fun x => meanOr1 (ratios m conn len (leastOf m len kids) (allCells parents) x)) := by
  unfold setEdgeStepLimits
  have h0 : List.replicate m.edges.length ((0 : Nat), (0 : K)) = m.edges.map fun _ => (0, 0) := by simp
  rw [cellsOf_eq, h0, cells_ok h len _ allCells_lt]
  change (.ok _ : Res _) = _
  refine congrArg _ ?_
  beta_reduce
  rw [List.map_map]
  refine List.map_congr_left fun x _ => ?_
  simp only [Function.comp, zero_add]
  exact finish_mean _

end

end RSVS.StepLimit
