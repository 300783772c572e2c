import Verif.Lemmas.CloseMerge
import Verif.Model.Holes
import Verif.Spec.Holes

/-!
# Lemmas about points in holes
-/

namespace RSVS

open Spec Mesh

namespace Holes

variable {m : Mesh} {vertIn : List Bool} {unc : HashedVector}

/-- The position of a vertex. -/
theorem pos_of (hm : Sound m) {v : Int} (hv : HasVert m v) : ∃ (p : Nat) (x : Vert), posOf Vert.index m.verts v = p ∧
    m.verts[p]? = some x ∧ x.index = v ∧ p < m.verts.length ∧ ∀ f : List Bool, VertIn m f v ↔ f[p]? = some true := by
  obtain ⟨p, h1, h2, h3⟩ := posOf_mem hv
  refine ⟨p, m.verts[p], h1, List.getElem?_eq_getElem h2, h3, h2, fun f => ⟨?_, ?_⟩⟩
  · rintro ⟨i, x, hx, e, hf⟩
    rw [← pos_unique hm hx (List.getElem?_eq_getElem h2) (e.trans h3.symm)]; exact hf
  · intro hf
    exact ⟨p, _, List.getElem?_eq_getElem h2, h3, hf⟩

theorem vertIn_set {ex : List Bool} {p : Nat} {x : Vert} (hx : m.verts[p]? = some x) (hp : p < ex.length)
    (w : Int) : VertIn m (ex.set p true) w ↔ VertIn m ex w ∨ w = x.index := by
  constructor
  · rintro ⟨i, y, hy, e, hf⟩
    by_cases hi : i = p
    · subst hi; rw [hx] at hy; cases hy; exact .inr e.symm
    · rw [List.getElem?_set_ne (by omega)] at hf
      exact .inl ⟨i, y, hy, e, hf⟩
  · rintro (⟨i, y, hy, e, hf⟩ | rfl)
    · refine ⟨i, y, hy, e, ?_⟩
      by_cases hi : i = p
      · subst hi; rw [List.getElem?_set_self hp]
      · rw [List.getElem?_set_ne (by omega)]; exact hf
    · exact ⟨p, x, hx, rfl, List.getElem?_set_self hp⟩

theorem count_set {ex : List Bool} {p : Nat} (h : ex[p]? = some false) : (ex.set p true).count false + 1 = ex.count false := by
  induction ex generalizing p with
  | nil => simp at h
  | cons a ex ih =>
    cases p with
    | zero => simp at h; subst h; simp
    | succ p =>
      simp only [List.getElem?_cons_succ] at h
      have := ih h
      simp only [List.set_cons_succ, List.count_cons]
      omega

theorem get_false {ex : List Bool} {p : Nat} (hp : p < ex.length) (h : ¬ ex[p]? = some true) : ex[p]? = some false := by
  rw [List.getElem?_eq_getElem hp] at h ⊢
  cases hb : ex[p] with
  | false => rfl
  | true => rw [hb] at h; exact absurd rfl h

/-- `unc` reports what is in `lab`. -/
def Reports (unc : HashedVector) (lab : List Int) : Prop := ∀ v, unc.find v = -1 ↔ v ∉ lab

variable {lab : List Int}

theorem holeScan_ok (hm : Sound m) (hu : Reports unc lab) (hvl : vertIn.length = m.verts.length) :
    ∀ (cur : List Int) (ex : List Bool) (next : List Int), (∀ v ∈ cur, HasVert m v) → ex.length = m.verts.length →
    ∃ o ex' next', holeScan m vertIn unc cur ex next = .ok (o, ex', next') ∧ ex'.length = m.verts.length ∧
      (∀ v, o = some v → v ∈ cur ∧ SureIn m vertIn lab v ∧ ¬ VertIn m ex v ∧ VertIn m ex' v) ∧
      (∀ w, VertIn m ex w → VertIn m ex' w) ∧
      (∀ w, SureIn m vertIn lab w → VertIn m ex' w → VertIn m ex w ∨ o = some w) ∧
      (o = none → (∀ v ∈ cur, VertIn m vertIn v → VertIn m ex' v) ∧
        (next' = next ∨ ex'.count false < ex.count false) ∧ ((∀ v ∈ cur, v ∉ lab) → next' = next)) ∧
      ex'.count false ≤ ex.count false
  | [], ex, next, _, hl => ⟨none, ex, next, rfl, hl, by simp, fun _ h => h, fun _ _ h => .inl h, by simp, le_refl _⟩
  | v :: vs, ex, next, hc, hl => by
    obtain ⟨p, x, h1, h2, h3, h4, h5⟩ := pos_of hm (hc v (by simp))
    have hvs : ∀ v ∈ vs, HasVert m v := fun v h => hc v (by simp [h])
    unfold holeScan
    rw [h1]
    have hp : p < ex.length := by omega
    have hp' : p < vertIn.length := by omega
    rw [RSVS.Order.vecGet_nat (List.getElem?_eq_getElem hp), RSVS.Order.vecGet_nat (List.getElem?_eq_getElem hp')]
    simp only [Except.bind]
    -- the vertex is passed over
    have skip : (VertIn m vertIn v → VertIn m ex v) → ∃ o ex' next', holeScan m vertIn unc vs ex next = .ok (o, ex', next') ∧
        ex'.length = m.verts.length ∧
        (∀ v', o = some v' → v' ∈ v :: vs ∧ SureIn m vertIn lab v' ∧ ¬ VertIn m ex v' ∧ VertIn m ex' v') ∧
        (∀ w, VertIn m ex w → VertIn m ex' w) ∧
        (∀ w, SureIn m vertIn lab w → VertIn m ex' w → VertIn m ex w ∨ o = some w) ∧
        (o = none → (∀ v' ∈ v :: vs, VertIn m vertIn v' → VertIn m ex' v') ∧
          (next' = next ∨ ex'.count false < ex.count false) ∧ ((∀ v' ∈ v :: vs, v' ∉ lab) → next' = next)) ∧
        ex'.count false ≤ ex.count false := by
      intro hs
      obtain ⟨o, ex', next', k1, k2, k3, k4, k5, k6, k7⟩ := holeScan_ok hm hu hvl vs ex next hvs hl
      refine ⟨o, ex', next', k1, k2, fun w hw => ?_, k4, k5, fun ho => ⟨?_, (k6 ho).2.1, fun h => (k6 ho).2.2
        (fun v hv => h v (by simp [hv]))⟩, k7⟩
      · obtain ⟨a, b⟩ := k3 w hw
        exact ⟨by simp [a], b⟩
      · intro w hw hin
        rcases List.mem_cons.mp hw with rfl | hw
        · exact k4 _ (hs hin)
        · exact (k6 ho).1 w hw hin
    by_cases he : ex[p] = true
    · rw [if_pos he]
      simp only [Bool.false_eq_true, if_false]
      exact skip fun _ => (h5 ex).mpr (by rw [List.getElem?_eq_getElem hp, he])
    · rw [if_neg he]
      simp only []
      by_cases hi : vertIn[p] = true
      · rw [if_pos hi]
        have hnex : ¬ VertIn m ex v := by
          rw [h5, List.getElem?_eq_getElem hp]; exact fun h => he (Option.some.inj h)
        have hin : VertIn m vertIn v := (h5 vertIn).mpr (by rw [List.getElem?_eq_getElem hp', hi])
        have hset := fun w => vertIn_set h2 hp w
        have hcnt := count_set (get_false hp (by rw [List.getElem?_eq_getElem hp]; exact fun h => he (Option.some.inj h)))
        simp only [Int.toNat_natCast]
        by_cases hf : unc.find v = -1
        · rw [if_pos hf]
          refine ⟨some v, _, next, rfl, by simpa using hl, ?_, fun w hw => (hset w).mpr (.inl hw), ?_, by simp, by omega⟩
          · intro w hw
            cases hw
            exact ⟨by simp, ⟨hin, (hu v).mp hf⟩, hnex, (hset v).mpr (.inr h3.symm)⟩
          · intro w _ hw
            rcases (hset w).mp hw with h | h
            · exact .inl h
            · right; rw [h, h3]
        · rw [if_neg hf, elemAt_nat _ _ h4]
          simp only []
          have hlab : v ∈ lab := by by_contra hc; exact hf ((hu v).mpr hc)
          obtain ⟨o, ex', next', k1, k2, k3, k4, k5, k6, k7⟩ := holeScan_ok hm hu hvl vs (ex.set p true)
            (next ++ (m.verts[p]).edgeind) hvs (by simpa using hl)
          refine ⟨o, ex', next', k1, k2, fun w hw => ?_, fun w hw => k4 w ((hset w).mpr (.inl hw)), ?_, ?_, by omega⟩
          · obtain ⟨a, b, c, d⟩ := k3 w hw
            exact ⟨by simp [a], b, fun hc => c ((hset w).mpr (.inl hc)), d⟩
          · intro w hw hw'
            rcases k5 w hw hw' with h | h
            · rcases (hset w).mp h with h | h
              · exact .inl h
              · exact absurd (by rw [h, h3]; exact hlab) hw.2
            · exact .inr h
          · intro ho
            refine ⟨fun w hw hin' => ?_, .inr (by omega), fun h => absurd hlab (h v (by simp))⟩
            rcases List.mem_cons.mp hw with rfl | hw
            · exact k4 _ ((hset _).mpr (.inr h3.symm))
            · exact (k6 ho).1 w hw hin'
      · rw [if_neg hi]
        refine skip fun hin => ?_
        rw [h5, List.getElem?_eq_getElem hp'] at hin
        exact absurd (Option.some.inj hin) hi

/-- What holds after points were looked for from the vertices `T`. -/
structure HoleStep (m : Mesh) (vertIn : List Bool) (lab : List Int) (T : Int → Prop) (r r' : Int × List Bool) : Prop where
  len : r'.2.length = m.verts.length
  found : r'.1 ≠ -1 → SureIn m vertIn lab r'.1 ∧ ¬ VertIn m r.2 r'.1 ∧ VertIn m r'.2 r'.1
  mono : ∀ w, VertIn m r.2 w → VertIn m r'.2 w
  new : ∀ w, SureIn m vertIn lab w → VertIn m r'.2 w → VertIn m r.2 w ∨ w = r'.1
  tried : r'.1 = -1 → ∀ v, T v → VertIn m vertIn v → VertIn m r'.2 v
  home : (∀ v, T v → v ∉ lab) → r'.1 = -1 ∨ T r'.1

/-- An exception, which needs an uncertain vertex, or a good step. -/
def Tried (m : Mesh) (vertIn : List Bool) (lab : List Int) (T : Int → Prop) (r : Int × List Bool)
    (res : Res (Int × List Bool)) : Prop :=
  (res = .error .throws ∧ ∃ v, T v ∧ v ∈ lab) ∨ ∃ r', res = .ok r' ∧ HoleStep m vertIn lab T r r'

theorem sure_ne (hm : Sound m) {w : Int} (h : VertIn m vertIn w) : w ≠ -1 := by
  obtain ⟨i, x, hx, rfl, -⟩ := h
  have := hm.pos.verts x.index ⟨x, List.mem_of_getElem? hx, rfl⟩
  omega

theorem concatField_ends (hm : Sound m) : ∀ (ps acc : List Int), (∀ v ∈ acc, HasVert m v) →
    ps.foldlM (m := Except Fault) (fun acc p => do
      let a ← elemAt m.edges p
      pure (acc ++ a.vertind)) acc = .error .throws ∨
    ∃ r, ps.foldlM (m := Except Fault) (fun acc p => do
      let a ← elemAt m.edges p
      pure (acc ++ a.vertind)) acc = .ok r ∧ ∀ v ∈ r, HasVert m v
  | [], acc, h => .inr ⟨acc, rfl, h⟩
  | p :: ps, acc, h => by
    rw [List.foldlM_cons]
    have hcase : elemAt m.edges p = .error .throws ∨ ∃ e ∈ m.edges, elemAt m.edges p = .ok e := by
      unfold elemAt
      split
      · exact .inl rfl
      · split
        · rename_i a ha; exact .inr ⟨a, List.mem_of_getElem? ha, rfl⟩
        · exact .inl rfl
    rcases hcase with he | ⟨e, hmem, he⟩
    · left; rw [he]; rfl
    · rw [he]
      exact concatField_ends hm ps (acc ++ e.vertind) (by
        intro v hv
        rcases List.mem_append.mp hv with hv | hv
        · exact h v hv
        · have hev : EdgeVert m e.index v := ⟨e, hmem, rfl, hv⟩
          exact hm.noDangling.edgeVert _ _ hev (fun h0 => hm.zeroOutside.edgeVert _ (h0 ▸ hev)))

theorem holeSearch_ok (hm : Sound m) (hu : Reports unc lab) (hvl : vertIn.length = m.verts.length) :
    ∀ (fuel : Nat) (cur : List Int) (i : Int) (ex : List Bool), (∀ v ∈ cur, HasVert m v) → ex.length = m.verts.length →
    ex.count false < fuel → Tried m vertIn lab (· ∈ cur) (i, ex) (holeSearch m vertIn unc fuel cur ex)
  | 0, _, _, _, _, _, hf => absurd hf (by omega)
  | fuel + 1, cur, i, ex, hc, hl, hf => by
    unfold holeSearch
    by_cases h0 : cur = []
    · rw [if_pos h0]
      subst h0
      exact .inr ⟨_, rfl, hl, by simp, fun _ h => h, fun _ _ h => .inl h, by simp, by simp⟩
    · rw [if_neg h0]
      obtain ⟨o, ex', next', k1, k2, k3, k4, k5, k6, k7⟩ := holeScan_ok hm hu hvl cur ex [] hc hl
      rw [k1]
      simp only [Except.bind]
      cases o with
      | some v =>
        obtain ⟨a, b, c, d⟩ := k3 v rfl
        refine .inr ⟨_, rfl, k2, fun _ => ⟨b, c, d⟩, k4, fun w hw hw' => ?_, fun h => absurd h (sure_ne hm b.1), fun _ => .inr a⟩
        rcases k5 w hw hw' with h | h
        · exact .inl h
        · exact .inr (Option.some.inj h).symm
      | none =>
        obtain ⟨l1, l2, l3⟩ := k6 rfl
        simp only []
        by_cases hn : next' = []
        · rw [if_pos hn]
          refine .inr ⟨_, rfl, k2, by simp, k4, fun w hw hw' => ?_, fun _ => l1, fun _ => .inl rfl⟩
          rcases k5 w hw hw' with h | h
          · exact .inl h
          · cases h
        · rw [if_neg hn]
          have hlab : ∃ v, v ∈ cur ∧ v ∈ lab := by
            by_contra hc
            apply hn
            apply l3
            intro v hv hv'
            exact hc ⟨v, hv, hv'⟩
          rcases concatField_ends hm next' [] (by simp) with h | ⟨cur', h, h'⟩
          · left
            refine ⟨?_, hlab⟩
            unfold concatField
            rw [h]
          · unfold concatField
            rw [h]
            have := holeSearch_ok hm hu hvl fuel cur' (-1) ex' h' k2 (by
              rcases l2 with h | h
              · exact absurd h hn
              · omega)
            rcases this with ⟨e, -⟩ | ⟨r', e, st⟩
            · exact .inl ⟨e, hlab⟩
            · refine .inr ⟨r', e, st.len, fun hr => ?_, fun w hw => st.mono w (k4 w hw), fun w hw hw' => ?_, fun hr v hv hin => ?_,
                fun hno => ?_⟩
              · obtain ⟨a, b, c⟩ := st.found hr
                exact ⟨a, fun hb => b (k4 _ hb), c⟩
              · rcases st.new w hw hw' with h | h
                · rcases k5 w hw h with h | h
                  · exact .inl h
                  · cases h
                · exact .inr h
              · exact st.mono _ (l1 v hv hin)
              · obtain ⟨v, hv, hv'⟩ := hlab
                exact absurd hv' (hno v hv)

variable {T T' : Int → Prop} {r : Int × List Bool}

theorem Tried.congr {res : Res (Int × List Bool)} (h : Tried m vertIn lab T r res) (hT : ∀ v, T v ↔ T' v) :
    Tried m vertIn lab T' r res := by
  have : T = T' := funext fun v => propext (hT v)
  rw [← this]; exact h

/-- Two steps in a row. -/
theorem Tried.seq (hm : Sound m) {res : Res (Int × List Bool)} {f : Int × List Bool → Res (Int × List Bool)}
    (h : Tried m vertIn lab T r res) (hf : ∀ r' : Int × List Bool, r'.2.length = m.verts.length → Tried m vertIn lab T' r' (f r')) :
    Tried m vertIn lab (fun v => T v ∨ T' v) r (res.bind fun r => if r.1 ≠ -1 then .ok r else f r) := by
  rcases h with ⟨h, v, hv, hv'⟩ | ⟨r1, h, st⟩
  · subst h; exact .inl ⟨rfl, v, .inl hv, hv'⟩
  · subst h
    simp only [Except.bind]
    by_cases hr : r1.1 ≠ -1
    · rw [if_pos hr]
      exact .inr ⟨r1, rfl, st.len, st.found, st.mono, st.new, fun h => absurd h hr, fun hno => (st.home fun v hv => hno v (.inl hv)).imp id .inl⟩
    · rw [if_neg hr]
      have hr := not_not.mp hr
      rcases hf r1 st.len with ⟨h, v, hv, hv'⟩ | ⟨r2, h, st2⟩
      · exact .inl ⟨h, v, .inr hv, hv'⟩
      · refine .inr ⟨r2, h, st2.len, fun h2 => ?_, fun w hw => st2.mono w (st.mono w hw), fun w hw hw' => ?_, fun h2 v hv hin => ?_,
          fun hno => (st2.home fun v hv => hno v (.inr hv)).imp id .inr⟩
        · obtain ⟨a, b, c⟩ := st2.found h2
          exact ⟨a, fun hb => b (st.mono _ hb), c⟩
        · rcases st2.new w hw hw' with h5 | h5
          · rcases st.new w hw h5 with h6 | h6
            · exact .inl h6
            · exact absurd (h6.trans hr) (sure_ne hm hw.1)
          · exact .inr h5
        · rcases hv with hv | hv
          · exact st2.mono _ (st.tried hr v hv hin)
          · exact st2.tried h2 v hv hin

theorem holeFirst_ok (hm : Sound m) {α : Type} {f : α → Int × List Bool → Res (Int × List Bool)} {S : α → Int → Prop} :
    ∀ (l : List α) (r : Int × List Bool), l ≠ [] → r.2.length = m.verts.length →
    (∀ a ∈ l, ∀ r : Int × List Bool, r.2.length = m.verts.length → Tried m vertIn lab (S a) r (f a r)) →
    Tried m vertIn lab (fun v => ∃ a ∈ l, S a v) r (holeFirst f l r)
  | [], _, h, _, _ => absurd rfl h
  | [a], r, _, hl, hf => by
    have := hf a (by simp) r hl
    unfold holeFirst
    have e : (f a r).bind (fun r => if r.1 ≠ -1 then .ok r else holeFirst f [] r) = f a r := by
      cases f a r with
      | error e => rfl
      | ok r => simp [Except.bind, holeFirst]
    rw [e]
    exact this.congr (by simp)
  | a :: b :: l, r, _, hl, hf => by
    unfold holeFirst
    refine (Tried.seq hm (hf a (by simp) r hl) (T' := fun v => ∃ c ∈ b :: l, S c v) (fun r' hr' => ?_)).congr (by simp)
    exact holeFirst_ok hm (b :: l) r' (by simp) hr' (fun c hc => hf c (by simp only [List.mem_cons] at hc ⊢; exact .inr hc))

variable {K : Type} {s : Snake K}

/-- What the search in a snake relies on. -/
structure HoleSnake (s : Snake K) (m : Mesh) : Prop where
  mesh : Sound m
  conn : Sound s.conn
  two : TwoVerts s.conn
  step : s.snaxs.map Snax.index = s.conn.verts.map Vert.index
  inside : s.vertIn.length = m.verts.length
  from_ : ∀ x ∈ s.snaxs, HasVert m x.fromvert
  edges : ∀ f ∈ s.conn.surfs, f.edgeind ≠ []
  surfs : ∀ c ∈ s.conn.volus, c.surfind ≠ []

theorem snax_of (h : HoleSnake s m) {a : Int} (ha : HasVert s.conn a) :
    ∃ x, isearch Snax.index s.snaxs a = .ok x ∧ x ∈ s.snaxs ∧ x.index = a ∧ ∀ y ∈ s.snaxs, y.index = a → y = x := by
  have : ∃ x ∈ s.snaxs, x.index = a := by
    obtain ⟨v, hv, e⟩ := ha
    have : a ∈ s.conn.verts.map Vert.index := List.mem_map.mpr ⟨v, hv, e⟩
    rw [← h.step] at this
    obtain ⟨x, hx, e⟩ := List.mem_map.mp this
    exact ⟨x, hx, e⟩
  obtain ⟨x, h1, h2, h3⟩ := elemAt_posOf_ok this
  refine ⟨x, h1, h2, h3, fun y hy hya => ?_⟩
  have hn : (s.snaxs.map Snax.index).Nodup := by rw [h.step]; exact h.conn.unique.verts
  exact inj_of_nodup hn hy h2 (hya.trans h3.symm)

theorem holeEnd_ok (h : HoleSnake s m) (hu : Reports unc lab) {a : Int} (ha : HasVert s.conn a) (r : Int × List Bool)
    (hr : r.2.length = m.verts.length) :
    Tried m s.vertIn lab (fun v => ∃ x ∈ s.snaxs, x.index = a ∧ x.fromvert = v) r (holeEnd s m unc a r) := by
  obtain ⟨x, h1, h2, h3, h4⟩ := snax_of h ha
  unfold holeEnd
  rw [h1]
  simp only [Except.bind]
  unfold findVertexHole
  refine (holeSearch_ok h.mesh hu h.inside _ [x.fromvert] r.1 r.2 ?_ hr ?_).congr ?_
  · intro v hv; rw [List.mem_singleton.mp hv]; exact h.from_ x h2
  · have := List.count_le_length (a := false) (l := r.2); omega
  · intro v
    simp only [List.mem_singleton]
    constructor
    · rintro rfl; exact ⟨x, h2, h3, rfl⟩
    · rintro ⟨y, hy, e, rfl⟩; rw [h4 y hy e]

theorem holeEdge_ok (h : HoleSnake s m) (hu : Reports unc lab) {e : Int} (he : HasEdge s.conn e) (r : Int × List Bool)
    (hr : r.2.length = m.verts.length) :
    Tried m s.vertIn lab (fun v => ∃ x ∈ s.snaxs, EdgeVert s.conn e x.index ∧ x.fromvert = v) r
      (holeEdge s m unc (posOf Edge.index s.conn.edges e) r) := by
  obtain ⟨ed, h2, a, b, h3, hab, h1, -⟩ := edge_pair h.conn h.two he
  unfold isearch at h1
  have hv : ∀ v ∈ ed.vertind, HasVert s.conn v := by
    intro v hv
    have hev : EdgeVert s.conn ed.index v := ⟨ed, h2, rfl, hv⟩
    exact h.conn.noDangling.edgeVert _ _ hev (fun h0 => h.conn.zeroOutside.edgeVert _ (h0 ▸ hev))
  unfold holeEdge
  refine (holeFirst_ok h.mesh (S := fun ll v => ∃ x ∈ s.snaxs, x.index = (if ll = 0 then a else b) ∧ x.fromvert = v) [0, 1] r
    (by simp) hr ?_).congr ?_
  · intro ll hll r' hr'
    rw [h1]
    simp only [Except.bind]
    rw [hab] at hv ⊢
    rcases List.mem_cons.mp hll with rfl | hll
    · have : vecGet [a, b] 0 = .ok a := rfl
      rw [this, if_pos rfl]
      exact holeEnd_ok h hu (hv a (by simp)) r' hr'
    · rw [List.mem_singleton.mp hll]
      have : vecGet [a, b] 1 = .ok b := rfl
      rw [this, if_neg (by decide)]
      exact holeEnd_ok h hu (hv b (by simp)) r' hr'
  · intro v
    have hev : ∀ w, EdgeVert s.conn e w ↔ w = a ∨ w = b := by
      intro w
      constructor
      · rintro ⟨ed', hm', e', hw⟩
        rw [inj_of_nodup h.conn.unique.edges hm' h2 (e'.trans h3.symm), hab] at hw
        simpa using hw
      · intro hw; exact ⟨ed, h2, h3, by rw [hab]; simpa using hw⟩
    constructor
    · rintro ⟨ll, hll, x, hx, e, rfl⟩
      refine ⟨x, hx, (hev _).mpr ?_, rfl⟩
      rw [e]; split <;> simp
    · rintro ⟨x, hx, hw, rfl⟩
      rcases (hev _).mp hw with hw | hw
      · exact ⟨0, by simp, x, hx, by rw [if_pos rfl]; exact hw, rfl⟩
      · exact ⟨1, by simp, x, hx, by rw [if_neg (by decide)]; exact hw, rfl⟩

theorem holeSurf_ok (h : HoleSnake s m) (hu : Reports unc lab) {f : Int} (hf : HasSurf s.conn f) (r : Int × List Bool)
    (hr : r.2.length = m.verts.length) :
    Tried m s.vertIn lab (fun v => ∃ x ∈ s.snaxs, ∃ e, SurfEdge s.conn f e ∧ EdgeVert s.conn e x.index ∧ x.fromvert = v) r
      (holeSurf s m unc f r) := by
  obtain ⟨sf, h1, h2, h3⟩ := elemAt_posOf_ok hf
  have hse : ∀ e, SurfEdge s.conn f e ↔ e ∈ sf.edgeind := by
    intro e
    constructor
    · rintro ⟨sf', hm', e', hw⟩
      rwa [inj_of_nodup h.conn.unique.surfs hm' h2 (e'.trans h3.symm)] at hw
    · intro hw; exact ⟨sf, h2, h3, hw⟩
  unfold holeSurf isearch
  rw [h1]
  simp only [Except.bind]
  have key := holeFirst_ok h.mesh (α := Int) (f := fun e r => holeEdge s m unc (posOf Edge.index s.conn.edges e) r) (vertIn := s.vertIn) (lab := lab)
    (S := fun e v => ∃ x ∈ s.snaxs, EdgeVert s.conn e x.index ∧ x.fromvert = v) sf.edgeind r (h.edges sf h2) hr
    (fun e he r' hr' => holeEdge_ok h hu (h.conn.noDangling.surfEdge _ _ ((hse e).mpr he)) r' hr')
  have hmap : ∀ (l : List Int) (r : Int × List Bool), holeFirst (holeEdge s m unc) (l.map (posOf Edge.index s.conn.edges)) r =
      holeFirst (fun e r => holeEdge s m unc (posOf Edge.index s.conn.edges e) r) l r := by
    intro l
    induction l with
    | nil => intro r; rfl
    | cons e l ih =>
      intro r
      simp only [List.map_cons, holeFirst]
      congr 1
      funext r'
      split
      · rfl
      · exact ih r'
  unfold posList
  rw [hmap]
  refine key.congr fun v => ?_
  constructor
  · rintro ⟨e, he, x, hx, hev, rfl⟩; exact ⟨x, hx, e, (hse e).mpr he, hev, rfl⟩
  · rintro ⟨x, hx, e, he, hev, rfl⟩; exact ⟨e, (hse e).mp he, x, hx, hev, rfl⟩

theorem holeVolu_ok (h : HoleSnake s m) (hu : Reports unc lab) {c : Volu} (hc : c ∈ s.conn.volus) (r : Int × List Bool)
    (hr : r.2.length = m.verts.length) :
    Tried m s.vertIn lab (ComesFrom s c) r (holeFirst (holeSurf s m unc) c.surfind r) := by
  refine (holeFirst_ok h.mesh (vertIn := s.vertIn) (lab := lab)
    (S := fun f v => ∃ x ∈ s.snaxs, ∃ e, SurfEdge s.conn f e ∧ EdgeVert s.conn e x.index ∧ x.fromvert = v) c.surfind r
    (h.surfs c hc) hr (fun f hf r' hr' => holeSurf_ok h hu ?_ r' hr')).congr fun v => ?_
  · have hvs : VoluSurf s.conn c.index f := ⟨c, hc, rfl, hf⟩
    exact h.conn.noDangling.voluSurf _ _ hvs (fun h0 => h.conn.zeroOutside.voluSurf _ (h0 ▸ hvs))
  · constructor
    · rintro ⟨f, hf, x, hx, e, h1, h2, rfl⟩; exact ⟨x, ⟨hx, f, hf, e, h1, h2⟩, rfl⟩
    · rintro ⟨x, ⟨hx, f, hf, e, h1, h2⟩, rfl⟩; exact ⟨f, hf, x, hx, e, h1, h2, rfl⟩

/-- What the volumes that were treated have led to: each one with the point found for it. -/
structure HolesOf (s : Snake K) (m : Mesh) (lab : List Int) (done : List (Volu × Option Int)) (holes : List Int) (ex : List Bool) :
    Prop where
  list : holes = done.filterMap Prod.snd
  len : ex.length = m.verts.length
  nodup : holes.Nodup
  sure : ∀ v ∈ holes, SureIn m s.vertIn lab v ∧ VertIn m ex v
  back : ∀ v, SureIn m s.vertIn lab v → VertIn m ex v → v ∈ holes
  none : ∀ p ∈ done, p.2 = none → ∀ v, ComesFrom s p.1 v → SureIn m s.vertIn lab v → v ∈ holes
  home : ∀ p ∈ done, ∀ v, p.2 = some v → (∀ w, ComesFrom s p.1 w → w ∉ lab) → ComesFrom s p.1 v

theorem findHoles_loop (h : HoleSnake s m) (hu : Reports unc lab) : ∀ (cs : List Volu) (done : List (Volu × Option Int))
    (holes : List Int) (i : Int) (ex : List Bool), (∀ c ∈ cs, c ∈ s.conn.volus) → HolesOf s m lab done holes ex →
    (cs.foldlM (m := Except Fault) (holeVolu s m unc) (holes, i, ex) = .error .throws ∧ ∃ c ∈ cs, ∃ v, ComesFrom s c v ∧ v ∈ lab) ∨
    ∃ done' holes' i' ex', cs.foldlM (m := Except Fault) (holeVolu s m unc) (holes, i, ex) = .ok (holes', i', ex') ∧
      HolesOf s m lab (done ++ done') holes' ex' ∧ done'.map Prod.fst = cs
  | [], done, holes, i, ex, _, inv => .inr ⟨[], holes, i, ex, rfl, by simpa using inv, rfl⟩
  | c :: cs, done, holes, i, ex, hc, inv => by
    rw [List.foldlM_cons]
    have hv := holeVolu_ok h hu (hc c (by simp)) (i, ex) inv.len
    unfold holeVolu at *
    rcases hv with ⟨e, v, hv, hv'⟩ | ⟨r', e, st⟩
    · left
      simp only [e, Except.map]
      exact ⟨rfl, c, by simp, v, hv, hv'⟩
    · simp only [e, Except.map]
      have inv' : HolesOf s m lab (done ++ [(c, if r'.1 ≠ -1 then some r'.1 else none)])
          (if r'.1 ≠ -1 then holes ++ [r'.1] else holes) r'.2 := by
        by_cases hr : r'.1 = -1
        · simp only [hr, ne_eq, not_true, if_false]
          refine ⟨by simp [inv.list], st.len, inv.nodup, fun v hv => ⟨(inv.sure v hv).1, st.mono v (inv.sure v hv).2⟩, ?_, ?_, ?_⟩
          · intro v hs hv
            rcases st.new v hs hv with h1 | h1
            · exact inv.back v hs h1
            · exact absurd (h1.trans hr) (sure_ne h.mesh hs.1)
          · intro p hp hn v hv hs
            rcases List.mem_append.mp hp with hp | hp
            · exact inv.none p hp hn v hv hs
            · rw [List.mem_singleton.mp hp] at hv
              rcases st.new v hs (st.tried hr v hv hs.1) with h1 | h1
              · exact inv.back v hs h1
              · exact absurd (h1.trans hr) (sure_ne h.mesh hs.1)
          · intro p hp v hv hw
            rcases List.mem_append.mp hp with hp | hp
            · exact inv.home p hp v hv hw
            · rw [List.mem_singleton.mp hp] at hv; cases hv
        · simp only [hr, ne_eq, not_false_eq_true, if_true]
          obtain ⟨a, b, d⟩ := st.found hr
          refine ⟨by simp [inv.list], st.len, ?_, ?_, ?_, ?_, ?_⟩
          · refine List.nodup_append.mpr ⟨inv.nodup, by simp, ?_⟩
            intro x hx y hy hxy
            rw [List.mem_singleton.mp hy] at hxy
            exact b (hxy ▸ (inv.sure x hx).2)
          · intro v hv
            rcases List.mem_append.mp hv with hv | hv
            · exact ⟨(inv.sure v hv).1, st.mono v (inv.sure v hv).2⟩
            · rw [List.mem_singleton.mp hv]; exact ⟨a, d⟩
          · intro v hs hv
            rcases st.new v hs hv with h1 | h1
            · simp [inv.back v hs h1]
            · simp [h1]
          · intro p hp hn v hv hs
            rcases List.mem_append.mp hp with hp | hp
            · simp [inv.none p hp hn v hv hs]
            · rw [List.mem_singleton.mp hp] at hn; cases hn
          · intro p hp v hv hw
            rcases List.mem_append.mp hp with hp | hp
            · exact inv.home p hp v hv hw
            · rw [List.mem_singleton.mp hp] at hv hw ⊢
              cases hv
              rcases st.home hw with h1 | h1
              · exact absurd h1 hr
              · exact h1
      rcases findHoles_loop h hu cs _ _ r'.1 r'.2 (fun c hx => hc c (by simp [hx])) inv' with ⟨e1, c', hc', v, hv, hv'⟩ | ⟨d, ho, i', ex', e1, e2, e3⟩
      · exact .inl ⟨e1, c', by simp [hc'], v, hv, hv'⟩
      · exact .inr ⟨(c, if r'.1 ≠ -1 then some r'.1 else none) :: d, ho, i', ex', e1, by simpa using e2, by simp [e3]⟩

end Holes

end RSVS
