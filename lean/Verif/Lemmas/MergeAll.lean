import Verif.Lemmas.MergeScan

/-!
# Lemmas for the merge of surfaces: all cells
-/

namespace RSVS.MergeSurf

open RSVS.Spec RSVS.Mesh RSVS.SpawnRemove

variable {m : Mesh} {findE : List Int → Int → List Nat} {findS : List Nat → Nat → List Nat}

/-- The edges of the surface at a position. -/
def edgesAt (m : Mesh) (i : Nat) : List Int := (m.surfs[i]?).elim [] Surf.edgeind

/-- The owners of the places of some lists. -/
def ownersFrom : Nat → List (List Int) → List Nat
  | _, [] => []
  | k, l :: L => List.replicate l.length k ++ ownersFrom (k + 1) L

theorem owners_length : ∀ (L : List (List Int)) (k : Nat), L.flatten.length = (ownersFrom k L).length
  | [], _ => rfl
  | l :: L, k => by
    have := owners_length L (k + 1)
    simp only [ownersFrom, List.flatten_cons, List.length_append, List.length_replicate, this]

theorem owners_bounds : ∀ (L : List (List Int)) (k : Nat), ∀ o ∈ ownersFrom k L, k ≤ o ∧ o < k + L.length
  | [], _, o, h => by simp [ownersFrom] at h
  | l :: L, k, o, h => by
    rw [ownersFrom, List.mem_append] at h
    rcases h with h | h
    · have := List.eq_of_mem_replicate h
      subst this
      simp
    · have := owners_bounds L (k + 1) o h
      simp only [List.length_cons]
      omega

theorem owners_mono : ∀ (L : List (List Int)) (k : Nat), (ownersFrom k L).Pairwise (· ≤ ·)
  | [], _ => List.Pairwise.nil
  | l :: L, k => by
    rw [ownersFrom, List.pairwise_append]
    refine ⟨?_, owners_mono L (k + 1), ?_⟩
    · rw [List.pairwise_replicate]; right; exact le_refl _
    · intro a ha b hb
      have h1 := List.eq_of_mem_replicate ha
      have h2 := owners_bounds L (k + 1) b hb
      omega

theorem owners_zip : ∀ (L : List (List Int)) (k : Nat) (e : Int) (o : Nat),
    (∃ p : Nat, L.flatten[p]? = some e ∧ (ownersFrom k L)[p]? = some o) ↔ ∃ l n, L[n]? = some l ∧ o = k + n ∧ e ∈ l
  | [], k, e, o => by simp
  | l :: L, k, e, o => by
    have ih := owners_zip L (k + 1) e o
    constructor
    · rintro ⟨p, h1, h2⟩
      rw [List.flatten_cons] at h1
      rw [ownersFrom] at h2
      by_cases hp : p < l.length
      · rw [List.getElem?_append_left hp] at h1
        rw [List.getElem?_append_left (by simpa using hp)] at h2
        rw [List.getElem?_replicate, if_pos hp] at h2
        exact ⟨l, 0, by simp, by have := Option.some.inj h2; omega, List.mem_of_getElem? h1⟩
      · rw [List.getElem?_append_right (by omega)] at h1
        rw [List.getElem?_append_right (by simpa using hp), List.length_replicate] at h2
        obtain ⟨l', n, a, b, c⟩ := ih.mp ⟨_, h1, h2⟩
        exact ⟨l', n + 1, by simpa using a, by omega, c⟩
    · rintro ⟨l', n, a, b, c⟩
      cases n with
      | zero =>
        simp at a
        subst a
        obtain ⟨p, hp, e1⟩ := List.getElem_of_mem c
        refine ⟨p, ?_, ?_⟩
        · rw [List.flatten_cons, List.getElem?_append_left hp, List.getElem?_eq_getElem hp, e1]
        · rw [ownersFrom, List.getElem?_append_left (by simpa using hp), List.getElem?_replicate, if_pos hp, b]; rfl
      | succ n =>
        obtain ⟨p, h1, h2⟩ := ih.mpr ⟨l', n, by simpa using a, by omega, c⟩
        refine ⟨l.length + p, ?_, ?_⟩
        · rw [List.flatten_cons, List.getElem?_append_right (by omega)]; simpa using h1
        · rw [ownersFrom, List.getElem?_append_right (by simp)]; simpa using h2

/-- The group of some positions. -/
def groupOf (m : Mesh) (sub : List Nat) : Group := ⟨sub, (sub.map (edgesAt m)).flatten, ownersFrom 0 (sub.map (edgesAt m))⟩

theorem vec_eq {sub : List Nat} (hb : ∀ i ∈ sub, i < m.surfs.length) :
    concatField m.surfs Surf.edgeind (sub.map fun p : Nat => (p : Int)) = .ok (groupOf m sub).vec := by
  unfold concatField
  rw [concatField_at m.surfs Surf.edgeind sub [] hb, List.nil_append]
  rfl

theorem owners_fold {sub : List Nat} (hb : ∀ i ∈ sub, i < m.surfs.length) : ∀ (rest pre : List Nat) (acc : List Nat), sub = pre ++ rest →
    (List.range' pre.length rest.length).foldlM (m := Except Fault) (fun (acc : List Nat) (ii : Nat) =>
      (vecGet sub ii).bind fun p => (elemAt m.surfs p).map fun x => acc ++ List.replicate x.edgeind.length ii) acc =
      .ok (acc ++ ownersFrom pre.length (rest.map (edgesAt m)))
  | [], pre, acc, _ => by simp [ownersFrom]; rfl
  | r :: rest, pre, acc, h => by
    have ih := owners_fold hb rest (pre ++ [r]) (acc ++ List.replicate (edgesAt m r).length pre.length) (by rw [h]; simp)
    have hr : r < m.surfs.length := hb r (by rw [h]; simp)
    have hs : sub[pre.length]? = some r := by rw [h]; simp
    have he : edgesAt m r = m.surfs[r].edgeind := by unfold edgesAt; rw [List.getElem?_eq_getElem hr]; rfl
    rw [List.length_cons, List.range'_succ, List.foldlM_cons, vecGet_of hs, ok_bind, elemAt_of (List.getElem?_eq_getElem hr)]
    show List.foldlM _ (acc ++ List.replicate m.surfs[r].edgeind.length pre.length) _ = _
    rw [← he]
    rw [List.length_append, List.length_singleton] at ih
    rw [ih, List.map_cons, ownersFrom, List.append_assoc]

theorem owners_eq {sub : List Nat} (hb : ∀ i ∈ sub, i < m.surfs.length) : ownersOf m sub = .ok (groupOf m sub).owner := by
  have := owners_fold hb sub [] [] rfl
  unfold ownersOf
  rw [List.range_eq_range']
  show _ = Except.ok (ownersFrom 0 (sub.map (edgesAt m)))
  simpa using this

theorem groupOf_fit {sub : List Nat} (hn : sub.Nodup) (hb : ∀ i ∈ sub, i < m.surfs.length) : Fit m (groupOf m sub) := by
  refine ⟨owners_length _ _, ?_, hn, hb, owners_mono _ _⟩
  intro k hk
  have := (owners_bounds _ _ k hk).2
  rw [List.length_map] at this
  have hk' : k < sub.length := by simpa using this
  exact ⟨_, List.getElem?_eq_getElem hk'⟩

theorem at_groupOf {sub : List Nat} {e : Int} {i : Nat} :
    (∃ p, At (groupOf m sub) p e i) ↔ i ∈ sub ∧ e ∈ edgesAt m i := by
  constructor
  · rintro ⟨p, k, h1, h2, h3⟩
    obtain ⟨l, n, a, b, c⟩ := (owners_zip (sub.map (edgesAt m)) 0 e k).mp ⟨p, h1, h2⟩
    have : k = n := by omega
    subst this
    have h3' : sub[k]? = some i := h3
    rw [List.getElem?_map, h3'] at a
    have hl : l = edgesAt m i := (Option.some.inj a).symm
    exact ⟨List.mem_of_getElem? h3', hl ▸ c⟩
  · rintro ⟨h1, h2⟩
    obtain ⟨k, hk, e1⟩ := List.getElem_of_mem h1
    have hk' : sub[k]? = some i := by rw [List.getElem?_eq_getElem hk, e1]
    obtain ⟨p, h3, h4⟩ := (owners_zip (sub.map (edgesAt m)) 0 e k).mpr ⟨edgesAt m i, k, by rw [List.getElem?_map, hk']; rfl, by omega, h2⟩
    exact ⟨p, k, h3, h4, hk'⟩

/-- The surfaces at two positions share an edge. -/
def Sh (m : Mesh) (i j : Nat) : Prop := ∃ e, e ∈ edgesAt m i ∧ e ∈ edgesAt m j

theorem nb_groupOf {sub : List Nat} {i j : Nat} : Nb (groupOf m sub) i j ↔ i ∈ sub ∧ j ∈ sub ∧ Sh m i j := by
  constructor
  · rintro ⟨p, q, e, h1, h2⟩
    obtain ⟨a, b⟩ := at_groupOf.mp ⟨p, h1⟩
    obtain ⟨c, d⟩ := at_groupOf.mp ⟨q, h2⟩
    exact ⟨a, c, e, b, d⟩
  · rintro ⟨a, c, e, b, d⟩
    obtain ⟨p, h1⟩ := at_groupOf.mpr ⟨a, b⟩
    obtain ⟨q, h2⟩ := at_groupOf.mpr ⟨c, d⟩
    exact ⟨p, q, e, h1, h2⟩

/-- Nothing is left to start from. -/
def Settled (m : Mesh) (findE : List Int → Int → List Nat) (sub : List Nat) (done : List Bool) : Prop :=
  ∀ p e y, At (groupOf m sub) p e y → done[y]? = some false → cnt findE (groupOf m sub) e ≤ 1

/-- What a call for a cell has done. -/
structure Cell (m : Mesh) (findE : List Int → Int → List Nat) (sub : List Nat) (done done' : List Bool) (ro : Nat → Nat) (E : List Edit) : Prop where
  dlen : done'.length = m.surfs.length
  out : ∀ i, i ∉ sub → done'[i]? = done[i]?
  root : ∀ y ∈ sub, done'[y]? = some true → ro y ∈ sub ∧ done'[ro y]? = some true ∧ ro (ro y) = ro y ∧
    Relation.ReflTransGen (Nb (groupOf m sub)) (ro y) y
  joined : ∀ y ∈ sub, ∀ z ∈ sub, y ≠ z → Sh m y z → done'[y]? = some true ∧ done'[z]? = some true ∧ ro y = ro z
  gone : ∀ y ∈ sub, done'[y]? = some true → ro y ≠ y → ∃ d ∈ E, d.keep = ids m (ro y) ∧ ids m y ∈ d.rmv
  edit : ∀ d ∈ E, d.rmv ≠ [] ∧ d.rmv.Pairwise (· < ·) ∧ ∃ s ∈ sub, done'[s]? = some true ∧ ro s = s ∧ d.keep = ids m s ∧
    ∀ t ∈ d.rmv, ∃ y ∈ sub, done'[y]? = some true ∧ ro y = s ∧ y ≠ s ∧ t = ids m y
  once : (E.flatMap Edit.rmv).Nodup
  settled : Settled m findE sub done'

theorem count_at {g : Group} {p : Nat} {e : Int} (h : g.vec[p]? = some e) :
    ((g.vec.map fun e => (findE g.vec e).length) ++ [0])[p]? = some (cnt findE g e) := by
  obtain ⟨hp, _⟩ := List.getElem?_eq_some_iff.mp h
  rw [List.getElem?_append_left (by simpa using hp), List.getElem?_map, h]
  rfl

/-- A cell which is looked at for the first time. -/
theorem general_fresh (hu : (m.surfs.map Surf.index).Nodup) (hF : Finds findE findS) {sub : List Nat} (hn : sub.Nodup)
    (hb : ∀ i ∈ sub, i < m.surfs.length) {done : List Bool} (hl : done.length = m.surfs.length) (hd : ∀ i ∈ sub, done[i]? = some false)
    (edits : List Edit) :
    ∃ done' E ro, mergeGeneral m findE findS done edits sub = .ok (done', edits ++ E) ∧ Cell m findE sub done done' ro E := by
  have hf := groupOf_fit hn hb
  unfold mergeGeneral
  rw [vec_eq hb, ok_bind, owners_eq hb, ok_bind]
  have key : ∀ j, j ≤ (groupOf m sub).vec.length → ∃ b ro E, (List.range j).foldlM (m := Except Fault)
      (startStep m findE findS (groupOf m sub))
      { done := done, count := ((groupOf m sub).vec.map fun e => (findE (groupOf m sub).vec e).length) ++ [0], edits := edits } = .ok b ∧
      b.edits = edits ++ E ∧ Scan m findE (groupOf m sub) j done b ro E := by
    intro j
    induction j with
    | zero =>
      intro _
      refine ⟨_, fun y => y, [], rfl, by simp, ⟨⟨hl, by simp, ?_⟩, fun _ _ => rfl, ?_, ?_, ?_, by simp, by simp, by simp⟩⟩
      · rintro p e i ⟨k, h1, _⟩ _
        exact count_at h1
      · intro y hy h
        have h' : done[y]? = some true := h
        rw [hd y hy] at h'
        simp at h'
      · intro y hy h
        have h' : done[y]? = some true := h
        rw [hd y hy] at h'
        simp at h'
      · intro y hy h
        have h' : done[y]? = some true := h
        rw [hd y hy] at h'
        simp at h'
    | succ j ih =>
      intro hj
      obtain ⟨b, ro, E, h1, h2, h3⟩ := ih (by omega)
      obtain ⟨b', ro', E', h4, h5, h6⟩ := scan_step hu hf hF (show j < _ by omega) h2 h3
      refine ⟨b', ro', E', ?_, h5, h6⟩
      rw [List.range_succ, List.foldlM_append, h1]
      show List.foldlM (m := Except Fault) _ b [j] = _
      rw [List.foldlM_cons, h4]
      rfl
  obtain ⟨b, ro, E, h1, h2, h3⟩ := key _ (le_refl _)
  have hpl : ∀ p e y, At (groupOf m sub) p e y → p < (groupOf m sub).vec.length := by
    rintro p e y ⟨k, h, _⟩
    exact (List.getElem?_eq_some_iff.mp h).1
  refine ⟨b.done, E, ro, ?_, ⟨h3.inv.dlen, h3.out, h3.root, ?_, ?_, h3.edit, h3.once, ?_⟩⟩
  · show Except.map _ (List.foldlM (startStep m findE findS (groupOf m sub)) _ _) = _
    rw [h1]
    show Except.ok (b.done, b.edits) = _
    rw [h2]
  · intro y hy z hz hyz hs
    obtain ⟨p, q, e, hp, hq⟩ := nb_groupOf.mpr ⟨hy, hz, hs⟩
    have hpq : p ≠ q := by rintro rfl; exact hyz (hp.fun hq).2
    have hyd : b.done[y]? = some true := by
      rcases bool_cases (l := b.done) (i := y) (by rw [h3.inv.dlen]; exact hb y hy) with h | h
      · exact h
      · exact absurd (alone hF hp hq (h3.passed p e y (hpl p e y hp) hp h)) hpq
    by_cases hr : ro y = y
    · obtain ⟨h4, h5⟩ := (h3.start y hy hyd hr).2.2 p e (hpl p e y hp) hp q z hq
      exact ⟨hyd, h4, by rw [hr, h5]⟩
    · obtain ⟨h4, h5⟩ := (h3.gone y hy hyd hr).2.1 z ⟨p, q, e, hp, hq⟩
      exact ⟨hyd, h4, h5.symm⟩
  · intro y hy hyd hr
    exact (h3.gone y hy hyd hr).2.2
  · intro p e y hp hyd
    exact h3.passed p e y (hpl p e y hp) hp hyd

theorem set_same {l : List Bool} {i : Nat} (h : l[i]? = some true) : l.set i true = l := by
  apply List.ext_getElem?
  intro j
  by_cases hj : i = j
  · subst hj
    rw [List.getElem?_set_self (List.getElem?_eq_some_iff.mp h).1, h]
  · rw [List.getElem?_set_ne hj]

/-- A cell which was looked at before: nothing changes. -/
theorem general_again (hF : Finds findE findS) {sub : List Nat} (hn : sub.Nodup)
    (hb : ∀ i ∈ sub, i < m.surfs.length) {done : List Bool} (hl : done.length = m.surfs.length) (hs : Settled m findE sub done)
    (edits : List Edit) : mergeGeneral m findE findS done edits sub = .ok (done, edits) := by
  have hf := groupOf_fit hn hb
  unfold mergeGeneral
  rw [vec_eq hb, ok_bind, owners_eq hb, ok_bind]
  have hshared : ∀ p e y, At (groupOf m sub) p e y → 1 < cnt findE (groupOf m sub) e → done[y]? = some true := by
    intro p e y hp hc
    rcases bool_cases (l := done) (i := y) (by rw [hl]; exact hp.bound hf) with h | h
    · exact h
    · exact absurd (hs p e y hp h) (by omega)
  have key : ∀ j, j ≤ (groupOf m sub).vec.length → ∃ b, (List.range j).foldlM (m := Except Fault)
      (startStep m findE findS (groupOf m sub))
      { done := done, count := ((groupOf m sub).vec.map fun e => (findE (groupOf m sub).vec e).length) ++ [0], edits := edits } = .ok b ∧
      b.done = done ∧ b.edits = edits ∧ b.count.length = (groupOf m sub).vec.length + 1 ∧
      ∀ p e, j ≤ p → (groupOf m sub).vec[p]? = some e → b.count[p]? = some (cnt findE (groupOf m sub) e) := by
    intro j
    induction j with
    | zero => intro _; exact ⟨_, rfl, rfl, rfl, by simp, fun p e _ h => count_at h⟩
    | succ j ih =>
      intro hj
      obtain ⟨b, h1, h2, h3, h4, h5⟩ := ih (by omega)
      have hv : (groupOf m sub).vec[j]? = some ((groupOf m sub).vec[j]'(by omega)) := List.getElem?_eq_getElem _
      generalize (groupOf m sub).vec[j]'(by omega) = e at hv
      obtain ⟨s, hjs⟩ := at_of hf hv
      obtain ⟨k, _, ho, hsb⟩ := id hjs
      rw [List.range_succ, List.foldlM_append, h1]
      show ∃ b', List.foldlM (m := Except Fault) _ b [j] = _ ∧ _
      rw [List.foldlM_cons]
      unfold startStep
      rw [vecGet_of (h5 j e (le_refl _) hv), ok_bind]
      by_cases hc : cnt findE (groupOf m sub) e ≤ 1
      · rw [if_pos hc]
        exact ⟨b, rfl, h2, h3, h4, fun p e' hp hv' => h5 p e' (by omega) hv'⟩
      · rw [if_neg hc, vecGet_of hv, ok_bind]
        unfold slot
        rw [vecGet_of ho, ok_bind, vecGet_of hsb, ok_bind, elemAt_of (List.getElem?_eq_getElem (hjs.bound hf)), ok_bind, mergeRec]
        have hds : b.done.set s true = done := by
          rw [h2]; exact set_same (hshared j e s hjs (by omega))
        rw [hds]
        have hskip : ∀ (ps : List Nat) (w : Work), w.done = done → (∀ p ∈ ps, ∃ y, At (groupOf m sub) p e y) →
            ps.foldlM (m := Except Fault) (fun (w : Work) (p : Nat) =>
      if p ≠ j then
        (slot (groupOf m sub) p).bind fun i => (vecGet w.done i).bind fun d =>
        if !d then
          (elemAt m.surfs i).bind fun x => (vecGet (groupOf m sub).owner p).bind fun k =>
          (findS (groupOf m sub).owner k).foldlM (m := Except Fault) (fun (w : Work) (q : Nat) =>
            (vecGet w.count q).bind fun c =>
            if c > 1 then
              (vecGet (groupOf m sub).vec q).bind fun e =>
              mergeRec m findE findS (groupOf m sub) b.done.length { w with count := w.count.set q 0 } (findE (groupOf m sub).vec e) q
            else .ok w)
            { done := w.done.set i true, count := w.count.set p 0, rmv := w.rmv ++ [x.index] }
        else .ok w
      else .ok w) w = .ok w := by
          intro ps
          induction ps with
          | nil => intro w _ _; rfl
          | cons p ps ihp =>
            intro w hw ha
            rw [List.foldlM_cons]
            by_cases hpj : p = j
            · rw [if_neg (by simpa using hpj)]
              exact ihp w hw fun q hq => ha q (by simp [hq])
            · obtain ⟨y, hy⟩ := ha p (by simp)
              obtain ⟨k', hv', ho', hsb'⟩ := id hy
              rw [if_pos hpj]
              unfold slot
              rw [vecGet_of ho', ok_bind, vecGet_of hsb', ok_bind, hw, vecGet_of (hshared p e y hy (by omega)), ok_bind]
              exact ihp w hw fun q hq => ha q (by simp [hq])
        rw [hskip _ _ rfl (fun p hp => at_of hf (hF.memE.mp hp))]
        refine ⟨_, rfl, rfl, ?_, ?_, ?_⟩
        · simpa using h3
        · simpa using h4
        · intro p e' hp hv'
          show (b.count.set j 0)[p]? = _
          rw [List.getElem?_set_ne (by omega)]
          exact h5 p e' (by omega) hv'
  obtain ⟨b, h1, h2, h3, _⟩ := key _ (le_refl _)
  show Except.map _ (List.foldlM (startStep m findE findS (groupOf m sub)) _ _) = _
  rw [h1]
  show Except.ok (b.done, b.edits) = _
  rw [h2, h3]

/-- Two positions in one cell which share an edge. -/
def PosMeet (m : Mesh) (sibs : Int → List Nat) (i j : Nat) : Prop := ∃ c, i ∈ sibs c ∧ j ∈ sibs c ∧ Sh m i j

/-- What holds while the surfaces are gone through. -/
structure Top (m : Mesh) (findE : List Int → Int → List Nat) (sibs : Int → List Nat) (done : List Bool) (ro : Nat → Nat) (E : List Edit) : Prop where
  dlen : done.length = m.surfs.length
  cell : ∀ c, (∀ y ∈ sibs c, done[y]? = some false) ∨
    ((∀ y ∈ sibs c, ∀ z ∈ sibs c, y ≠ z → Sh m y z → done[y]? = some true ∧ done[z]? = some true ∧ ro y = ro z) ∧ Settled m findE (sibs c) done)
  root : ∀ y, done[y]? = some true → done[ro y]? = some true ∧ ro (ro y) = ro y ∧ Relation.ReflTransGen (PosMeet m sibs) (ro y) y
  gone : ∀ y, done[y]? = some true → ro y ≠ y → ∃ d ∈ E, d.keep = ids m (ro y) ∧ ids m y ∈ d.rmv
  edit : ∀ d ∈ E, d.rmv ≠ [] ∧ d.rmv.Pairwise (· < ·) ∧ ∃ s, done[s]? = some true ∧ ro s = s ∧ d.keep = ids m s ∧
    ∀ t ∈ d.rmv, ∃ y, done[y]? = some true ∧ ro y = s ∧ y ≠ s ∧ t = ids m y
  once : (E.flatMap Edit.rmv).Nodup

/-- A surface is marked. -/
theorem top_mark {sibs : Int → List Nat} {done : List Bool} {ro : Nat → Nat} {E : List Edit} (h : Top m findE sibs done ro E)
    {i : Nat} {c : Int} (hi : i < m.surfs.length) (hc : i ∈ sibs c) (hdis : ∀ c' j, j ∈ sibs c → j ∈ sibs c' → c = c')
    (h1 : ∀ y ∈ sibs c, ∀ z ∈ sibs c, y ≠ z → Sh m y z → done[y]? = some true ∧ done[z]? = some true ∧ ro y = ro z)
    (h2 : Settled m findE (sibs c) (done.set i true)) : ∃ ro', Top m findE sibs (done.set i true) ro' E := by
  have hil : i < done.length := by rw [h.dlen]; exact hi
  have hsi : (done.set i true)[i]? = some true := List.getElem?_set_self hil
  have hset : ∀ j, (done.set i true)[j]? = some true ↔ done[j]? = some true ∨ j = i := by
    intro j
    by_cases hj : i = j
    · subst hj; simp [hsi]
    · rw [List.getElem?_set_ne hj]; simp [Ne.symm hj]
  rcases bool_cases hil with hd | hd
  · refine ⟨ro, ?_⟩
    rw [set_same hd]
    exact h
  · have old : ∀ y, done[y]? = some true → (if y = i then i else ro y) = ro y := by
      intro y hy
      rw [if_neg]
      rintro rfl
      rw [hd] at hy
      simp at hy
    refine ⟨fun y => if y = i then i else ro y, ⟨by rw [List.length_set]; exact h.dlen, ?_, ?_, ?_, ?_, h.once⟩⟩
    · intro c'
      by_cases hcc : c' = c
      · subst hcc
        right
        refine ⟨?_, h2⟩
        intro y hy z hz hyz hs
        obtain ⟨a1, a2, a3⟩ := h1 y hy z hz hyz hs
        exact ⟨(hset y).mpr (Or.inl a1), (hset z).mpr (Or.inl a2), by beta_reduce; rw [old y a1, old z a2, a3]⟩
      · have hni : ∀ y ∈ sibs c', i ≠ y := by
          rintro y hy rfl
          exact hcc (hdis c' i hc hy).symm
        rcases h.cell c' with h3 | ⟨h3, h4⟩
        · left
          intro y hy
          rw [List.getElem?_set_ne (hni y hy)]
          exact h3 y hy
        · right
          refine ⟨?_, ?_⟩
          · intro y hy z hz hyz hs
            obtain ⟨a1, a2, a3⟩ := h3 y hy z hz hyz hs
            exact ⟨(hset y).mpr (Or.inl a1), (hset z).mpr (Or.inl a2), by beta_reduce; rw [old y a1, old z a2, a3]⟩
          · intro p e y hp hy
            rw [List.getElem?_set_ne (hni y hp.sub)] at hy
            exact h4 p e y hp hy
    · intro y hy
      beta_reduce
      rcases (hset y).mp hy with hy' | rfl
      · obtain ⟨a1, a2, a3⟩ := h.root y hy'
        rw [old y hy', old _ a1]
        exact ⟨(hset _).mpr (Or.inl a1), a2, a3⟩
      · simp only [if_true]
        exact ⟨hsi, trivial, Relation.ReflTransGen.refl⟩
    · intro y hy hr
      beta_reduce at hr ⊢
      rcases (hset y).mp hy with hy' | rfl
      · rw [old y hy'] at hr ⊢
        exact h.gone y hy' hr
      · simp at hr
    · intro d hd'
      obtain ⟨a1, a2, s, a3, a4, a5, a6⟩ := h.edit d hd'
      refine ⟨a1, a2, s, (hset s).mpr (Or.inl a3), by beta_reduce; rw [old s a3, a4], a5, ?_⟩
      intro t ht
      obtain ⟨y, b1, b2, b3, b4⟩ := a6 t ht
      exact ⟨y, (hset y).mpr (Or.inl b1), by beta_reduce; rw [old y b1, b2], b3, b4⟩

/-- A cell is looked at for the first time. -/
theorem top_cell (hu : (m.surfs.map Surf.index).Nodup) {sibs : Int → List Nat} {done done' : List Bool} {ro ro' : Nat → Nat} {E E' : List Edit}
    (h : Top m findE sibs done ro E)
    {c : Int} (hn : (sibs c).Nodup) (hb : ∀ i ∈ sibs c, i < m.surfs.length) (hdis : ∀ c' j, j ∈ sibs c → j ∈ sibs c' → c = c')
    (hd : ∀ i ∈ sibs c, done[i]? = some false) (h' : Cell m findE (sibs c) done done' ro' E') :
    ∃ r, Top m findE sibs done' r (E ++ E') ∧
      (∀ y ∈ sibs c, ∀ z ∈ sibs c, y ≠ z → Sh m y z → done'[y]? = some true ∧ done'[z]? = some true ∧ r y = r z) := by
  have inc : ∀ y ∈ sibs c, (if y ∈ sibs c then ro' y else ro y) = ro' y := fun y hy => if_pos hy
  have outc : ∀ y, done[y]? = some true → y ∉ sibs c := fun y hy hc => by
    rw [hd y hc] at hy; simp at hy
  have old : ∀ y, done[y]? = some true → (if y ∈ sibs c then ro' y else ro y) = ro y ∧ done'[y]? = some true := fun y hy =>
    ⟨if_neg (outc y hy), by rw [h'.out y (outc y hy)]; exact hy⟩
  have hch : ∀ {i j}, Relation.ReflTransGen (Nb (groupOf m (sibs c))) i j → Relation.ReflTransGen (PosMeet m sibs) i j := by
    intro i j hij
    refine Relation.ReflTransGen.mono (fun a b hab => ?_) i j hij
    obtain ⟨h1, h2, h3⟩ := nb_groupOf.mp hab
    exact ⟨c, h1, h2, h3⟩
  have joined : ∀ y ∈ sibs c, ∀ z ∈ sibs c, y ≠ z → Sh m y z → done'[y]? = some true ∧ done'[z]? = some true ∧
      (fun y => if y ∈ sibs c then ro' y else ro y) y = (fun y => if y ∈ sibs c then ro' y else ro y) z := by
    intro y hy z hz hyz hs
    beta_reduce
    rw [inc y hy, inc z hz]
    exact h'.joined y hy z hz hyz hs
  refine ⟨fun y => if y ∈ sibs c then ro' y else ro y, ⟨h'.dlen, ?_, ?_, ?_, ?_, ?_⟩, joined⟩
  · intro c'
    by_cases hcc : c' = c
    · subst hcc
      exact Or.inr ⟨joined, h'.settled⟩
    · have hno : ∀ y ∈ sibs c', y ∉ sibs c := fun y hy hy' => hcc (hdis c' y hy' hy).symm
      rcases h.cell c' with h3 | ⟨h3, h4⟩
      · left
        intro y hy
        rw [h'.out y (hno y hy)]
        exact h3 y hy
      · right
        refine ⟨?_, ?_⟩
        · intro y hy z hz hyz hs
          obtain ⟨a1, a2, a3⟩ := h3 y hy z hz hyz hs
          beta_reduce
          rw [h'.out y (hno y hy), h'.out z (hno z hz), if_neg (hno y hy), if_neg (hno z hz)]
          exact ⟨a1, a2, a3⟩
        · intro p e y hp hy
          rw [h'.out y (hno y hp.sub)] at hy
          exact h4 p e y hp hy
  · intro y hy
    beta_reduce
    by_cases hyc : y ∈ sibs c
    · obtain ⟨a1, a2, a3, a4⟩ := h'.root y hyc hy
      rw [inc y hyc, inc _ a1]
      exact ⟨a2, a3, hch a4⟩
    · rw [h'.out y hyc] at hy
      obtain ⟨a1, a2, a3⟩ := h.root y hy
      rw [(old y hy).1, (old _ a1).1]
      exact ⟨(old _ a1).2, a2, a3⟩
  · intro y hy hr
    beta_reduce at hr ⊢
    by_cases hyc : y ∈ sibs c
    · rw [inc y hyc] at hr ⊢
      obtain ⟨d, h1, h2⟩ := h'.gone y hyc hy hr
      exact ⟨d, List.mem_append.mpr (Or.inr h1), h2⟩
    · rw [h'.out y hyc] at hy
      rw [(old y hy).1] at hr ⊢
      obtain ⟨d, h1, h2⟩ := h.gone y hy hr
      exact ⟨d, List.mem_append.mpr (Or.inl h1), h2⟩
  · intro d hd'
    rcases List.mem_append.mp hd' with hd' | hd'
    · obtain ⟨a1, a2, s, a3, a4, a5, a6⟩ := h.edit d hd'
      refine ⟨a1, a2, s, (old s a3).2, by beta_reduce; rw [(old s a3).1, a4], a5, ?_⟩
      intro t ht
      obtain ⟨y, b1, b2, b3, b4⟩ := a6 t ht
      exact ⟨y, (old y b1).2, by beta_reduce; rw [(old y b1).1, b2], b3, b4⟩
    · obtain ⟨a1, a2, s, a0, a3, a4, a5, a6⟩ := h'.edit d hd'
      refine ⟨a1, a2, s, a3, by beta_reduce; rw [inc s a0, a4], a5, ?_⟩
      intro t ht
      obtain ⟨y, b0, b1, b2, b3, b4⟩ := a6 t ht
      exact ⟨y, b1, by beta_reduce; rw [inc y b0, b2], b3, b4⟩
  · rw [List.flatMap_append]
    refine List.nodup_append.mpr ⟨h.once, h'.once, ?_⟩
    intro x hx y hy hxy
    subst hxy
    obtain ⟨d, hd1, hx1⟩ := List.mem_flatMap.mp hx
    obtain ⟨d', hd2, hx2⟩ := List.mem_flatMap.mp hy
    obtain ⟨_, _, _, _, _, _, a6⟩ := h.edit d hd1
    obtain ⟨_, _, _, _, _, _, _, b6⟩ := h'.edit d' hd2
    obtain ⟨y1, c1, _, _, c4⟩ := a6 x hx1
    obtain ⟨y2, e0, _, _, _, e4⟩ := b6 x hx2
    have hy1 : y1 < m.surfs.length := by rw [← h.dlen]; exact (List.getElem?_eq_some_iff.mp c1).1
    have := ids_inj hu hy1 (hb y2 e0) (c4.symm.trans e4)
    subst this
    exact outc y1 c1 e0

end RSVS.MergeSurf
