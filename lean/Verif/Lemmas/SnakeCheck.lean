import Verif.Spec.SnakeCheck
import Verif.Lemmas.MeshDetach
import Verif.Lemmas.Order
import Mathlib.Data.List.Nodup
import Mathlib.Tactic

namespace RSVS.SnakeCheck

open RSVS RSVS.Mesh RSVS.Spec

theorem foldlM_add {α β : Type} {step : List β → α → Res (List β)} {g : α → List β} : ∀ {L : List α} (acc : List β),
    (∀ x ∈ L, ∀ a, step a x = .ok (a ++ g x)) →
      L.foldlM (m := Except Fault) step acc = .ok (acc ++ L.flatMap g)
  | [], acc, _ => by simp [pure, Except.pure]
  | x :: L, acc, h => by
    rw [List.foldlM_cons, h x (by simp)]
    change L.foldlM (m := Except Fault) step (acc ++ g x) = _
    rw [foldlM_add (acc ++ g x) fun y hy => h y (by simp [hy])]
    simp

theorem anyM_ok {α : Type} {f : α → Res Bool} {g : α → Bool} : ∀ {L : List α}, (∀ x ∈ L, f x = .ok (g x)) →
    anyM f L = .ok (L.any g)
  | [], _ => rfl
  | x :: L, h => by
    have h1 := anyM_ok (L := L) fun y hy => h y (by simp [hy])
    rw [anyM, h x (by simp)]
    change (if g x = true then (.ok true : Res Bool) else anyM f L) = _
    rw [h1]
    cases hg : g x <;> simp [hg]

theorem endIs_ok {l : List Int} (h : l.length = 2) (v : Int) : endIs l v = .ok (decide (v ∈ l)) := by
  match l, h with
  | [a, b], _ =>
    unfold endIs
    have h0 : vecGet [a, b] 0 = .ok a := rfl
    have h1 : vecGet [a, b] 1 = .ok b := rfl
    rw [h0, h1]
    change (if a = v then (.ok true : Res Bool) else .ok (decide (b = v))) = _
    by_cases h2 : a = v
    · subst h2; simp
    · rw [if_neg h2]
      have : (b = v) ↔ v ∈ [a, b] := by
        simp only [List.mem_cons, List.not_mem_nil, or_false]
        constructor
        · exact fun h => .inr h.symm
        · rintro (h | h)
          · exact absurd h.symm h2
          · exact h.symm
      simp only [this]

/-- What is found in the loops over pairs when nothing throws. -/
def found (parts : List Part) (sibs : Int → List Nat) (J : Nat → Nat → Bool) : List (Nat × Nat) :=
  (List.range parts.length).flatMap fun i =>
    match parts[i]? with
    | some x => ((sibs x.parent).filter fun j => decide (i ≠ j) && J i j).map fun j => (i, j)
    | none => []

theorem pairs_ok {parts : List Part} {sibs : Int → List Nat} {differ joined : Nat → Nat → Res Bool} {J : Nat → Nat → Bool}
    (hs : ∀ k, AllPos Part.parent parts k (sibs k))
    (hd : ∀ i j, (∃ k, SameParent parts i k) → (∃ k, SameParent parts j k) → differ i j = .ok (decide (i ≠ j)))
    (hj : ∀ i j, i < parts.length → j < parts.length → joined i j = .ok (J i j)) :
    pairs parts sibs differ joined = .ok (found parts sibs J) := by
  unfold pairs
  rw [foldlM_add (g := fun i => match parts[i]? with
    | some x => ((sibs x.parent).filter fun j => decide (i ≠ j) && J i j).map fun j => (i, j)
    | none => []) []]
  · simp [found]
  intro i hi a
  have hi' : i < parts.length := by simpa using hi
  rw [elemAt_nat parts i hi', List.getElem?_eq_getElem hi']
  change (if 1 < (sibs parts[i].parent).length then _ else _) = _
  have hmem : i ∈ sibs parts[i].parent := ((hs _).2 i).2 ⟨parts[i], List.getElem?_eq_getElem hi', rfl⟩
  split
  · rw [foldlM_add (g := fun j => if (decide (i ≠ j) && J i j) = true then [(i, j)] else []) a]
    · simp only
      congr 2
      generalize sibs parts[i].parent = L
      induction L with
      | nil => rfl
      | cons y L ih =>
        rw [List.flatMap_cons, ih, List.filter_cons]
        split <;> rfl
    · intro j hjm b
      obtain ⟨y, hy, _⟩ := ((hs _).2 j).1 hjm
      have hj' : j < parts.length := by
        rcases Nat.lt_or_ge j parts.length with h | h
        · exact h
        · rw [List.getElem?_eq_none h] at hy; cases hy
      have hne : ∃ k, SameParent parts i k := by
        have h1 : ∃ k ∈ sibs parts[i].parent, k ≠ i := by
          by_contra hno
          have hall : ∀ k ∈ sibs parts[i].parent, k = i := fun k hk => by
            by_contra h2
            exact hno ⟨k, hk, h2⟩
          have := List.nodup_iff_count_le_one.1 (hs parts[i].parent).1 i
          rw [List.eq_replicate_of_mem hall, List.count_replicate_self] at this
          omega
        obtain ⟨k, hk, hki⟩ := h1
        obtain ⟨z, hz, hzp⟩ := ((hs _).2 k).1 hk
        exact ⟨k, Ne.symm hki, parts[i], z, List.getElem?_eq_getElem hi', hz, hzp.symm⟩
      have hne' : ∃ k, SameParent parts j k := by
        by_cases hij : j = i
        · rw [hij]; exact hne
        · exact ⟨i, hij, y, parts[i], hy, List.getElem?_eq_getElem hi', by assumption⟩
      rw [hd i j hne hne', hj i j hi' hj']
      change (if decide (i ≠ j) = true then (.ok (if J i j = true then b ++ [(i, j)] else b) : Res _) else .ok b) = _
      by_cases h1 : i = j
      · simp [h1]
      · cases h2 : J i j <;> simp [h1, h2]
  · rename_i h1
    have h2 : sibs parts[i].parent = [i] := by
      match hl : sibs parts[i].parent with
      | [] => rw [hl] at hmem; simp at hmem
      | [x] => rw [hl] at hmem; simp at hmem; rw [hmem]
      | x :: y :: t => rw [hl] at h1; simp at h1
    simp [h2]

theorem mem_found {parts : List Part} {sibs : Int → List Nat} {J : Nat → Nat → Bool}
    (hs : ∀ k, AllPos Part.parent parts k (sibs k)) (p : Nat × Nat) :
    p ∈ found parts sibs J ↔ SameParent parts p.1 p.2 ∧ J p.1 p.2 = true := by
  unfold found SameParent
  obtain ⟨i, j⟩ := p
  rw [List.mem_flatMap]
  constructor
  · rintro ⟨a, ha, h⟩
    have ha' : a < parts.length := by simpa using ha
    rw [List.getElem?_eq_getElem ha'] at h
    simp only [List.mem_map, List.mem_filter, Bool.and_eq_true, decide_eq_true_eq, Prod.mk.injEq] at h
    obtain ⟨b, ⟨h1, h2, h3⟩, rfl, rfl⟩ := h
    obtain ⟨y, hy, hyp⟩ := ((hs _).2 b).1 h1
    exact ⟨⟨h2, _, y, List.getElem?_eq_getElem ha', hy, hyp.symm⟩, h3⟩
  · rintro ⟨⟨h1, x, y, hx, hy, hxy⟩, h2⟩
    have hi : i < parts.length := by
      rcases Nat.lt_or_ge i parts.length with h | h
      · exact h
      · rw [List.getElem?_eq_none h] at hx; cases hx
    refine ⟨i, by simpa using hi, ?_⟩
    simp only at hx hy h1 h2
    rw [hx]
    simp only [List.mem_map, List.mem_filter, Bool.and_eq_true, decide_eq_true_eq, Prod.mk.injEq]
    exact ⟨j, ⟨((hs _).2 j).2 ⟨y, hy, hxy.symm⟩, h1, h2⟩, by simp⟩

theorem nodup_found {parts : List Part} {sibs : Int → List Nat} {J : Nat → Nat → Bool}
    (hs : ∀ k, AllPos Part.parent parts k (sibs k)) : (found parts sibs J).Nodup := by
  unfold found
  rw [List.nodup_flatMap]
  refine ⟨fun i _ => ?_, ?_⟩
  · split
    · exact ((hs _).1.filter _).map (fun a b h => (Prod.mk.inj h).2)
    · exact List.nodup_nil
  · refine (List.nodup_range (n := parts.length)).imp ?_
    intro a b hab
    change List.Disjoint _ _
    intro p h1 h2
    beta_reduce at h1 h2
    split at h1
    · split at h2
      · simp only [List.mem_map] at h1 h2
        obtain ⟨_, _, rfl⟩ := h1
        obtain ⟨_, _, h3⟩ := h2
        exact hab (Prod.mk.inj h3).1.symm
      · simp at h2
    · simp at h1

theorem found_exact {parts : List Part} {sibs : Int → List Nat} {J : Nat → Nat → Bool} {P : Nat → Nat → Prop}
    (hs : ∀ k, AllPos Part.parent parts k (sibs k))
    (hJ : ∀ i j, i < parts.length → j < parts.length → (J i j = true ↔ P i j)) :
    Exactly (found parts sibs J) (fun p => SameParent parts p.1 p.2 ∧ P p.1 p.2) := by
  refine ⟨nodup_found hs, fun p => ?_⟩
  rw [mem_found hs]
  constructor
  · rintro ⟨h1, h2⟩
    obtain ⟨_, x, y, hx, hy, _⟩ := id h1
    exact ⟨h1, (hJ _ _ (List.getElem?_eq_some_iff.1 hx).1 (List.getElem?_eq_some_iff.1 hy).1).1 h2⟩
  · rintro ⟨h1, h2⟩
    obtain ⟨_, x, y, hx, hy, _⟩ := id h1
    exact ⟨h1, (hJ _ _ (List.getElem?_eq_some_iff.1 hx).1 (List.getElem?_eq_some_iff.1 hy).1).2 h2⟩

theorem lt_of_sameParent {parts : List Part} {i : Nat} (h : ∃ k, SameParent parts i k) : i < parts.length := by
  obtain ⟨_, _, _, _, hx, _⟩ := h
  exact (List.getElem?_eq_some_iff.1 hx).1

theorem differIn_ok {parts : List Part} (hn : (parts.map Part.index).Nodup) {i j : Nat} (hi : i < parts.length)
    (hj : j < parts.length) : differIn parts i j = .ok (decide (i ≠ j)) := by
  unfold differIn
  rw [elemAt_nat parts i hi, elemAt_nat parts j hj]
  change (.ok (decide (parts[i].index ≠ parts[j].index)) : Res Bool) = _
  have : (parts[i].index ≠ parts[j].index) ↔ i ≠ j := by
    constructor
    · rintro h rfl; exact h rfl
    · intro h h'
      refine h ?_
      have h2 := (List.Nodup.getElem_inj_iff hn (i := i) (hi := by simpa using hi) (j := j) (hj := by simpa using hj)).1
        (by simpa using h')
      exact h2
  simp only [this]

section
open Classical

theorem length_of_map {α β : Type} {f : α → Int} {g : β → Int} {l : List α} {k : List β} (h : l.map f = k.map g) :
    l.length = k.length := by
  have := congrArg List.length h
  simpa using this

theorem index_of_map {α β : Type} {f : α → Int} {g : β → Int} {l : List α} {k : List β} (h : l.map f = k.map g) {i : Nat}
    (hi : i < l.length) (hk : i < k.length) : f l[i] = g k[i] := by
  have h1 : (l.map f)[i]? = (k.map g)[i]? := by rw [h]
  simpa [hi, hk] using h1

variable {conn base : Mesh} {snaxs snaxedges snaxsurfs : List Part}

theorem snaxJoined_ok (h : CheckReady conn base snaxs snaxedges snaxsurfs) {i j : Nat} (hi : i < snaxs.length)
    (hj : j < snaxs.length) : snaxJoined conn snaxs i j = .ok (decide (SnaxLinked conn i j)) := by
  have hl := length_of_map h.atVerts
  unfold snaxJoined
  rw [elemAt_nat conn.verts i (by omega)]
  change anyM _ conn.verts[i].edgeind = _
  rw [anyM_ok (g := fun e => decide (∃ x ∈ conn.edges, x.index = e ∧ snaxs[j].index ∈ x.vertind))]
  · have hidx := index_of_map h.atVerts hj (by omega)
    have : (conn.verts[i].edgeind.any fun e => decide (∃ x ∈ conn.edges, x.index = e ∧ snaxs[j].index ∈ x.vertind)) = true ↔
        SnaxLinked conn i j := by
      rw [List.any_eq_true]
      constructor
      · rintro ⟨e, he, hd⟩
        obtain ⟨x, hx, rfl, hv⟩ := of_decide_eq_true hd
        exact ⟨conn.verts[i], conn.verts[j]'(by omega), List.getElem?_eq_getElem (by omega),
          List.getElem?_eq_getElem (by omega), x, hx, he, hidx ▸ hv⟩
      · rintro ⟨v, w, hv, hw, x, hx, h1, h2⟩
        obtain ⟨_, rfl⟩ := List.getElem?_eq_some_iff.1 hv
        obtain ⟨_, rfl⟩ := List.getElem?_eq_some_iff.1 hw
        exact ⟨x.index, h1, decide_eq_true ⟨x, hx, rfl, hidx ▸ h2⟩⟩
    refine congrArg _ ?_
    rw [Bool.eq_iff_iff, this, decide_eq_true_iff]
  · intro e he
    obtain ⟨x, h1, h2, h3⟩ := elemAt_posOf_ok (ix := Edge.index) (h.vertEdge _ (List.getElem_mem _) e he)
    have h1' : isearch Edge.index conn.edges e = .ok x := h1
    rw [h1', elemAt_nat snaxs j hj]
    change endIs x.vertind snaxs[j].index = _
    rw [endIs_ok (h.twoVerts x h2)]
    refine congrArg _ ?_
    refine (decide_eq_decide.2 ?_)
    constructor
    · exact fun h4 => ⟨x, h2, h3, h4⟩
    · rintro ⟨y, hy, hy1, hy2⟩
      rwa [inj_of_nodup h.unique.edges h2 hy (h3.trans hy1.symm)]

theorem edgeJoined_ok (h : CheckReady conn base snaxs snaxedges snaxsurfs) {i j : Nat} (hi : i < snaxedges.length)
    (hj : j < snaxedges.length) : edgeJoined conn i j = .ok (decide (EdgesMeet conn i j)) := by
  have hl := length_of_map h.atEdges
  unfold edgeJoined
  rw [elemAt_nat conn.edges i (by omega), elemAt_nat conn.edges j (by omega)]
  change anyM (fun v => endIs (conn.edges[j]'(by omega)).vertind v) conn.edges[i].vertind = _
  rw [anyM_ok (g := fun v => decide (v ∈ (conn.edges[j]'(by omega)).vertind)) fun v _ =>
    (endIs_ok (h.twoVerts _ (List.getElem_mem _)) v).trans (congrArg _ (decide_eq_decide.2 Iff.rfl))]
  refine congrArg _ ?_
  rw [Bool.eq_iff_iff, List.any_eq_true, decide_eq_true_iff]
  constructor
  · rintro ⟨v, h1, h2⟩
    exact ⟨_, _, List.getElem?_eq_getElem (by omega), List.getElem?_eq_getElem (by omega), v, h1, of_decide_eq_true h2⟩
  · rintro ⟨x, y, hx, hy, v, h1, h2⟩
    obtain ⟨_, rfl⟩ := List.getElem?_eq_some_iff.1 hx
    obtain ⟨_, rfl⟩ := List.getElem?_eq_some_iff.1 hy
    exact ⟨v, h1, decide_eq_true h2⟩

theorem surfJoined_ok (h : CheckReady conn base snaxs snaxedges snaxsurfs) {i j : Nat} (hi : i < snaxsurfs.length)
    (hj : j < snaxsurfs.length) : surfJoined conn i j = .ok (decide (SurfsMeet conn i j)) := by
  have hl := length_of_map h.atSurfs
  unfold surfJoined
  rw [elemAt_nat conn.surfs i (by omega), elemAt_nat conn.surfs j (by omega)]
  change anyM (fun e => .ok ((conn.surfs[j]'(by omega)).edgeind.any fun f => decide (f = e))) conn.surfs[i].edgeind = _
  rw [anyM_ok fun e _ => rfl]
  refine congrArg _ ?_
  rw [Bool.eq_iff_iff, List.any_eq_true, decide_eq_true_iff]
  constructor
  · rintro ⟨e, h1, h2⟩
    obtain ⟨f, hf, hfe⟩ := List.any_eq_true.1 h2
    have hfe := of_decide_eq_true hfe
    exact ⟨_, _, List.getElem?_eq_getElem (by omega), List.getElem?_eq_getElem (by omega), e, h1, hfe ▸ hf⟩
  · rintro ⟨x, y, hx, hy, v, h1, h2⟩
    obtain ⟨_, rfl⟩ := List.getElem?_eq_some_iff.1 hx
    obtain ⟨_, rfl⟩ := List.getElem?_eq_some_iff.1 hy
    exact ⟨v, h1, List.any_eq_true.2 ⟨v, h2, by simp⟩⟩

theorem countCheck_ok (h : CheckReady conn base snaxs snaxedges snaxsurfs) :
    countCheck conn base snaxs = .ok ((List.range snaxs.length).filter fun i => decide (WrongCount conn base snaxs i)) := by
  have hl := length_of_map h.atVerts
  unfold countCheck
  rw [foldlM_add (g := fun i => if WrongCount conn base snaxs i then [i] else []) []]
  · refine congrArg _ ?_
    rw [List.nil_append]
    generalize List.range snaxs.length = L
    induction L with
    | nil => rfl
    | cons y L ih =>
      rw [List.flatMap_cons, ih, List.filter_cons]
      by_cases h1 : WrongCount conn base snaxs y <;> simp [h1]
  · intro i hi a
    have hi' : i < snaxs.length := by simpa using hi
    rw [elemAt_nat conn.verts i (by omega), elemAt_nat snaxs i hi']
    obtain ⟨x, h1, h2, h3⟩ := elemAt_posOf_ok (ix := Edge.index) (h.onEdge _ (List.getElem_mem hi'))
    have h1' : isearch Edge.index base.edges snaxs[i].parent = .ok x := h1
    change (isearch Edge.index base.edges snaxs[i].parent).map _ = _
    rw [h1']
    change (.ok (if conn.verts[i].edgeind.length ≠ x.surfind.length then a ++ [i] else a) : Res _) = _
    have : WrongCount conn base snaxs i ↔ (conn.verts[i]'(by omega)).edgeind.length ≠ x.surfind.length := by
      constructor
      · rintro ⟨v, s, e, hv, hs, he, hes, hne⟩
        obtain ⟨_, rfl⟩ := List.getElem?_eq_some_iff.1 hv
        obtain ⟨_, rfl⟩ := List.getElem?_eq_some_iff.1 hs
        rwa [inj_of_nodup h.baseEdges h2 he (h3.trans hes.symm)]
      · exact fun hne => ⟨_, _, x, List.getElem?_eq_getElem (by omega), List.getElem?_eq_getElem hi', h2, h3, hne⟩
    by_cases h4 : WrongCount conn base snaxs i
    · rw [if_pos h4, if_pos (this.1 h4)]
    · rw [if_neg h4, if_neg (fun h5 => h4 (this.2 h5)), List.append_nil]

end

end RSVS.SnakeCheck
