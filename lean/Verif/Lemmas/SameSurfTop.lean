import Verif.Lemmas.SameSurf

/-!
# Lemmas for the merge of edges on one surface of the snake: all edges
-/

namespace RSVS.SameSurf

open RSVS.Spec RSVS.Mesh RSVS.SpawnRemove RSVS.MergeEdge

variable {m : Mesh} {cells cells' : List (Int × Int)} {find : List Int → Int → List Nat} {sibs : Int → List Nat} {live : List Int}

/-- Only the indices of the edges matter. -/
theorem elemAt_fst {β : Type} (h : cells.map Prod.fst = cells'.map Prod.fst) (i : Int) (f : Int → Res β) :
    (elemAt cells i).bind (fun x => f x.1) = (elemAt cells' i).bind fun x => f x.1 := by
  unfold elemAt
  have hg : ∀ n : Nat, (cells[n]?).map Prod.fst = (cells'[n]?).map Prod.fst := by
    intro n
    rw [← List.getElem?_map, ← List.getElem?_map, h]
  split
  · rfl
  · have := hg i.toNat
    revert this
    cases cells[i.toNat]? <;> cases cells'[i.toNat]? <;> simp
    · intro e; show f _ = f _; rw [e]

theorem walk_congr (h : cells.map Prod.fst = cells'.map Prod.fst) (g : Ends) : ∀ (fuel : Nat) (w : Walk),
    walk cells find g fuel w = walk cells' find g fuel w
  | 0, _ => rfl
  | fuel + 1, w => by
    rw [walk, walk]
    congr 1
    funext c
    split
    · congr 1
      funext v
      congr 1
      funext r
      congr 1
      funext i
      rw [elemAt_fst h i (fun e => (vecGet w.done i).bind fun _ => (vecGet r.1 r.2).bind fun _ =>
        walk cells find g fuel ⟨w.done.set i true, r.1.set r.2 0, w.rmvE ++ [e], if c = 3 then w.rmvV else w.rmvV ++ [v], flip r.2⟩)]
      congr 1
      funext x
      congr 1
      funext _
      congr 1
      funext _
      exact walk_congr h g fuel _
    · rfl

theorem chainFrom_congr (h : cells.map Prod.fst = cells'.map Prod.fst) (g : Ends) (scope : List Int) (a : Joined) (s : Nat) :
    chainFrom cells find g scope a s = chainFrom cells' find g scope a s := by
  unfold chainFrom
  congr 1
  funext i
  rw [elemAt_fst h i (fun e => (vecGet a.done i).bind fun _ =>
    (walk cells find g (g.vec.length + 1) ⟨a.done.set i true, a.count.set s 0, [], [], flip s⟩).bind fun w =>
    (vecGet g.vec w.next).map fun v =>
      (⟨w.done, w.count, if w.rmvE.length > 0 then a.edits ++ [(⟨e, w.rmvE, v, w.rmvV, scope⟩ : PathEdit)] else a.edits⟩ : Joined))]
  congr 1
  funext x
  congr 1
  funext _
  rw [walk_congr h]

theorem phase_congr (h : cells.map Prod.fst = cells'.map Prod.fst) (g : Ends) (scope : List Int) (c : Nat) : ∀ (fuel : Nat) (a : Joined),
    phase cells find g scope c fuel a = phase cells' find g scope c fuel a
  | 0, _ => rfl
  | fuel + 1, a => by
    rw [phase, phase]
    split
    · rfl
    · rw [chainFrom_congr h]
      congr 1
      funext a
      exact phase_congr h g scope c fuel a

theorem mergeEdges_congr (h : cells.map Prod.fst = cells'.map Prod.fst) (done : List Bool) (E : List PathEdit) (sub : List Nat) :
    mergeEdges m cells find done E sub = mergeEdges m cells' find done E sub := by
  unfold mergeEdges
  congr 1
  funext vec
  have hm : (sub.mapM (m := Except Fault) fun p : Nat => (elemAt cells p).map Prod.fst) =
      sub.mapM (m := Except Fault) fun p : Nat => (elemAt cells' p).map Prod.fst := by
    congr 1
    funext p
    have := elemAt_fst h p (fun e => (Except.ok e : Res Int))
    cases h1 : elemAt cells p <;> cases h2 : elemAt cells' p <;> rw [h1, h2] at this <;> exact this
  rw [hm]
  congr 1
  funext scope
  rw [phase_congr h]
  congr 1
  funext a
  rw [phase_congr h]

theorem chain_symm {e f : Int} (h : EdgeChain m cells e f) : EdgeChain m cells f e := by
  induction h with
  | refl => exact Relation.ReflTransGen.refl
  | tail _ h ih =>
    obtain ⟨v, c, h1, h2, h3, h4⟩ := h
    exact Relation.ReflTransGen.head ⟨v, c, h2, h1, h4, h3⟩ ih

/-- The siblings on a surface. -/
def Grp (m : Mesh) (sub : List Nat) (s : Int) (i : Nat) : Prop := i ∈ sub ∧ s ∈ surfAt m i

variable (S : Setting m cells sibs live find)
include S

theorem edgeSurf {i : Nat} {s : Int} (hi : i < m.edges.length) : EdgeSurf m (eid m i) s ↔ s ∈ surfAt m i := by
  have h2 : eid m i = m.edges[i].index := by unfold eid; rw [List.getElem?_eq_getElem hi]; rfl
  rw [surfAt_of hi, h2]
  constructor
  · rintro ⟨x, hx, h3, h4⟩
    rwa [inj_of_nodup S.unique hx (List.getElem_mem hi) h3] at h4
  · intro h4
    exact ⟨_, List.getElem_mem hi, rfl, h4⟩

theorem mem_onSurf {c s e k : Int} : (e, k) ∈ onSurf m (cells.filter fun x => x.1 ∈ live) c s ↔ k = s ∧ ∃ i, Grp m (sibs c) s i ∧ eid m i = e := by
  unfold onSurf
  rw [List.mem_map]
  constructor
  · rintro ⟨⟨e', c'⟩, h1, h2⟩
    obtain ⟨rfl, rfl⟩ := Prod.mk.inj h2
    rw [List.mem_filter] at h1
    obtain ⟨h1, h3⟩ := h1
    simp only [Bool.and_eq_true, decide_eq_true_eq, List.any_eq_true] at h3
    obtain ⟨rfl, y, hy, h4, h5⟩ := h3
    obtain ⟨i, hi, rfl⟩ := S.mem_cells.mp h1
    exact ⟨rfl, i, ⟨hi, (edgeSurf S (S.sib_lt hi)).mp ⟨y, hy, h4, h5⟩⟩, rfl⟩
  · rintro ⟨rfl, i, ⟨hi, hs⟩, rfl⟩
    refine ⟨(eid m i, c), ?_, rfl⟩
    rw [List.mem_filter]
    refine ⟨S.mem_cells.mpr ⟨i, hi, rfl⟩, ?_⟩
    obtain ⟨y, hy, h4, h5⟩ := (edgeSurf S (S.sib_lt hi)).mpr hs
    simp only [Bool.and_eq_true, decide_eq_true_eq, List.any_eq_true]
    exact ⟨trivial, y, hy, h4, h5⟩

/-- The edges of a group as the edges of a surface. -/
theorem group_setting {c s : Int} {l : List Nat} (hl : l.Nodup) (hm : ∀ i, i ∈ l ↔ Grp m (sibs c) s i) :
    Setting m (cells.map fun x => (x.1, s)) (fun k => if k = s then l else []) (l.map (eid m)) find ∧
      ((cells.map fun x => (x.1, s)).filter fun x => x.1 ∈ l.map (eid m)) = onSurf m (cells.filter fun x => x.1 ∈ live) c s := by
  have hcell : ∀ x ∈ cells, (x.1 ∈ l.map (eid m) ↔ x.1 ∈ live ∧ x.2 = c ∧ ∃ y ∈ m.edges, y.index = x.1 ∧ s ∈ y.surfind) := by
    intro x hx
    obtain ⟨j, hj, hxj⟩ := List.getElem_of_mem hx
    have hj' : cells[j]? = some x := by rw [List.getElem?_eq_getElem hj, hxj]
    have hjm : j < m.edges.length := by rw [← S.len]; exact hj
    have hje : x.1 = eid m j := by
      obtain ⟨y, h1, h2⟩ := S.cell_at hjm
      rw [hj'] at h1
      rw [← h2, Option.some.inj h1]
    rw [List.mem_map]
    constructor
    · rintro ⟨i, hi, h1⟩
      obtain ⟨h2, h3⟩ := (hm i).mp hi
      rw [hje] at h1
      have := S.eid_inj (S.sib_lt h2) hjm h1
      subst this
      obtain ⟨x', a1, a2, a3⟩ := ((S.sib c).2 i).mp h2
      rw [hj'] at a1
      have := Option.some.inj a1
      subst this
      refine ⟨a3, a2, ?_⟩
      rw [hje]
      exact (edgeSurf S hjm).mpr h3
    · rintro ⟨a1, a2, a3⟩
      have hjs : j ∈ sibs c := ((S.sib c).2 j).mpr ⟨x, hj', a2, a1⟩
      rw [hje] at a3
      exact ⟨j, (hm j).mpr ⟨hjs, (edgeSurf S hjm).mp a3⟩, hje.symm⟩
  have heq : ((cells.map fun x => (x.1, s)).filter fun x => x.1 ∈ l.map (eid m)) = onSurf m (cells.filter fun x => x.1 ∈ live) c s := by
    unfold onSurf
    rw [List.filter_map, List.filter_filter]
    congr 1
    refine List.filter_congr ?_
    intro x hx
    have := hcell x hx
    rw [Bool.eq_iff_iff]
    simp only [Function.comp_apply, decide_eq_true_eq, Bool.and_eq_true, List.any_eq_true]
    rw [this]
    constructor
    · rintro ⟨a1, a2, a3⟩; exact ⟨⟨a2, a3⟩, a1⟩
    · rintro ⟨⟨a2, a3⟩, a1⟩; exact ⟨a1, a2, a3⟩
  refine ⟨⟨S.unique, ?_, ?_, ?_, S.find, ?_⟩, heq⟩
  · rw [List.map_map]; exact S.step
  · intro k
    by_cases hk : k = s
    · subst hk
      simp only [if_true]
      refine ⟨hl, fun p => ?_⟩
      constructor
      · intro hp
        have hpl := S.sib_lt ((hm p).mp hp).1
        obtain ⟨x, hx, hx1⟩ := S.cell_at hpl
        exact ⟨(x.1, k), by rw [List.getElem?_map, hx]; rfl, rfl, by rw [hx1]; exact List.mem_map_of_mem hp⟩
      · rintro ⟨x, h1, _, h3⟩
        rw [List.getElem?_map] at h1
        obtain ⟨y, hy, rfl⟩ := Option.map_eq_some_iff.mp h1
        have hpl : p < m.edges.length := by rw [← S.len]; exact (List.getElem?_eq_some_iff.mp hy).1
        obtain ⟨z, hz, hz1⟩ := S.cell_at hpl
        rw [hy] at hz
        have := Option.some.inj hz
        subst this
        obtain ⟨i, hi, h4⟩ := List.mem_map.mp h3
        have := S.eid_inj (S.sib_lt ((hm i).mp hi).1) hpl (h4.trans hz1)
        subst this
        exact hi
    · simp only [if_neg hk]
      refine ⟨List.nodup_nil, fun p => ?_⟩
      constructor
      · intro h; simp at h
      · rintro ⟨x, h1, h2, _⟩
        rw [List.getElem?_map] at h1
        obtain ⟨y, _, rfl⟩ := Option.map_eq_some_iff.mp h1
        exact absurd h2.symm hk
  · intro x hx hxl
    refine S.two x hx ?_
    obtain ⟨i, hi, h1⟩ := List.mem_map.mp hxl
    have h2 := ((hm i).mp hi).1
    obtain ⟨y, h3, h4, h5⟩ := ((S.sib c).2 i).mp h2
    obtain ⟨z, h6, h7⟩ := S.cell_at (S.sib_lt h2)
    rw [h3] at h6
    have := Option.some.inj h6
    subst this
    rw [← h1, ← h7]
    exact h5
  · have hmeet : ∀ {v e f : Int}, EdgesMeetAt m ((cells.map fun x => (x.1, s)).filter fun x => x.1 ∈ l.map (eid m)) v e f →
        EdgesMeetAt m (cells.filter fun x => x.1 ∈ live) v e f := by
      rintro v e f ⟨k, h1, h2, h3, h4⟩
      rw [heq] at h1 h2
      obtain ⟨_, i, ⟨hi, _⟩, rfl⟩ := (mem_onSurf S).mp h1
      obtain ⟨_, j, ⟨hj, _⟩, rfl⟩ := (mem_onSurf S).mp h2
      exact ⟨c, S.mem_cells.mpr ⟨i, hi, rfl⟩, S.mem_cells.mpr ⟨j, hj, rfl⟩, h3, h4⟩
    intro v e f g h1 h2
    exact S.most v e f g (hmeet h1) (hmeet h2)

omit S in
theorem joins_mem {d : PathEdit} (h : JoinsChain m cells d) {e : Int} (he : e ∈ d.keepE :: d.rmvE) : EdgeChain m cells d.keepE e := by
  rcases List.mem_cons.mp he with rfl | he
  · exact Relation.ReflTransGen.refl
  · exact ((h.rmv e).mp he).1

/-- One call on a group. -/
theorem group_call {c s : Int} {l : List Nat} (hl : l.Nodup) (hm : ∀ i, i ∈ l ↔ Grp m (sibs c) s i) {done : List Bool}
    (hd : done.length = m.edges.length) (E0 : List PathEdit) :
    ∃ done' E, mergeEdges m cells find done E0 l = .ok (done', E0 ++ E) ∧ done'.length = m.edges.length ∧
      (∀ i, i ∉ l → done'[i]? = done[i]?) ∧ (∀ i ∈ l, done'[i]? = some true) ∧
      (∀ d ∈ E, JoinsChain m (onSurf m (cells.filter fun x => x.1 ∈ live) c s) d ∧ ∀ e ∈ d.keepE :: d.rmvE, ∃ i ∈ l, e = eid m i) ∧
      ApartEdits E ∧ AllJoined m (onSurf m (cells.filter fun x => x.1 ∈ live) c s) E ∧
      JoinedOnce m (onSurf m (cells.filter fun x => x.1 ∈ live) c s) E := by
  obtain ⟨Sg, heq⟩ := group_setting S hl hm
  obtain ⟨done', E, g1, g2, g3, g4, g5, g6, g7⟩ := Sg.call s hd E0
  simp only [if_true] at g1 g3 g4 g5 g7
  rw [heq] at g5 g6 g7
  have hin : ∀ {r : Nat} {e : Int}, r ∈ l → EdgeChain m (onSurf m (cells.filter fun x => x.1 ∈ live) c s) (eid m r) e → ∃ i ∈ l, e = eid m i := by
    intro r e hr h
    rw [← heq] at h
    have hr' : r ∈ (fun k => if k = s then l else []) s := by simpa using hr
    obtain ⟨j, h1, h2⟩ := (Sg.chain hr').mp h
    have := Sg.ch_mem hr' h2
    exact ⟨j, by simpa using this, h1.symm⟩
  refine ⟨done', E, ?_, g2, g3, g4, ?_, ?_, ?_, g6⟩
  · rw [mergeEdges_congr (cells' := cells.map fun x => (x.1, s)) (by rw [List.map_map]; rfl)]
    exact g1
  · intro d hd'
    obtain ⟨h1, r, h2, h3⟩ := g5 d hd'
    refine ⟨h1, fun e he => ?_⟩
    have := joins_mem h1 he
    rw [h3] at this
    exact hin h2 this
  · unfold ApartEdits
    have hE : ∀ d ∈ E, JoinsChain m (onSurf m (cells.filter fun x => x.1 ∈ live) c s) d := fun d hd => (g5 d hd).1
    refine List.Pairwise.imp_of_mem ?_ g6
    intro d d' hd1 hd2 hne e he he'
    exact hne ((joins_mem (hE d hd1) he).trans (chain_symm (joins_mem (hE d' hd2) he')))
  · intro e f hne hch
    have he : ∃ i ∈ l, e = eid m i := by
      rcases Relation.ReflTransGen.cases_head hch with h | ⟨k, ⟨v, k', hv, _⟩, _⟩
      · exact absurd h hne
      · obtain ⟨_, i, hi, rfl⟩ := (mem_onSurf S).mp hv
        exact ⟨i, (hm i).mpr hi, rfl⟩
    obtain ⟨i, hi, rfl⟩ := he
    rcases g7 i hi with h | h
    · have hi' : i ∈ (fun k => if k = s then l else []) s := by simpa using hi
      rw [← heq] at hch
      obtain ⟨j, rfl, hj⟩ := (Sg.chain hi').mp hch
      have hlist : endsOf m ((fun k => if k = s then l else []) s) = endsOf m l := by simp
      rw [hlist] at hj
      exact absurd (by rw [h j hj]) hne
    · exact h

omit S in
theorem anyDone_ok {done : List Bool} : ∀ (l : List Nat) (b : Bool), (∀ i ∈ l, i < done.length) →
    ∃ b', l.foldlM (m := Except Fault) (fun (b : Bool) (p : Nat) => if b then .ok true else vecGet done p) b = .ok b' ∧
      (b' = true ↔ b = true ∨ ∃ i ∈ l, done[i]? = some true)
  | [], b, _ => ⟨b, rfl, by simp⟩
  | i :: l, b, h => by
    have hi := h i (by simp)
    have hg : done[i]? = some done[i] := List.getElem?_eq_getElem hi
    cases b with
    | true =>
      obtain ⟨b', h1, h2⟩ := anyDone_ok l true (fun j hj => h j (by simp [hj]))
      refine ⟨b', ?_, ?_⟩
      · rw [List.foldlM_cons]; exact h1
      · rw [h2]; simp
    | false =>
      obtain ⟨b', h1, h2⟩ := anyDone_ok l done[i] (fun j hj => h j (by simp [hj]))
      refine ⟨b', ?_, ?_⟩
      · rw [List.foldlM_cons]
        simp only [Bool.false_eq_true, if_false]
        rw [vecGet_of hg]
        exact h1
      · rw [h2]
        simp [hg]

/-- What holds while the edges are gone through. -/
structure TopS (m : Mesh) (cells : List (Int × Int)) (sibs : Int → List Nat) (live : List Int) (one : Prop) (done : List Bool) (E : List PathEdit) : Prop where
  dlen : done.length = m.edges.length
  edits : ∀ d ∈ E, (∃ c s, JoinsChain m (onSurf m (cells.filter fun x => x.1 ∈ live) c s) d) ∧
    ∀ e ∈ d.keepE :: d.rmvE, ∃ i, i < m.edges.length ∧ done[i]? = some true ∧ e = eid m i
  apart : ApartEdits E
  all : one → ∀ c s i j, i ≠ j → Grp m (sibs c) s i → Grp m (sibs c) s j →
    (∀ k, Grp m (sibs c) s k → done[k]? = some false) ∨
      ((∀ k, Grp m (sibs c) s k → done[k]? = some true) ∧ AllJoined m (onSurf m (cells.filter fun x => x.1 ∈ live) c s) E)

omit S in
theorem allJoined_mono {E E' : List PathEdit} (h : AllJoined m cells E) : AllJoined m cells (E ++ E') := by
  intro e f hne hch
  obtain ⟨d, h1, h2⟩ := h e f hne hch
  exact ⟨d, List.mem_append.mpr (Or.inl h1), h2⟩

theorem topS_step (hnd : ∀ x ∈ m.edges, x.surfind.Nodup)
    (hsh : ∀ c, ∀ i ∈ sibs c, (∃ j ∈ sibs c, j ≠ i) → ∃ s ∈ surfAt m i, ShareAt m (sibs c) i s)
    {one : Prop} (hone : one → ∀ c i s s', i ∈ sibs c → s ∈ surfAt m i → s' ∈ surfAt m i → ShareAt m (sibs c) i s → ShareAt m (sibs c) i s' → s = s')
    {done : List Bool} {E : List PathEdit} (prev : List Nat) (h : TopS m cells sibs live one done E) {i : Nat} (hi : i < cells.length) :
    ∃ done' E' prev', sameStep m cells sibs find (done, E, prev) i = .ok (done', E', prev') ∧ TopS m cells sibs live one done' E' ∧
      done'[i]? = some true ∧ ∀ j : Nat, done[j]? = some true → done'[j]? = some true := by
  have him : i < m.edges.length := by rw [← S.len]; exact hi
  unfold sameStep
  rcases bool_of (l := done) (i := i) (by rw [h.dlen]; exact him) with hd | hd
  · exact ⟨done, E, prev, by rw [vecGet_of hd]; rfl, h, hd, fun _ hj => hj⟩
  · have hx : cells[i]? = some cells[i] := List.getElem?_eq_getElem hi
    rw [vecGet_of hd, ok_bind]
    simp only [Bool.not_false, if_true]
    rw [elemAt_of hx, ok_bind]
    have hself : ∀ c', i ∈ sibs c' → c' = cells[i].2 := by
      intro c' hc'
      obtain ⟨x, h1, h2, _⟩ := ((S.sib c').2 i).mp hc'
      rw [hx] at h1
      rw [← h2, Option.some.inj h1]
    generalize cells[i].2 = c at hself
    have hset : ∀ (D : List Bool), D.length = m.edges.length → ∀ j : Nat, (D.set i true)[j]? = if j = i then some true else D[j]? :=
      fun D hD j => set_get (by rw [hD]; exact him)
    -- the edge is marked and nothing else
    have mark : TopS m cells sibs live one (done.set i true) E ∨ (i ∈ sibs c ∧ (sibs c).length > 1) := by
      by_cases hc : i ∈ sibs c ∧ (sibs c).length > 1
      · exact Or.inr hc
      left
      refine ⟨by simpa using h.dlen, ?_, h.apart, ?_⟩
      · intro d hd'
        obtain ⟨h1, h2⟩ := h.edits d hd'
        refine ⟨h1, fun e he => ?_⟩
        obtain ⟨k, a1, a2, a3⟩ := h2 e he
        refine ⟨k, a1, ?_, a3⟩
        rw [hset done h.dlen]
        split
        · rfl
        · exact a2
      · intro ho c' s k k' hne hk hk'
        have hnot : ∀ j, Grp m (sibs c') s j → j ≠ i := by
          rintro j hj rfl
          have := hself c' hj.1
          subst this
          refine hc ⟨hj.1, (two_of_length (S.sib c').1 hj.1).mpr ?_⟩
          by_cases hkj : k = j
          · exact ⟨k', hk'.1, fun e => hne (hkj.trans e.symm)⟩
          · exact ⟨k, hk.1, hkj⟩
        have hsame : ∀ j, Grp m (sibs c') s j → (done.set i true)[j]? = done[j]? := by
          intro j hj
          rw [hset done h.dlen, if_neg (hnot j hj)]
        rcases h.all ho c' s k k' hne hk hk' with h1 | ⟨h1, h2⟩
        · exact Or.inl fun j hj => (hsame j hj).trans (h1 j hj)
        · exact Or.inr ⟨fun j hj => (hsame j hj).trans (h1 j hj), h2⟩
    by_cases hc : i ∈ sibs c ∧ (sibs c).length > 1
    · rw [if_pos hc, elemAt_of (List.getElem?_eq_getElem him), ok_bind]
      obtain ⟨k, s, l, g1, g2, g3, _, g5, g6⟩ := sameSurf_ok S hnd hc.1 (hsh c i hc.1 ((two_of_length (S.sib c).1 hc.1).mp hc.2)) prev
      rw [g1, ok_bind]
      have hm : ∀ j, j ∈ l ↔ Grp m (sibs c) s j := g6
      have hsi : s ∈ surfAt m i := List.mem_of_getElem? g2
      have hil : i ∈ l := (hm i).mpr ⟨hc.1, hsi⟩
      obtain ⟨b, hb1, hb2⟩ := anyDone_ok (done := done) l false (fun j hj => by rw [h.dlen]; exact S.sib_lt ((hm j).mp hj).1)
      have hany : anyDone done l = .ok b := hb1
      show ∃ done' E' prev', Except.map _ (Except.bind (anyDone done l) _) = _ ∧ _
      rw [hany, ok_bind]
      have hkl : k < m.edges[i].surfind.length := by rw [← surfAt_of him]; exact (List.getElem?_eq_some_iff.mp g2).1
      have hother : ∃ j ∈ l, j ≠ i := by
        obtain ⟨j, a1, a2, a3⟩ := g3
        exact ⟨j, (hm j).mpr ⟨a1, a3⟩, a2⟩
      obtain ⟨j0, hj0, hj0i⟩ := hother
      cases b with
      | true =>
        have hdone : ∃ j ∈ l, done[j]? = some true := by
          rcases hb2.mp rfl with h1 | h1
          · simp at h1
          · exact h1
        simp only [Bool.not_true, Bool.and_false, Bool.false_eq_true, if_false]
        refine ⟨done.set i true, E, l, rfl, ⟨by simpa using h.dlen, ?_, h.apart, ?_⟩, by rw [hset done h.dlen, if_pos rfl], ?_⟩
        · intro d hd'
          obtain ⟨h1, h2⟩ := h.edits d hd'
          refine ⟨h1, fun e he => ?_⟩
          obtain ⟨k, a1, a2, a3⟩ := h2 e he
          refine ⟨k, a1, ?_, a3⟩
          rw [hset done h.dlen]
          split
          · rfl
          · exact a2
        · intro ho
          exfalso
          obtain ⟨j, hj, hjd⟩ := hdone
          rcases h.all ho c s i j0 (Ne.symm hj0i) ((hm i).mp hil) ((hm j0).mp hj0) with h1 | ⟨h1, _⟩
          · have := h1 j ((hm j).mp hj)
            rw [hjd] at this
            simp at this
          · have := h1 i ((hm i).mp hil)
            rw [hd] at this
            simp at this
        · intro j hj
          rw [hset done h.dlen]
          split
          · rfl
          · exact hj
      | false =>
        have hund : ∀ j ∈ l, done[j]? ≠ some true := by
          intro j hj hjd
          have := hb2.mpr (Or.inr ⟨j, hj, hjd⟩)
          simp at this
        simp only [Bool.not_false, Bool.and_true, decide_eq_true_eq]
        rw [if_pos hkl]
        obtain ⟨D, E', q1, q2, q3, q4, q5, q6, q7, _⟩ := group_call S g5 hm h.dlen E
        show ∃ done' E' prev', Except.map _ (Except.map _ (mergeEdges m cells find done E l)) = _ ∧ _
        rw [q1]
        have hDset : ∀ j : Nat, (D.set i true)[j]? = D[j]? := by
          intro j
          rw [hset D q2]
          split
          · rename_i hji; rw [hji, q4 i hil]
          · rfl
        have hmono : ∀ j : Nat, done[j]? = some true → (D.set i true)[j]? = some true := by
          intro j hj
          rw [hDset]
          by_cases hjl : j ∈ l
          · exact q4 j hjl
          · rw [q3 j hjl]; exact hj
        refine ⟨D.set i true, E ++ E', l, rfl, ⟨by simpa using q2, ?_, ?_, ?_⟩, by rw [hset D q2, if_pos rfl], hmono⟩
        · intro d hd'
          rcases List.mem_append.mp hd' with hd' | hd'
          · obtain ⟨h1, h2⟩ := h.edits d hd'
            refine ⟨h1, fun e he => ?_⟩
            obtain ⟨k, a1, a2, a3⟩ := h2 e he
            exact ⟨k, a1, hmono k a2, a3⟩
          · obtain ⟨h1, h2⟩ := q5 d hd'
            refine ⟨⟨c, s, h1⟩, fun e he => ?_⟩
            obtain ⟨k, a1, a2⟩ := h2 e he
            exact ⟨k, S.sib_lt ((hm k).mp a1).1, by rw [hDset]; exact q4 k a1, a2⟩
        · unfold ApartEdits
          rw [List.pairwise_append]
          refine ⟨h.apart, q6, ?_⟩
          intro d hd1 d' hd2 e he he'
          obtain ⟨k, a1, a2, a3⟩ := (h.edits d hd1).2 e he
          obtain ⟨k', b1, b2⟩ := (q5 d' hd2).2 e he'
          rw [a3] at b2
          have := S.eid_inj a1 (S.sib_lt ((hm k').mp b1).1) b2
          subst this
          exact hund k b1 a2
        · intro ho c' s' a b hne ha hb
          by_cases hcs : c' = c ∧ s' = s
          · obtain ⟨rfl, rfl⟩ := hcs
            right
            refine ⟨fun j hj => by rw [hDset]; exact q4 j ((hm j).mpr hj), ?_⟩
            intro e f hef hch
            obtain ⟨d, h1, h2⟩ := q7 e f hef hch
            exact ⟨d, List.mem_append.mpr (Or.inr h1), h2⟩
          · have hout : ∀ j, Grp m (sibs c') s' j → j ∉ l := by
              intro j hj hjl
              have hj' := (hm j).mp hjl
              have hcc := S.sib_cell hj.1 hj'.1
              subst hcc
              refine hcs ⟨rfl, hone ho c' j s' s hj.1 hj.2 hj'.2 ?_ ?_⟩
              · by_cases haj : a = j
                · exact ⟨b, hb.1, fun e => hne (haj.trans e.symm), hb.2⟩
                · exact ⟨a, ha.1, haj, ha.2⟩
              · by_cases hji : j = i
                · exact ⟨j0, ((hm j0).mp hj0).1, fun e => hj0i (e.trans hji), ((hm j0).mp hj0).2⟩
                · exact ⟨i, hc.1, fun e => hji e.symm, hsi⟩
            have hsame : ∀ j, Grp m (sibs c') s' j → (D.set i true)[j]? = done[j]? := by
              intro j hj
              rw [hDset, q3 j (hout j hj)]
            rcases h.all ho c' s' a b hne ha hb with h1 | ⟨h1, h2⟩
            · exact Or.inl fun j hj => (hsame j hj).trans (h1 j hj)
            · exact Or.inr ⟨fun j hj => (hsame j hj).trans (h1 j hj), allJoined_mono h2⟩
    · rw [if_neg hc]
      refine ⟨done.set i true, E, prev, rfl, mark.resolve_right hc, by rw [hset done h.dlen, if_pos rfl], ?_⟩
      intro j hj
      rw [hset done h.dlen]
      split
      · rfl
      · exact hj

/-- All edges. -/
theorem same_joins (hnd : ∀ x ∈ m.edges, x.surfind.Nodup)
    (hsh : ∀ c, ∀ i ∈ sibs c, (∃ j ∈ sibs c, j ≠ i) → ∃ s ∈ surfAt m i, ShareAt m (sibs c) i s)
    {one : Prop} (hone : one → ∀ c i s s', i ∈ sibs c → s ∈ surfAt m i → s' ∈ surfAt m i → ShareAt m (sibs c) i s → ShareAt m (sibs c) i s' → s = s') :
    ∃ E, mergSameSurf true m cells sibs find = .ok E ∧
      (∀ d ∈ E, ∃ c s, JoinsChain m (onSurf m (cells.filter fun x => x.1 ∈ live) c s) d) ∧ ApartEdits E ∧
      (one → ∀ c s, AllJoined m (onSurf m (cells.filter fun x => x.1 ∈ live) c s) E) := by
  have key : ∀ n, n ≤ cells.length → ∃ E done prev, (List.range n).foldlM (m := Except Fault) (sameStep m cells sibs find)
      (List.replicate cells.length false, [], []) = .ok (done, E, prev) ∧ TopS m cells sibs live one done E ∧
      ∀ i : Nat, i < n → done[i]? = some true := by
    intro n
    induction n with
    | zero =>
      intro _
      refine ⟨[], _, [], rfl, ⟨by simpa using S.len, by simp, List.Pairwise.nil, ?_⟩, by simp⟩
      intro _ c s i j _ _ _
      left
      intro k hk
      rw [List.getElem?_replicate, if_pos (by rw [S.len]; exact S.sib_lt hk.1)]
    | succ n ih =>
      intro hn
      obtain ⟨E, done, prev, h1, h2, h3⟩ := ih (by omega)
      obtain ⟨done', E', prev', h4, h5, h6, h7⟩ := topS_step S hnd hsh hone prev h2 (show n < cells.length by omega)
      refine ⟨E', done', prev', ?_, h5, ?_⟩
      · rw [List.range_succ, List.foldlM_append, h1]
        show Except.bind (Except.ok (done, E, prev)) _ = _
        rw [ok_bind, List.foldlM_cons, h4]
        rfl
      · intro i hi
        by_cases hin : i = n
        · subst hin; exact h6
        · exact h7 i (h3 i (by omega))
  obtain ⟨E, done, prev, h1, h2, h3⟩ := key _ (le_refl _)
  refine ⟨E, ?_, fun d hd => (h2.edits d hd).1, h2.apart, ?_⟩
  · unfold mergSameSurf
    rw [if_pos rfl, h1]
    rfl
  · intro ho c s e f hne hch
    obtain ⟨g, ⟨v, k, hk1, hk2, hk3, hk4⟩, hg⟩ : ∃ g, (∃ v, EdgesMeetAt m (onSurf m (cells.filter fun x => x.1 ∈ live) c s) v e g) ∧ g ≠ e := by
      clear h1 h2 h3 key
      induction hch using Relation.ReflTransGen.head_induction_on with
      | refl => exact absurd rfl hne
      | @head a b hab hbf ih =>
        by_cases hb : b = a
        · subst hb; exact ih hne
        · exact ⟨b, hab, hb⟩
    obtain ⟨_, i, hi, rfl⟩ := (mem_onSurf S).mp hk1
    obtain ⟨_, j, hj, rfl⟩ := (mem_onSurf S).mp hk2
    rcases h2.all ho c s i j (by rintro rfl; exact hg rfl) hi hj with h4 | ⟨_, h4⟩
    · have := h4 i hi
      rw [h3 i (by rw [S.len]; exact S.sib_lt hi.1)] at this
      simp at this
    · exact h4 _ _ hne hch

end RSVS.SameSurf
