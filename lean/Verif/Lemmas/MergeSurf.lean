import Verif.Spec.MergeSurf
import Verif.Lemmas.SpawnRemove

/-!
# Lemmas for the merge of surfaces: the recursion
-/

namespace RSVS.MergeSurf

open RSVS.Spec RSVS.Mesh RSVS.SpawnRemove

variable {m : Mesh} {g : Group} {findE : List Int → Int → List Nat} {findS : List Nat → Nat → List Nat}

/-- Place `p` of the group is edge `e` of the surface at `i`. -/
def At (g : Group) (p : Nat) (e : Int) (i : Nat) : Prop :=
  ∃ k, g.vec[p]? = some e ∧ g.owner[p]? = some k ∧ g.sub[k]? = some i

/-- The surfaces at `i` and `j` share an edge. -/
def Nb (g : Group) (i j : Nat) : Prop := ∃ p q e, At g p e i ∧ At g q e j

/-- The group is in step with the surfaces. -/
structure Fit (m : Mesh) (g : Group) : Prop where
  len : g.vec.length = g.owner.length
  own : ∀ k ∈ g.owner, ∃ i, g.sub[k]? = some i
  nodup : g.sub.Nodup
  bound : ∀ i ∈ g.sub, i < m.surfs.length
  mono : g.owner.Pairwise (· ≤ ·)

/-- The look-ups give all places. -/
structure Finds (findE : List Int → Int → List Nat) (findS : List Nat → Nat → List Nat) : Prop where
  edge : ∀ l k, AllPos (fun e => e) l k (findE l k)
  surf : ∀ l k, AllPos (fun e => e) l k (findS l k)

theorem Finds.memE (h : Finds findE findS) {l : List Int} {k : Int} {p : Nat} : p ∈ findE l k ↔ l[p]? = some k := by
  rw [(h.edge l k).2 p]
  constructor
  · rintro ⟨e, h1, rfl⟩; exact h1
  · intro h; exact ⟨k, h, rfl⟩

theorem Finds.memS (h : Finds findE findS) {l : List Nat} {k p : Nat} : p ∈ findS l k ↔ l[p]? = some k := by
  rw [(h.surf l k).2 p]
  constructor
  · rintro ⟨e, h1, rfl⟩; exact h1
  · intro h; exact ⟨k, h, rfl⟩

theorem At.fun {p : Nat} {e e' : Int} {i i' : Nat} (h : At g p e i) (h' : At g p e' i') : e = e' ∧ i = i' := by
  obtain ⟨k, h1, h2, h3⟩ := h
  obtain ⟨k', h1', h2', h3'⟩ := h'
  rw [h1] at h1'; rw [h2] at h2'
  cases h1'; cases h2'
  rw [h3] at h3'
  cases h3'
  exact ⟨rfl, rfl⟩

theorem at_of (hf : Fit m g) {p : Nat} {e : Int} (h : g.vec[p]? = some e) : ∃ i, At g p e i := by
  obtain ⟨hp, _⟩ := List.getElem?_eq_some_iff.mp h
  have hp' : p < g.owner.length := hf.len ▸ hp
  obtain ⟨i, hi⟩ := hf.own _ (List.getElem_mem hp')
  exact ⟨i, _, h, List.getElem?_eq_getElem hp', hi⟩

theorem At.sub {p : Nat} {e : Int} {i : Nat} (h : At g p e i) : i ∈ g.sub := by
  obtain ⟨k, _, _, h3⟩ := h
  exact List.mem_of_getElem? h3

/-- Places of one surface have one owner. -/
theorem At.owner (hf : Fit m g) {p q k : Nat} {e e' : Int} {i : Nat} (h : At g p e i) (h' : At g q e' i)
    (hk : g.owner[p]? = some k) : g.owner[q]? = some k := by
  obtain ⟨a, _, h2, h3⟩ := h
  obtain ⟨b, _, h2', h3'⟩ := h'
  have hka : k = a := Option.some.inj (hk.symm.trans h2)
  rw [hka]
  obtain ⟨ha, ea⟩ := List.getElem?_eq_some_iff.mp h3
  obtain ⟨hb, eb⟩ := List.getElem?_eq_some_iff.mp h3'
  have : a = b := (List.Nodup.getElem_inj_iff hf.nodup).mp (ea.trans eb.symm)
  rw [this]
  exact h2'

theorem At.bound (hf : Fit m g) {p : Nat} {e : Int} {i : Nat} (h : At g p e i) : i < m.surfs.length := hf.bound i h.sub

/-- How often edge `e` is in the group. -/
def cnt (findE : List Int → Int → List Nat) (g : Group) (e : Int) : Nat := (findE g.vec e).length

theorem alone (hF : Finds findE findS) {p q : Nat} {e : Int} {i j : Nat} (h : At g p e i) (h' : At g q e j)
    (hc : cnt findE g e ≤ 1) : p = q := by
  obtain ⟨k, h1, _⟩ := h
  obtain ⟨k', h1', _⟩ := h'
  have a := hF.memE.mpr h1
  have b := hF.memE.mpr h1'
  unfold cnt at hc
  match hl : findE g.vec e, hc with
  | [], _ => rw [hl] at a; simp at a
  | [x], _ =>
    rw [hl] at a b
    rw [List.mem_singleton] at a b
    rw [a, b]

/-- The index of the surface at a position. -/
def ids (m : Mesh) (i : Nat) : Int := (m.surfs[i]?).elim 0 Surf.index

/-- The state of the search. -/
structure Inv (m : Mesh) (findE : List Int → Int → List Nat) (g : Group) (done : List Bool) (count : List Nat) : Prop where
  dlen : done.length = m.surfs.length
  clen : count.length = g.vec.length + 1
  fresh : ∀ p e i, At g p e i → done[i]? = some false → count[p]? = some (cnt findE g e)

/-- What a part of the search has done: `new` are the surfaces it has taken. -/
structure Step (m : Mesh) (g : Group) (X : Nat → Prop) (w w' : Work) (new : List Nat) : Prop where
  dlen : w'.done.length = w.done.length
  clen : w'.count.length = w.count.length
  done : ∀ i, w'.done[i]? = some true ↔ w.done[i]? = some true ∨ i ∈ new
  undone : ∀ i ∈ new, w.done[i]? = some false
  nodup : new.Nodup
  rmv : w'.rmv = w.rmv ++ new.map (ids m)
  low : ∀ p e i, At g p e i → i ∈ new → ∃ c, w'.count[p]? = some c ∧ c ≤ 1
  same : ∀ p e i, At g p e i → i ∉ new → ¬ X p → w'.count[p]? = w.count[p]?

theorem bool_cases {l : List Bool} {i : Nat} (h : i < l.length) : l[i]? = some true ∨ l[i]? = some false := by
  rw [List.getElem?_eq_getElem h]
  cases l[i] <;> simp

theorem Step.undone_of {X : Nat → Prop} {w w' : Work} {new : List Nat} (h : Step m g X w w' new) {i : Nat}
    (hi : w'.done[i]? = some false) : w.done[i]? = some false ∧ i ∉ new := by
  have hl : i < w.done.length := by
    obtain ⟨h1, _⟩ := List.getElem?_eq_some_iff.mp hi
    rw [← h.dlen]; exact h1
  have hn : ¬ (w.done[i]? = some true ∨ i ∈ new) := by
    rw [← h.done, hi]; simp
  rw [not_or] at hn
  exact ⟨(bool_cases hl).resolve_left hn.1, hn.2⟩

theorem Step.inv {w w' : Work} {new : List Nat} (h : Step m g (fun _ => False) w w' new) (hi : Inv m findE g w.done w.count) :
    Inv m findE g w'.done w'.count := by
  refine ⟨h.dlen.trans hi.dlen, h.clen.trans hi.clen, ?_⟩
  intro p e i ha hd
  obtain ⟨h1, h2⟩ := h.undone_of hd
  rw [h.same p e i ha h2 (by simp)]
  exact hi.fresh p e i ha h1

theorem Step.refl (X : Nat → Prop) (w : Work) : Step m g X w w [] :=
  ⟨rfl, rfl, by simp, by simp, by simp, by simp, by simp, by simp⟩

theorem Step.trans {X Y Z : Nat → Prop} {w w' w'' : Work} {new new' : List Nat} (h : Step m g X w w' new) (h' : Step m g Y w' w'' new')
    (hX : ∀ p, X p → Z p) (hY : ∀ p, Y p → Z p) (hYn : ∀ p e i, At g p e i → i ∈ new → Y p → False) :
    Step m g Z w w'' (new ++ new') := by
  have hdisj : ∀ i ∈ new, i ∉ new' := by
    intro i hi hi'
    have h1 := h'.undone i hi'
    have h2 := (h.done i).mpr (Or.inr hi)
    rw [h1] at h2
    simp at h2
  refine ⟨h'.dlen.trans h.dlen, h'.clen.trans h.clen, ?_, ?_, ?_, ?_, ?_, ?_⟩
  · intro i; rw [h'.done, h.done, List.mem_append, or_assoc]
  · intro i hi
    rcases List.mem_append.mp hi with hi | hi
    · exact h.undone i hi
    · exact (h.undone_of (h'.undone i hi)).1
  · exact List.nodup_append.mpr ⟨h.nodup, h'.nodup, fun a ha b hb e => hdisj a ha (e ▸ hb)⟩
  · rw [h'.rmv, h.rmv, List.map_append, List.append_assoc]
  · intro p e i ha hi
    rcases List.mem_append.mp hi with hi | hi
    · obtain ⟨c, h1, h2⟩ := h.low p e i ha hi
      exact ⟨c, by rw [h'.same p e i ha (hdisj i hi) (hYn p e i ha hi), h1], h2⟩
    · exact h'.low p e i ha hi
  · intro p e i ha hi hz
    rw [List.mem_append, not_or] at hi
    rw [h'.same p e i ha hi.2 (fun h => hz (hY p h)), h.same p e i ha hi.1 (fun h => hz (hX p h))]

/-- The number of surfaces still to do does not grow. -/
theorem undone_le : ∀ {l l' : List Bool}, l'.length = l.length → (∀ i : Nat, l[i]? = some true → l'[i]? = some true) →
    l'.count false ≤ l.count false
  | [], [], _, _ => by simp
  | a :: l, b :: l', h, hd => by
    have ih := undone_le (l := l) (l' := l') (by simpa using h) (fun i hi => by simpa using hd (i + 1) (by simpa using hi))
    have h0 := hd 0
    cases a <;> cases b <;> simp at h0 ⊢ <;> omega

theorem undone_set : ∀ {l : List Bool} {i : Nat}, l[i]? = some false → (l.set i true).count false + 1 = l.count false
  | [], i, h => by simp at h
  | a :: l, 0, h => by
    simp at h; subst h; simp
  | a :: l, i + 1, h => by
    have := undone_set (l := l) (i := i) (by simpa using h)
    cases a <;> simp [List.set_cons_succ] <;> omega

/-- What a call for edge `e` of the surface at `x` has done. -/
structure Called (m : Mesh) (g : Group) (e : Int) (x : Nat) (w w' : Work) (new : List Nat) : Prop where
  step : Step m g (fun _ => False) w w' new
  all : ∀ p i, At g p e i → w'.done[i]? = some true
  closed : ∀ i ∈ new, ∀ j, Nb g i j → w'.done[j]? = some true
  linked : ∀ i ∈ new, Relation.ReflTransGen (Nb g) x i

/-- The claim for a number of nested calls. -/
def RecOk (m : Mesh) (findE : List Int → Int → List Nat) (findS : List Nat → Nat → List Nat) (g : Group) (fuel : Nat) : Prop :=
  ∀ (w : Work) (e : Int) (ex x : Nat), Inv m findE g w.done w.count → At g ex e x → w.done[x]? = some true → w.done.count false < fuel →
    ∃ w' new, mergeRec m findE findS g fuel w (findE g.vec e) ex = .ok w' ∧ Called m g e x w w' new

/-- The loop over the places of one surface. -/
theorem loop_ok (hF : Finds findE findS) {fuel : Nat} (ih : RecOk m findE findS g fuel) {p i : Nat} :
    ∀ (qs : List Nat) (w : Work), qs.Nodup → (∀ q ∈ qs, ∃ e, At g q e i) → Inv m findE g w.done w.count → w.done[i]? = some true →
      (p ∈ qs → ∃ c, w.count[p]? = some c ∧ c ≤ 1) → (∀ q ∈ qs, q ≠ p → ∀ e, At g q e i → w.count[q]? = some (cnt findE g e)) →
      w.done.count false < fuel →
      ∃ w' new, qs.foldlM (m := Except Fault) (fun (w : Work) (q : Nat) =>
            (vecGet w.count q).bind fun c =>
            if c > 1 then
              (vecGet g.vec q).bind fun e =>
              mergeRec m findE findS g fuel { w with count := w.count.set q 0 } (findE g.vec e) q
            else .ok w) w = .ok w' ∧ Step m g (· ∈ qs) w w' new ∧
        (∀ q ∈ qs, ∃ c, w'.count[q]? = some c ∧ c ≤ 1) ∧
        (∀ q ∈ qs, q ≠ p → ∀ e, At g q e i → ∀ r j, At g r e j → w'.done[j]? = some true) ∧
        (∀ j ∈ new, ∀ l, Nb g j l → w'.done[l]? = some true) ∧
        ∀ j ∈ new, Relation.ReflTransGen (Nb g) i j
  | [], w, _, _, _, _, _, _, _ => ⟨w, [], rfl, Step.refl _ _, by simp, by simp, by simp, by simp⟩
  | q :: qs, w, hn, ha, hi, hd, hp, hc, hfu => by
    obtain ⟨hq, hn'⟩ := List.nodup_cons.mp hn
    obtain ⟨e, hqe⟩ := ha q (by simp)
    have hcq : ∃ c, w.count[q]? = some c ∧ (q = p → c ≤ 1) ∧ (q ≠ p → c = cnt findE g e) := by
      by_cases h : q = p
      · obtain ⟨c, h1, h2⟩ := hp (by simp [h])
        exact ⟨c, h ▸ h1, fun _ => h2, fun h' => absurd h h'⟩
      · exact ⟨_, hc q (by simp) h e hqe, fun h' => absurd h' h, fun _ => rfl⟩
    obtain ⟨c, hcq1, hcq2, hcq3⟩ := hcq
    rw [List.foldlM_cons, vecGet_of hcq1, ok_bind]
    by_cases hc1 : c > 1
    · have hqp : q ≠ p := fun h => by have := hcq2 h; omega
      obtain ⟨k, hv, _⟩ := id hqe
      rw [if_pos hc1, vecGet_of hv, ok_bind]
      have hql : q < w.count.length := (List.getElem?_eq_some_iff.mp hcq1).1
      have hi1 : Inv m findE g w.done (w.count.set q 0) := by
        refine ⟨hi.dlen, by rw [List.length_set]; exact hi.clen, ?_⟩
        intro p' e' i' ha' hd'
        have : q ≠ p' := by
          rintro rfl
          rw [(ha'.fun hqe).2, hd] at hd'
          simp at hd'
        rw [List.getElem?_set_ne this]
        exact hi.fresh p' e' i' ha' hd'
      obtain ⟨w1, new1, h1, C⟩ := ih { w with count := w.count.set q 0 } e q i hi1 hqe hd hfu
      rw [h1]
      have hin1 : i ∉ new1 := fun h => by
        have := C.step.undone i h
        rw [show ({ w with count := w.count.set q 0 } : Work).done[i]? = w.done[i]? from rfl, hd] at this
        simp at this
      have hd1 : w1.done[i]? = some true := (C.step.done i).mpr (Or.inl hd)
      have hsame1 : ∀ r, (∃ e, At g r e i) → w1.count[r]? = (w.count.set q 0)[r]? := by
        rintro r ⟨e', hr⟩
        exact C.step.same r e' i hr hin1 (by simp)
      obtain ⟨w2, new2, h2, S2, low2, all2, cl2, li2⟩ := loop_ok (p := p) (i := i) hF ih qs w1 hn' (fun r hr => ha r (by simp [hr])) (C.step.inv hi1) hd1
        (by
          intro hpq
          obtain ⟨c', h3, h4⟩ := hp (by simp [hpq])
          refine ⟨c', ?_, h4⟩
          rw [hsame1 p (ha p (by simp [hpq])), List.getElem?_set_ne hqp]
          exact h3)
        (by
          intro r hr hrp e' hre
          rw [hsame1 r ⟨e', hre⟩, List.getElem?_set_ne (show q ≠ r from fun h => hq (h ▸ hr))]
          exact hc r (by simp [hr]) hrp e' hre)
        (lt_of_le_of_lt (undone_le C.step.dlen fun j hj => (C.step.done j).mpr (Or.inl hj)) hfu)
      have hin2 : i ∉ new2 := fun h => by
        have := S2.undone i h
        rw [hd1] at this
        simp at this
      have mono2 : ∀ j, w1.done[j]? = some true → w2.done[j]? = some true := fun j hj => (S2.done j).mpr (Or.inl hj)
      have Sw : Step m g (· ∈ q :: qs) w { w with count := w.count.set q 0 } [] := by
        refine ⟨rfl, by simp, by simp, by simp, by simp, by simp, by simp, ?_⟩
        intro r e' j _ _ hr
        have : q ≠ r := fun h => hr (by simp [h])
        exact List.getElem?_set_ne this
      have S1 : Step m g (· ∈ q :: qs) w w1 new1 := by
        have := Sw.trans C.step (Z := (· ∈ q :: qs)) (fun _ h => h) (fun _ h => h.elim) (by simp)
        simpa using this
      refine ⟨w2, new1 ++ new2, h2, S1.trans S2 (fun _ h => h) (fun r h => by simp [h]) ?_, ?_, ?_, ?_, ?_⟩
      · intro r e' j hr hj hrq
        obtain ⟨e'', hr'⟩ := ha r (by simp [hrq])
        rw [(hr.fun hr').2] at hj
        exact hin1 hj
      · intro r hr
        rcases List.mem_cons.mp hr with rfl | hr
        · refine ⟨0, ?_, by omega⟩
          rw [S2.same r e i hqe hin2 hq, hsame1 r ⟨e, hqe⟩, List.getElem?_set_self hql]
        · exact low2 r hr
      · intro r hr hrp e' hre s j hs
        rcases List.mem_cons.mp hr with rfl | hr
        · have := (hre.fun hqe).1
          subst this
          exact mono2 j (C.all s j hs)
        · exact all2 r hr hrp e' hre s j hs
      · intro j hj l hl
        rcases List.mem_append.mp hj with hj | hj
        · exact mono2 l (C.closed j hj l hl)
        · exact cl2 j hj l hl
      · intro j hj
        rcases List.mem_append.mp hj with hj | hj
        · exact C.linked j hj
        · exact li2 j hj
    · rw [if_neg hc1]
      obtain ⟨w2, new2, h2, S2, low2, all2, cl2, li2⟩ := loop_ok (p := p) (i := i) hF ih qs w hn' (fun r hr => ha r (by simp [hr])) hi hd
        (fun h => hp (by simp [h])) (fun r hr => hc r (by simp [hr])) hfu
      have hin2 : i ∉ new2 := fun h => by
        have := S2.undone i h
        rw [hd] at this
        simp at this
      refine ⟨w2, new2, h2, ⟨S2.dlen, S2.clen, S2.done, S2.undone, S2.nodup, S2.rmv, S2.low,
        fun r e' j hr hj hx => S2.same r e' j hr hj (fun h => hx (by simp [h]))⟩, ?_, ?_, cl2, li2⟩
      · intro r hr
        rcases List.mem_cons.mp hr with rfl | hr
        · exact ⟨c, by rw [S2.same r e i hqe hin2 hq]; exact hcq1, by omega⟩
        · exact low2 r hr
      · intro r hr hrp e' hre s j hs
        rcases List.mem_cons.mp hr with rfl | hr
        · have he := (hre.fun hqe).1
          subst he
          have := alone hF hre hs (by rw [← hcq3 hrp]; omega)
          subst this
          rw [(hs.fun hre).2]
          exact (S2.done i).mpr (Or.inl hd)
        · exact all2 r hr hrp e' hre s j hs

/-- The loop over the places of one edge. -/
theorem frame_ok (hf : Fit m g) (hF : Finds findE findS) {fuel : Nat} (ih : RecOk m findE findS g fuel) {e : Int} {ex x : Nat} (hex : At g ex e x) :
    ∀ (ps : List Nat) (w : Work), (∀ p ∈ ps, ∃ i, At g p e i) → Inv m findE g w.done w.count → w.done.count false < fuel + 1 →
      ∃ w' new, ps.foldlM (m := Except Fault) (fun (w : Work) (p : Nat) =>
      if p ≠ ex then
        (slot g p).bind fun i => (vecGet w.done i).bind fun d =>
        if !d then
          (elemAt m.surfs i).bind fun x => (vecGet g.owner p).bind fun k =>
          (findS g.owner k).foldlM (m := Except Fault) (fun (w : Work) (q : Nat) =>
            (vecGet w.count q).bind fun c =>
            if c > 1 then
              (vecGet g.vec q).bind fun e =>
              mergeRec m findE findS g fuel { w with count := w.count.set q 0 } (findE g.vec e) q
            else .ok w)
            { done := w.done.set i true, count := w.count.set p 0, rmv := w.rmv ++ [x.index] }
        else .ok w
      else .ok w) w = .ok w' ∧ Step m g (fun _ => False) w w' new ∧
        (∀ p ∈ ps, p ≠ ex → ∀ i, At g p e i → w'.done[i]? = some true) ∧
        (∀ i ∈ new, ∀ p q a j, At g p a i → At g q a j → a ≠ e → w'.done[j]? = some true) ∧
        ∀ i ∈ new, Relation.ReflTransGen (Nb g) x i
  | [], w, _, _, _ => ⟨w, [], rfl, Step.refl _ _, by simp, by simp, by simp⟩
  | p :: ps, w, ha, hi, hfu => by
    rw [List.foldlM_cons]
    have skip : (p = ex ∨ ∃ i, At g p e i ∧ w.done[i]? = some true) →
        ∃ w' new, ps.foldlM (m := Except Fault) (fun (w : Work) (p : Nat) =>
      if p ≠ ex then
        (slot g p).bind fun i => (vecGet w.done i).bind fun d =>
        if !d then
          (elemAt m.surfs i).bind fun x => (vecGet g.owner p).bind fun k =>
          (findS g.owner k).foldlM (m := Except Fault) (fun (w : Work) (q : Nat) =>
            (vecGet w.count q).bind fun c =>
            if c > 1 then
              (vecGet g.vec q).bind fun e =>
              mergeRec m findE findS g fuel { w with count := w.count.set q 0 } (findE g.vec e) q
            else .ok w)
            { done := w.done.set i true, count := w.count.set p 0, rmv := w.rmv ++ [x.index] }
        else .ok w
      else .ok w) w = .ok w' ∧ Step m g (fun _ => False) w w' new ∧
        (∀ r ∈ p :: ps, r ≠ ex → ∀ i, At g r e i → w'.done[i]? = some true) ∧
        (∀ i ∈ new, ∀ p q a j, At g p a i → At g q a j → a ≠ e → w'.done[j]? = some true) ∧
        ∀ i ∈ new, Relation.ReflTransGen (Nb g) x i := by
      intro hs
      obtain ⟨w', new, h1, h2, h3, h4, h5⟩ := frame_ok hf hF ih hex ps w (fun q hq => ha q (by simp [hq])) hi hfu
      refine ⟨w', new, h1, h2, ?_, h4, h5⟩
      intro r hr hrx i hri
      rcases List.mem_cons.mp hr with rfl | hr
      · rcases hs with h | ⟨i', hi', hd'⟩
        · exact absurd h hrx
        · rw [(hri.fun hi').2]
          exact (h2.done i').mpr (Or.inl hd')
      · exact h3 r hr hrx i hri
    by_cases hpx : p = ex
    · rw [if_neg (by simpa using hpx)]
      exact skip (Or.inl hpx)
    · obtain ⟨i, hpi⟩ := ha p (by simp)
      obtain ⟨k, hv, ho, hsb⟩ := id hpi
      have hms : i < m.surfs.length := hpi.bound hf
      have hib : i < w.done.length := by rw [hi.dlen]; exact hms
      rw [if_pos hpx]
      unfold slot
      rw [vecGet_of ho, ok_bind, vecGet_of hsb, ok_bind]
      rcases bool_cases hib with hd | hd
      · rw [vecGet_of hd, ok_bind]
        exact skip (Or.inr ⟨i, hpi, hd⟩)
      · rw [vecGet_of hd, ok_bind, if_pos (by rfl), elemAt_of (List.getElem?_eq_getElem hms), ok_bind, ok_bind]
        have hsi : (w.done.set i true)[i]? = some true := List.getElem?_set_self hib
        have hpl : p < w.count.length := by
          rw [hi.clen]
          have := (List.getElem?_eq_some_iff.mp hv).1
          omega
        have hidx : m.surfs[i].index = ids m i := by
          unfold ids; rw [List.getElem?_eq_getElem hms]; rfl
        have hi1 : Inv m findE g (w.done.set i true) (w.count.set p 0) := by
          refine ⟨by rw [List.length_set]; exact hi.dlen, by rw [List.length_set]; exact hi.clen, ?_⟩
          intro p' e' i' ha' hd'
          have hii : i ≠ i' := by rintro rfl; rw [hsi] at hd'; simp at hd'
          rw [List.getElem?_set_ne hii] at hd'
          have : p ≠ p' := by rintro rfl; exact hii (hpi.fun ha').2
          rw [List.getElem?_set_ne this]
          exact hi.fresh p' e' i' ha' hd'
        have hqs : ∀ q, q ∈ findS g.owner k ↔ ∃ e', At g q e' i := by
          intro q
          rw [hF.memS]
          constructor
          · intro h
            have hq : q < g.vec.length := by rw [hf.len]; exact (List.getElem?_eq_some_iff.mp h).1
            exact ⟨g.vec[q], k, List.getElem?_eq_getElem hq, h, hsb⟩
          · rintro ⟨e', h⟩
            exact hpi.owner hf h ho
        have hund := undone_set hd
        obtain ⟨w1, new1, h1, S1, low1, all1, cl1, li1⟩ := loop_ok (p := p) (i := i) hF ih (findS g.owner k)
          { done := w.done.set i true, count := w.count.set p 0, rmv := w.rmv ++ [m.surfs[i].index] } (hF.surf _ _).1
          (fun q hq => (hqs q).mp hq) hi1 hsi
          (fun _ => ⟨0, List.getElem?_set_self hpl, by omega⟩)
          (by
            intro q hq hqp e' hqe
            rw [List.getElem?_set_ne (Ne.symm hqp)]
            exact hi.fresh q e' i hqe hd)
          (by show (w.done.set i true).count false < fuel; omega)
        rw [h1]
        have hin1 : i ∉ new1 := fun h => by
          have := S1.undone i h
          rw [show (Work.mk (w.done.set i true) (w.count.set p 0) (w.rmv ++ [m.surfs[i].index])).done[i]? = (w.done.set i true)[i]? from rfl, hsi] at this
          simp at this
        have Sv : Step m g (fun _ => False) w w1 (i :: new1) := by
          refine ⟨?_, ?_, ?_, ?_, ?_, ?_, ?_, ?_⟩
          · rw [S1.dlen]; simp
          · rw [S1.clen]; simp
          · intro j
            rw [S1.done]
            show (w.done.set i true)[j]? = some true ∨ _ ↔ _
            by_cases hj : i = j
            · subst hj
              simp [hsi]
            · rw [List.getElem?_set_ne hj]
              simp [Ne.symm hj]
          · intro j hj
            rcases List.mem_cons.mp hj with rfl | hj
            · exact hd
            · have := S1.undone j hj
              have hij : i ≠ j := by rintro rfl; exact hin1 hj
              rwa [show (Work.mk (w.done.set i true) (w.count.set p 0) (w.rmv ++ [m.surfs[i].index])).done[j]? = (w.done.set i true)[j]? from rfl,
                List.getElem?_set_ne hij] at this
          · exact List.nodup_cons.mpr ⟨hin1, S1.nodup⟩
          · rw [S1.rmv]
            show w.rmv ++ [m.surfs[i].index] ++ _ = _
            rw [hidx]
            simp
          · intro r a j hr hj
            rcases List.mem_cons.mp hj with rfl | hj
            · exact low1 r ((hqs r).mpr ⟨a, hr⟩)
            · exact S1.low r a j hr hj
          · intro r a j hr hj _
            rw [List.mem_cons, not_or] at hj
            have hrq : r ∉ findS g.owner k := by
              intro h
              obtain ⟨a', h'⟩ := (hqs r).mp h
              exact hj.1 (hr.fun h').2
            rw [S1.same r a j hr hj.2 hrq]
            show (w.count.set p 0)[r]? = _
            have : p ≠ r := by rintro rfl; exact hj.1 (hr.fun hpi).2
            exact List.getElem?_set_ne this
        obtain ⟨w2, new2, h2, S2, all2, cl2, li2⟩ := frame_ok hf hF ih hex ps w1 (fun q hq => ha q (by simp [hq])) (Sv.inv hi)
          (lt_of_le_of_lt (undone_le Sv.dlen fun j hj => (Sv.done j).mpr (Or.inl hj)) hfu)
        have mono2 : ∀ j, w1.done[j]? = some true → w2.done[j]? = some true := fun j hj => (S2.done j).mpr (Or.inl hj)
        have hxi : Relation.ReflTransGen (Nb g) x i := Relation.ReflTransGen.single ⟨ex, p, e, hex, hpi⟩
        refine ⟨w2, i :: new1 ++ new2, h2, Sv.trans S2 (fun _ h => h) (fun _ h => h) (fun _ _ _ _ _ h => h), ?_, ?_, ?_⟩
        · intro r hr hrx j hrj
          rcases List.mem_cons.mp hr with rfl | hr
          · rw [(hrj.fun hpi).2]
            exact mono2 i ((Sv.done i).mpr (Or.inr (by simp)))
          · exact all2 r hr hrx j hrj
        · intro j hj r q a l hr hq hae
          rcases List.mem_append.mp hj with hj | hj
          · rcases List.mem_cons.mp hj with rfl | hj
            · have hrp : r ≠ p := by rintro rfl; exact hae (hr.fun hpi).1
              exact mono2 l (all1 r ((hqs r).mpr ⟨a, hr⟩) hrp a hr q l hq)
            · exact mono2 l (cl1 j hj l ⟨r, q, a, hr, hq⟩)
          · exact cl2 j hj r q a l hr hq hae
        · intro j hj
          rcases List.mem_append.mp hj with hj | hj
          · rcases List.mem_cons.mp hj with rfl | hj
            · exact hxi
            · exact hxi.trans (li1 j hj)
          · exact li2 j hj

/-- The recursion takes what can be reached and no more, and ends. -/
theorem rec_ok (hf : Fit m g) (hF : Finds findE findS) : ∀ fuel, RecOk m findE findS g fuel
  | 0 => fun _ _ _ _ _ _ _ h => absurd h (by omega)
  | fuel + 1 => by
    intro w e ex x hi hex hd hfu
    obtain ⟨w', new, h1, h2, h3, h4, h5⟩ := frame_ok hf hF (rec_ok hf hF fuel) hex (findE g.vec e) w
      (fun p hp => at_of hf (hF.memE.mp hp)) hi hfu
    have hall : ∀ p i, At g p e i → w'.done[i]? = some true := by
      intro p i hp
      by_cases hpx : p = ex
      · subst hpx
        rw [(hp.fun hex).2]
        exact (h2.done x).mpr (Or.inl hd)
      · obtain ⟨k, hv, _⟩ := id hp
        exact h3 p (hF.memE.mpr hv) hpx i hp
    refine ⟨w', new, by rw [mergeRec]; exact h1, h2, hall, ?_, h5⟩
    rintro i hi' j ⟨p, q, a, hp, hq⟩
    by_cases hae : a = e
    · subst hae; exact hall q j hq
    · exact h4 i hi' p q a j hp hq hae

end RSVS.MergeSurf
