import Verif.Lemmas.SpawnRemove
import Verif.Spec.MergeEdge

/-!
# Lemmas for the merge of edges: one walk
-/

namespace RSVS.MergeEdge

open RSVS.Spec RSVS.Mesh RSVS.SpawnRemove

variable {cells : List (Int × Int)} {find : List Int → Int → List Nat} {g : Ends}

/-- The edge (its position) of a place. -/
def own (g : Ends) (p : Nat) : Nat := g.sub.getD (p / 2) 0

/-- The ends of the edges of a surface. -/
structure Good (n : Nat) (find : List Int → Int → List Nat) (g : Ends) : Prop where
  len : g.vec.length = 2 * g.sub.length
  nodup : g.sub.Nodup
  bound : ∀ i ∈ g.sub, i < n
  ne : ∀ p, p < g.vec.length → g.vec[p]? ≠ g.vec[flip p]?
  pos : ∀ l k, AllPos (fun e => e) l k (find l k)
  deg : ∀ v, (find g.vec v).length ≤ 2

/-- Two places of the same vertex. -/
def Mate (g : Ends) (p q : Nat) : Prop := p ≠ q ∧ ∃ v, g.vec[p]? = some v ∧ g.vec[q]? = some v

theorem Mate.symm {p q : Nat} (h : Mate g p q) : Mate g q p := ⟨h.1.symm, h.2.imp fun _ h => ⟨h.2, h.1⟩⟩

theorem Mate.lt {p q : Nat} (h : Mate g p q) : p < g.vec.length := by
  obtain ⟨_, v, h1, _⟩ := h
  exact (List.getElem?_eq_some_iff.mp h1).1

theorem flip_flip (p : Nat) : flip (flip p) = p := by unfold flip; split <;> split <;> omega
theorem flip_ne (p : Nat) : flip p ≠ p := by unfold flip; split <;> omega
theorem flip_half (p : Nat) : flip p / 2 = p / 2 := by unfold flip; split <;> omega
theorem half_eq {p q : Nat} (h : p / 2 = q / 2) : q = p ∨ q = flip p := by unfold flip; split <;> omega

theorem own_flip (p : Nat) : own g (flip p) = own g p := by unfold own; rw [flip_half]

namespace Good

variable {n : Nat} (h : Good n find g)
include h

theorem flip_lt {p : Nat} (hp : p < g.vec.length) : flip p < g.vec.length := by
  rw [h.len] at *; unfold flip; split <;> omega

theorem sub_at {p : Nat} (hp : p < g.vec.length) : g.sub[p / 2]? = some (own g p) := by
  have : p / 2 < g.sub.length := by rw [h.len] at hp; omega
  unfold own
  rw [List.getD_eq_getElem?_getD, List.getElem?_eq_getElem this]
  rfl

theorem own_mem {p : Nat} (hp : p < g.vec.length) : own g p ∈ g.sub := List.mem_of_getElem? (h.sub_at hp)

theorem own_eq {p q : Nat} (hp : p < g.vec.length) (hq : q < g.vec.length) (e : own g p = own g q) : q = p ∨ q = flip p := by
  have h1 := h.sub_at hp
  have h2 := h.sub_at hq
  rw [← e] at h2
  obtain ⟨a, a1⟩ := List.getElem?_eq_some_iff.mp h1
  obtain ⟨b, b1⟩ := List.getElem?_eq_some_iff.mp h2
  exact half_eq ((List.Nodup.getElem_inj_iff h.nodup).mp (a1.trans b1.symm))

theorem mem_find {v : Int} {p : Nat} : p ∈ find g.vec v ↔ g.vec[p]? = some v := by
  rw [(h.pos g.vec v).2 p]
  constructor
  · rintro ⟨e, h1, rfl⟩; exact h1
  · intro h; exact ⟨v, h, rfl⟩

theorem pair {p q : Nat} {v : Int} (hm : Mate g p q) (hv : g.vec[p]? = some v) : find g.vec v = [p, q] ∨ find g.vec v = [q, p] := by
  obtain ⟨hne, v', h1, h2⟩ := hm
  rw [hv] at h1
  have := Option.some.inj h1
  subst this
  have hp := h.mem_find.mpr hv
  have hq := h.mem_find.mpr h2
  have hd := h.deg v
  have hn := (h.pos g.vec v).1
  revert hp hq hd hn
  generalize find g.vec v = ps
  intro hp hq hd hn
  match ps, hp, hq, hd, hn with
  | [a], hp, hq, _, _ => simp at hp hq; omega
  | [a, b], hp, hq, _, _ =>
    simp at hp hq
    rcases hp with rfl | rfl <;> rcases hq with rfl | rfl
    · exact absurd rfl hne
    · left; rfl
    · right; rfl
    · exact absurd rfl hne
  | a :: b :: c :: l, _, _, hd, _ => simp at hd

theorem mate_unique {p q r : Nat} (h1 : Mate g p q) (h2 : Mate g p r) : q = r := by
  obtain ⟨hne, v, a, b⟩ := id h1
  obtain ⟨hne', v', a', b'⟩ := id h2
  rw [a] at a'
  have := Option.some.inj a'
  subst this
  have hr := h.mem_find.mpr b'
  rcases h.pair h1 a with e | e <;> rw [e] at hr <;> simp at hr <;> rcases hr with hr | hr <;> omega

theorem cnt_mate {p q : Nat} {v : Int} (hm : Mate g p q) (hv : g.vec[p]? = some v) : (find g.vec v).length = 2 := by
  rcases h.pair hm hv with e | e <;> rw [e] <;> rfl

theorem mate_of {p : Nat} {v : Int} (hv : g.vec[p]? = some v) (hc : (find g.vec v).length > 1) : ∃ q, Mate g p q := by
  have hn := (h.pos g.vec v).1
  have hm : ∀ q ∈ find g.vec v, g.vec[q]? = some v := fun q hq => h.mem_find.mp hq
  revert hn hm hc
  generalize find g.vec v = ps
  intro hc hn hm
  match ps, hc, hn, hm with
  | a :: b :: l, _, hn, hm =>
    by_cases hpa : p = a
    · refine ⟨b, ?_, v, hv, hm b (by simp)⟩
      rintro rfl
      subst hpa
      simp at hn
    · exact ⟨a, hpa, v, hv, hm a (by simp)⟩

theorem cnt_pos {p : Nat} {v : Int} (hv : g.vec[p]? = some v) : 1 ≤ (find g.vec v).length :=
  List.length_pos_of_mem (h.mem_find.mpr hv)

theorem choose_mate {p q : Nat} {v : Int} (hm : Mate g p q) (hv : g.vec[p]? = some v) (count : List Nat) :
    choose count (find g.vec v) p false = .ok (count, q) := by
  have hne : q ≠ p := hm.1.symm
  rcases h.pair hm hv with e | e
  · rw [e]
    simp [choose, firstOther, vecGet, Except.bind, Except.map, hne]
  · rw [e]
    simp [choose, firstOther, vecGet, Except.bind, Except.map, hne]

end Good

/-- The number of places of a vertex. -/
def num (find : List Int → Int → List Nat) (g : Ends) (v : Int) : Nat := (find g.vec v).length

/-- Between the walks. -/
structure Rest (n : Nat) (find : List Int → Int → List Nat) (g : Ends) (done : List Bool) (count : List Nat) : Prop where
  dlen : done.length = n
  clen : count.length = g.vec.length + 1
  undone : ∀ p v, g.vec[p]? = some v → done[own g p]? = some false → count[p]? = some (num find g v)
  past : ∀ p v, g.vec[p]? = some v → done[own g p]? = some true → count[p]? = some 0 ∨ (num find g v = 1 ∧ count[p]? = some 1)
  closed : ∀ p q, Mate g p q → done[own g p]? = some true → done[own g q]? = some true

/-- During a walk from place `s`; `vis` are the edges so far, `done0` the edges of earlier walks of this call, `done1` `isObjDone` before the walk. -/
structure OnWay (find : List Int → Int → List Nat) (g : Ends) (cells : List (Int × Int)) (done0 done1 : List Bool) (count0 : List Nat)
    (s : Nat) (vis : List Nat) (w : Walk) : Prop where
  dlen : w.done.length = done1.length
  clen : w.count.length = count0.length
  start : s < g.vec.length
  next : w.next < g.vec.length
  ns : w.next ≠ s
  nv : own g w.next ∈ vis
  nodup : vis.Nodup
  head : ∃ tl, vis = own g s :: tl ∧ tl.Forall₂ (fun i (e : Int) => ∃ x, cells[i]? = some x ∧ x.1 = e) w.rmvE
  mem : ∀ i ∈ vis, i ∈ g.sub ∧ done0[i]? = some false
  done : ∀ i, w.done[i]? = if i ∈ vis then some true else done1[i]?
  out : ∀ p v, g.vec[p]? = some v → own g p ∉ vis → w.count[p]? = count0[p]?
  zero : ∀ p, p < g.vec.length → own g p ∈ vis → p ≠ w.next → w.count[p]? = some 0
  cur : ∀ v, g.vec[w.next]? = some v → w.count[w.next]? = some (num find g v)
  link : ∀ p q, Mate g p q → own g p ∈ vis → p ≠ w.next → p ≠ s → own g q ∈ vis ∧ q ≠ w.next ∧ ∀ v, g.vec[p]? = some v → v ∈ w.rmvV
  verts : ∀ v ∈ w.rmvV, ∃ p q, Mate g p q ∧ own g p ∈ vis ∧ p ≠ w.next ∧ q ≠ w.next ∧ p ≠ s ∧ g.vec[p]? = some v
  vnodup : w.rmvV.Nodup
  reach : ∀ i ∈ vis, Relation.ReflTransGen (fun i j => ∃ p q, Mate g p q ∧ own g p = i ∧ own g q = j) (own g s) i

/-- What a whole walk has done. -/
structure Gone (n : Nat) (find : List Int → Int → List Nat) (g : Ends) (cells : List (Int × Int)) (done0 done1 : List Bool) (count0 : List Nat)
    (s : Nat) (vis : List Nat) (w : Walk) : Prop where
  dlen : w.done.length = done1.length
  clen : w.count.length = count0.length
  next : w.next < g.vec.length
  nv : own g w.next ∈ vis
  nodup : vis.Nodup
  start : own g s ∈ vis
  mem : ∀ i ∈ vis, i ∈ g.sub ∧ done0[i]? = some false
  done : ∀ i, w.done[i]? = if i ∈ vis then some true else done1[i]?
  out : ∀ p v, g.vec[p]? = some v → own g p ∉ vis → w.count[p]? = count0[p]?
  inn : ∀ p v, g.vec[p]? = some v → own g p ∈ vis → w.count[p]? = some 0 ∨ (num find g v = 1 ∧ w.count[p]? = some 1)
  first : w.count[s]? = some 0
  link : ∀ p q, Mate g p q → own g p ∈ vis → own g q ∈ vis
  verts : ∀ v, v ∈ w.rmvV ↔ ∃ p q, Mate g p q ∧ own g p ∈ vis ∧ g.vec[p]? = some v
  vnodup : w.rmvV.Nodup
  reach : ∀ i ∈ vis, Relation.ReflTransGen (fun i j => ∃ p q, Mate g p q ∧ own g p = i ∧ own g q = j) (own g s) i
  edges : ∃ is : List Nat, is.Forall₂ (fun i (e : Int) => ∃ x, cells[i]? = some x ∧ x.1 = e) w.rmvE ∧ is.Nodup ∧
    (∀ i, i ∈ is ↔ i ∈ vis ∧ (i ≠ own g s ∨ ∃ t, Mate g s t))
  last : ∀ v, g.vec[w.next]? = some v → (v ∈ w.rmvV ↔ ∃ t, Mate g s t)

theorem set_get {α : Type} {l : List α} {i j : Nat} {a : α} (hi : i < l.length) : (l.set i a)[j]? = if j = i then some a else l[j]? := by
  by_cases h : j = i
  · subst h; rw [if_pos rfl, List.getElem?_set_self hi]
  · rw [if_neg h, List.getElem?_set_ne (Ne.symm h)]

/-- One walk. -/
theorem walk_ok {n : Nat} (hg : Good n find g) (hcells : cells.length = n) {done0 done1 : List Bool} {count0 : List Nat}
    (hr : Rest n find g done0 count0) (hd1 : done1.length = n) {s : Nat} (hsall : (∃ t, Mate g s t) → ∀ p, p < g.vec.length → done0[own g p]? = some false → ∃ q, Mate g p q) :
    ∀ (fuel : Nat) (vis : List Nat) (w : Walk), OnWay find g cells done0 done1 count0 s vis w → g.sub.length + 1 < fuel + vis.length →
      ∃ w' vis', walk cells find g fuel w = .ok w' ∧ Gone n find g cells done0 done1 count0 s vis' w' ∧ (w'.rmvE = [] → vis' = [own g s])
  | 0, vis, w, hw, hf => by
    exfalso
    have : vis.length ≤ g.sub.length := (hw.nodup.subperm fun i hi => (hw.mem i hi).1).length_le
    omega
  | fuel + 1, vis, w, hw, hf => by
    obtain ⟨tl, htl, hE⟩ := id hw.head
    have hsvis : own g s ∈ vis := by rw [htl]; simp
    obtain ⟨v, hv⟩ : ∃ v, g.vec[w.next]? = some v := ⟨_, List.getElem?_eq_getElem hw.next⟩
    rw [walk, vecGet_of (hw.cur v hv), ok_bind]
    by_cases hc : num find g v > 1
    · rw [if_pos hc]
      obtain ⟨q, hq⟩ := hg.mate_of hv hc
      have hc2 : num find g v = 2 := hg.cnt_mate hq hv
      have hqv : g.vec[q]? = some v := by
        obtain ⟨_, v', a, b⟩ := hq
        rw [hv] at a
        rw [b, a]
      have hql : q < g.vec.length := hq.symm.lt
      have hqn : own g q < n := hg.bound _ (hg.own_mem hql)
      have hx : cells[own g q]? = some (cells[own g q]'(by omega)) := List.getElem?_eq_getElem _
      have hdq : own g q < w.done.length := by rw [hw.dlen, hd1]; exact hqn
      have hcn : w.next < w.count.length := by rw [hw.clen, hr.clen]; have := hw.next; omega
      have hcq : q < (w.count.set w.next 0).length := by rw [List.length_set, hw.clen, hr.clen]; omega
      rw [vecGet_of hv, ok_bind, hc2]
      simp only [show decide ((2 : Nat) = 3) = false from rfl]
      rw [hg.choose_mate hq hv, ok_bind, vecGet_of (hg.sub_at hql), ok_bind, elemAt_of hx, ok_bind,
        vecGet_of (List.getElem?_eq_getElem hdq), ok_bind, vecGet_of (List.getElem?_eq_getElem hcq), ok_bind]
      simp only [show ¬ ((2 : Nat) = 3) from by omega, if_false]
      generalize cells[own g q]'(by omega) = x at hx
      have hnotin : v ∉ w.rmvV := by
        intro hm
        obtain ⟨p, r, h1, h2, h3, h4, _, h5⟩ := hw.verts v hm
        have h6 : Mate g w.next p := ⟨h3.symm, v, hv, h5⟩
        have := hg.mate_unique h6.symm h1
        exact h4 this.symm
      by_cases hqs : q = s
      · -- the walk is closed
        subst hqs
        have hfn : flip q ≠ w.next := by
          intro e
          exact hg.ne q hql (by rw [e, hv, hqv])
        have hcl : ((w.count.set w.next 0).set q 0)[flip q]? = some 0 := by
          rw [List.getElem?_set_ne (flip_ne q).symm, List.getElem?_set_ne (Ne.symm hfn)]
          exact hw.zero _ (hg.flip_lt hql) (by rw [own_flip]; exact hsvis) hfn
        have hnq : w.next ≠ q := hw.ns
        have hfin : ∃ k, fuel = k + 1 := by
          cases fuel with
          | zero =>
            have : vis.length ≤ g.sub.length := (hw.nodup.subperm fun i hi => (hw.mem i hi).1).length_le
            omega
          | succ k => exact ⟨k, rfl⟩
        obtain ⟨k, rfl⟩ := hfin
        rw [walk]
        refine ⟨⟨w.done.set (own g q) true, (w.count.set w.next 0).set q 0, w.rmvE ++ [x.1], w.rmvV ++ [v], flip q⟩, vis, ?_, ?_, by intro h; simp at h⟩
        · show (vecGet ((w.count.set w.next 0).set q 0) ((flip q : Nat) : Int)).bind _ = _
          rw [vecGet_of hcl, ok_bind, if_neg (by omega)]
        have hz : ∀ p, p < g.vec.length → own g p ∈ vis → ((w.count.set w.next 0).set q 0)[p]? = some 0 := by
          intro p hp hpv
          rw [set_get hcq]
          split
          · rfl
          · rw [set_get hcn]
            split
            · rfl
            · rename_i _ h2; exact hw.zero p hp hpv h2
        refine ⟨?_, ?_, hg.flip_lt hql, ?_, hw.nodup, hsvis, hw.mem, ?_, ?_, ?_, hz q hql hsvis, ?_, ?_, ?_, hw.reach, ?_, ?_⟩
        · simp [hw.dlen]
        · simp [hw.clen]
        · show own g (flip q) ∈ vis
          rw [own_flip]; exact hsvis
        · intro i
          show (w.done.set (own g q) true)[i]? = _
          rw [set_get hdq]
          split
          · rename_i hi; rw [hi, if_pos hsvis]
          · exact hw.done i
        · intro p v' hp hpv
          show ((w.count.set w.next 0).set q 0)[p]? = _
          rw [List.getElem?_set_ne (by rintro rfl; exact hpv hsvis), List.getElem?_set_ne (by rintro rfl; exact hpv hw.nv)]
          exact hw.out p v' hp hpv
        · intro p v' hp hpv
          exact Or.inl (hz p (List.getElem?_eq_some_iff.mp hp).1 hpv)
        · intro p r hpr hpv
          by_cases h1 : p = w.next
          · subst h1; rw [hg.mate_unique hpr hq]; exact hsvis
          · by_cases h2 : p = q
            · subst h2; rw [hg.mate_unique hpr hq.symm]; exact hw.nv
            · exact (hw.link p r hpr hpv h1 h2).1
        · intro v'
          show v' ∈ w.rmvV ++ [v] ↔ _
          rw [List.mem_append, List.mem_singleton]
          constructor
          · rintro (hm | rfl)
            · obtain ⟨p, r, h1, h2, _, _, _, h5⟩ := hw.verts v' hm
              exact ⟨p, r, h1, h2, h5⟩
            · exact ⟨w.next, q, hq, hw.nv, hv⟩
          · rintro ⟨p, r, h1, h2, h3⟩
            by_cases h4 : p = w.next
            · subst h4; rw [hv] at h3; exact Or.inr (Option.some.inj h3).symm
            · by_cases h5 : p = q
              · subst h5; rw [hqv] at h3; exact Or.inr (Option.some.inj h3).symm
              · exact Or.inl ((hw.link p r h1 h2 h4 h5).2.2 v' h3)
        · show (w.rmvV ++ [v]).Nodup
          rw [List.nodup_append]
          refine ⟨hw.vnodup, by simp, ?_⟩
          intro a ha b hb e
          rw [List.mem_singleton.mp hb] at e
          exact hnotin (e ▸ ha)
        · refine ⟨tl ++ [own g q], ?_, ?_, ?_⟩
          · exact List.rel_append hE (List.Forall₂.cons ⟨x, hx, rfl⟩ List.Forall₂.nil)
          · have := hw.nodup
            rw [htl] at this
            have h1 := List.nodup_cons.mp this
            rw [List.nodup_append]
            refine ⟨h1.2, by simp, ?_⟩
            intro a ha b hb e
            rw [List.mem_singleton.mp hb] at e
            exact h1.1 (e ▸ ha)
          · intro i
            rw [htl, List.mem_append, List.mem_singleton, List.mem_cons]
            constructor
            · intro h; exact ⟨h.symm, Or.inr ⟨_, hq.symm⟩⟩
            · rintro ⟨h, _⟩; exact h.symm
        · intro v' hv'
          constructor
          · intro _; exact ⟨_, hq.symm⟩
          · intro _
            show v' ∈ w.rmvV ++ [v]
            have hv'' : g.vec[flip q]? = some v' := hv'
            rw [List.mem_append]
            left
            have hex : ∃ r, Mate g (flip q) r := by
              refine hsall ⟨_, hq.symm⟩ (flip q) (hg.flip_lt hql) ?_
              rw [own_flip]
              exact (hw.mem _ hsvis).2
            obtain ⟨r, hr'⟩ := hex
            exact (hw.link (flip q) r hr' (by rw [own_flip]; exact hsvis) hfn (flip_ne q)).2.2 v' hv''
      · -- one more edge
        have hqvis : own g q ∉ vis := by
          intro hm
          have hqn : q ≠ w.next := hq.1.symm
          exact (hw.link q w.next hq.symm hm hqn hqs).2.1 rfl
        have hq0 : done0[own g q]? = some false := by
          have hb : own g q < done0.length := by rw [hr.dlen]; exact hqn
          rcases hd : done0[own g q] with _ | _
          · rw [List.getElem?_eq_getElem hb, hd]
          · have h1 : done0[own g q]? = some true := by rw [List.getElem?_eq_getElem hb, hd]
            have := hr.closed q w.next hq.symm h1
            rw [(hw.mem _ hw.nv).2] at this
            simp at this
        suffices hon : OnWay find g cells done0 done1 count0 s (vis ++ [own g q])
            ⟨w.done.set (own g q) true, (w.count.set w.next 0).set q 0, w.rmvE ++ [x.1], w.rmvV ++ [v], flip q⟩ from
          walk_ok hg hcells hr hd1 hsall fuel (vis ++ [own g q]) _ hon (by rw [List.length_append, List.length_singleton]; omega)
        have hnf : w.next ≠ flip q := by
          intro e
          have := hw.nv
          rw [e, own_flip] at this
          exact hqvis this
        refine ⟨?_, ?_, hw.start, hg.flip_lt hql, ?_, ?_, ?_, ?_, ?_, ?_, ?_, ?_, ?_, ?_, ?_, ?_, ?_⟩
        · simp [hw.dlen]
        · simp [hw.clen]
        · intro e
          have e' : flip q = s := e
          apply hqvis
          rw [← own_flip, e']
          exact hsvis
        · show own g (flip q) ∈ _
          rw [own_flip]; simp
        · rw [List.nodup_append]
          refine ⟨hw.nodup, by simp, ?_⟩
          intro a ha b hb e
          rw [List.mem_singleton.mp hb] at e
          exact hqvis (e ▸ ha)
        · exact ⟨tl ++ [own g q], by rw [htl]; rfl, List.rel_append hE (List.Forall₂.cons ⟨x, hx, rfl⟩ List.Forall₂.nil)⟩
        · intro i hi
          rcases List.mem_append.mp hi with hi | hi
          · exact hw.mem i hi
          · rw [List.mem_singleton.mp hi]; exact ⟨hg.own_mem hql, hq0⟩
        · intro i
          show (w.done.set (own g q) true)[i]? = _
          rw [set_get hdq, hw.done i]
          by_cases hi : i = own g q
          · rw [if_pos hi, if_pos (by simp [hi])]
          · rw [if_neg hi]
            simp [hi]
        · intro p v' hp hpv
          have h1 : own g p ∉ vis := fun h => hpv (List.mem_append.mpr (Or.inl h))
          have h2 : own g p ≠ own g q := fun h => hpv (List.mem_append.mpr (Or.inr (by simp [h])))
          show ((w.count.set w.next 0).set q 0)[p]? = _
          rw [List.getElem?_set_ne (by rintro rfl; exact h2 rfl), List.getElem?_set_ne (by rintro rfl; exact h1 hw.nv)]
          exact hw.out p v' hp h1
        · intro p hp hpv hpn
          show ((w.count.set w.next 0).set q 0)[p]? = _
          have hpn' : p ≠ flip q := hpn
          rw [set_get hcq]
          split
          · rfl
          · rename_i h1
            rw [set_get hcn]
            split
            · rfl
            · rename_i h2
              rcases List.mem_append.mp hpv with h3 | h3
              · exact hw.zero p hp h3 h2
              · rcases hg.own_eq hql hp (List.mem_singleton.mp h3).symm with h4 | h4
                · exact absurd h4 h1
                · exact absurd h4 hpn'
        · intro v' hv'
          show ((w.count.set w.next 0).set q 0)[flip q]? = _
          have hv'' : g.vec[flip q]? = some v' := hv'
          rw [List.getElem?_set_ne (flip_ne q).symm, List.getElem?_set_ne hnf, hw.out _ v' hv'' (by rw [own_flip]; exact hqvis)]
          exact hr.undone _ v' hv'' (by rw [own_flip]; exact hq0)
        · intro p r hpr hpv hpn hps
          show own g r ∈ vis ++ [own g q] ∧ r ≠ flip q ∧ ∀ v', g.vec[p]? = some v' → v' ∈ w.rmvV ++ [v]
          have hpn' : p ≠ flip q := hpn
          rcases List.mem_append.mp hpv with h3 | h3
          · by_cases h1 : p = w.next
            · subst h1
              rw [hg.mate_unique hpr hq]
              refine ⟨by simp, (flip_ne q).symm, ?_⟩
              intro v' h; rw [hv] at h; simp [Option.some.inj h]
            · obtain ⟨a1, a2, a3⟩ := hw.link p r hpr h3 h1 hps
              refine ⟨by simp [a1], ?_, fun v' h => by simp [a3 v' h]⟩
              rintro rfl
              rw [own_flip] at a1
              exact hqvis a1
          · rcases hg.own_eq hql hpr.lt (List.mem_singleton.mp h3).symm with h4 | h4
            · subst h4
              rw [hg.mate_unique hpr hq.symm]
              refine ⟨by simp [hw.nv], hnf, ?_⟩
              intro v' h; rw [hqv] at h; simp [Option.some.inj h]
            · exact absurd h4 hpn'
        · intro v' hm
          show ∃ p r, Mate g p r ∧ own g p ∈ vis ++ [own g q] ∧ p ≠ flip q ∧ r ≠ flip q ∧ p ≠ s ∧ g.vec[p]? = some v'
          rcases List.mem_append.mp hm with hm | hm
          · obtain ⟨p, r, h1, h2, h3, h4, h6, h5⟩ := hw.verts v' hm
            refine ⟨p, r, h1, by simp [h2], ?_, ?_, h6, h5⟩
            · rintro rfl; rw [own_flip] at h2; exact hqvis h2
            · rintro rfl
              have := (hw.link p (flip q) h1 h2 h3 h6).1
              rw [own_flip] at this
              exact hqvis this
          · rw [List.mem_singleton.mp hm]
            exact ⟨w.next, q, hq, by simp [hw.nv], hnf, (flip_ne q).symm, hw.ns, hv⟩
        · show (w.rmvV ++ [v]).Nodup
          rw [List.nodup_append]
          refine ⟨hw.vnodup, by simp, ?_⟩
          intro a ha b hb e
          rw [List.mem_singleton.mp hb] at e
          exact hnotin (e ▸ ha)
        · intro i hi
          rcases List.mem_append.mp hi with hi | hi
          · exact hw.reach i hi
          · rw [List.mem_singleton.mp hi]
            exact (hw.reach _ hw.nv).tail ⟨w.next, q, hq, rfl, rfl⟩
    · -- the end of the chain
      rw [if_neg hc]
      have hc1 : num find g v = 1 := by
        have : 1 ≤ num find g v := hg.cnt_pos hv
        omega
      have hnm : ∀ r, ¬ Mate g w.next r := by
        intro r hm
        have : num find g v = 2 := hg.cnt_mate hm hv
        omega
      have hns : ¬ ∃ t, Mate g s t := by
        intro h
        obtain ⟨r, hr'⟩ := hsall h w.next hw.next (hw.mem _ hw.nv).2
        exact hnm r hr'
      refine ⟨w, vis, rfl, ⟨hw.dlen, hw.clen, hw.next, hw.nv, hw.nodup, hsvis, hw.mem, hw.done, hw.out, ?_, ?_, ?_, ?_, hw.vnodup, hw.reach, ?_, ?_⟩, ?_⟩
      · intro p v' hp hpv
        by_cases h1 : p = w.next
        · subst h1
          rw [hv] at hp
          have := Option.some.inj hp
          subst this
          right
          refine ⟨hc1, ?_⟩
          rw [hw.cur v hv, hc1]
        · exact Or.inl (hw.zero p (List.getElem?_eq_some_iff.mp hp).1 hpv h1)
      · exact hw.zero s hw.start hsvis hw.ns.symm
      · intro p q hpq hpv
        refine (hw.link p q hpq hpv ?_ ?_).1
        · rintro rfl; exact hnm q hpq
        · rintro rfl; exact hns ⟨q, hpq⟩
      · intro v'
        constructor
        · intro hm
          obtain ⟨p, q, h1, h2, _, _, _, h5⟩ := hw.verts v' hm
          exact ⟨p, q, h1, h2, h5⟩
        · rintro ⟨p, q, h1, h2, h3⟩
          refine (hw.link p q h1 h2 ?_ ?_).2.2 v' h3
          · rintro rfl; exact hnm q h1
          · rintro rfl; exact hns ⟨q, h1⟩
      · refine ⟨tl, hE, ?_, ?_⟩
        · have := hw.nodup
          rw [htl] at this
          exact (List.nodup_cons.mp this).2
        · intro i
          have := hw.nodup
          rw [htl] at this ⊢
          have h1 := (List.nodup_cons.mp this).1
          rw [List.mem_cons]
          constructor
          · intro hi
            exact ⟨Or.inr hi, Or.inl (by rintro rfl; exact h1 hi)⟩
          · rintro ⟨hi | hi, h2 | h2⟩
            · exact absurd hi h2
            · exact absurd h2 hns
            · exact hi
            · exact hi
      · intro v' hv'
        rw [hv] at hv'
        have := Option.some.inj hv'
        subst this
        constructor
        · intro hm
          obtain ⟨p, q, h1, h2, h3, h4, _, h5⟩ := hw.verts _ hm
          exact absurd ⟨h3.symm, _, hv, h5⟩ (hnm p)
        · intro h; exact absurd h hns
      · intro he
        rw [he] at hE
        cases hE
        exact htl

end RSVS.MergeEdge
