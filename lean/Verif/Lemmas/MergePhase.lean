import Verif.Lemmas.MergeEdge

/-!
# Lemmas for the merge of edges: all walks in a surface
-/

namespace RSVS.MergeEdge

open RSVS.Spec RSVS.Mesh RSVS.SpawnRemove

variable {cells : List (Int × Int)} {find : List Int → Int → List Nat} {g : Ends}

/-- Edges which share a vertex. -/
def Nxt (g : Ends) (i j : Nat) : Prop := ∃ p q, Mate g p q ∧ own g p = i ∧ own g q = j

/-- Edges of one chain. -/
abbrev Ch (g : Ends) : Nat → Nat → Prop := Relation.ReflTransGen (Nxt g)

theorem Nxt.symm {i j : Nat} (h : Nxt g i j) : Nxt g j i := by
  obtain ⟨p, q, h1, h2, h3⟩ := h
  exact ⟨q, p, h1.symm, h3, h2⟩

theorem ch_symm {i j : Nat} (h : Ch g i j) : Ch g j i := by
  induction h with
  | refl => exact Relation.ReflTransGen.refl
  | tail _ h ih => exact Relation.ReflTransGen.head h.symm ih

/-- A set which is closed holds whole chains. -/
theorem ch_closed {S : Nat → Prop} (hS : ∀ p q, Mate g p q → S (own g p) → S (own g q)) {i j : Nat} (h : Ch g i j) (hi : S i) : S j := by
  induction h with
  | refl => exact hi
  | tail _ h ih =>
    obtain ⟨p, q, h1, rfl, rfl⟩ := h
    exact hS p q h1 ih

/-- The chain has no end. -/
def Lp (g : Ends) (r : Nat) : Prop := ∀ p, p < g.vec.length → Ch g r (own g p) → ∃ q, Mate g p q

/-- An edit is right for the chain of edge `r`. -/
structure EditOk (g : Ends) (cells : List (Int × Int)) (scope : List Int) (r : Nat) (d : PathEdit) : Prop where
  mem : r ∈ g.sub
  keep : ∃ x, cells[r]? = some x ∧ x.1 = d.keepE
  joins : d.rmvE ≠ []
  rmv : ∃ is : List Nat, is.Forall₂ (fun i (e : Int) => ∃ x, cells[i]? = some x ∧ x.1 = e) d.rmvE ∧ is.Nodup ∧
    ∀ i, i ∈ is ↔ Ch g r i ∧ (i ≠ r ∨ Lp g r)
  vonce : d.rmvV.Nodup
  verts : ∀ v, v ∈ d.rmvV ↔ ∃ p q, Mate g p q ∧ Ch g r (own g p) ∧ g.vec[p]? = some v
  keepV : ∃ p, Ch g r (own g p) ∧ g.vec[p]? = some d.keepV
  loopV : d.keepV ∈ d.rmvV ↔ Lp g r
  scope : d.scope = scope

/-- Between the walks of one call. -/
structure Acc (n : Nat) (find : List Int → Int → List Nat) (g : Ends) (cells : List (Int × Int)) (scope : List Int) (done1 : List Bool)
    (gd : List Bool) (a : Joined) (E : List PathEdit) (rs : List Nat) : Prop where
  rest : Rest n find g gd a.count
  dlen : a.done.length = n
  out : ∀ i, i ∉ g.sub → a.done[i]? = done1[i]?
  inn : ∀ i ∈ g.sub, gd[i]? = some true → a.done[i]? = some true
  edits : rs.Forall₂ (EditOk g cells scope) E
  roots : ∀ r ∈ rs, gd[r]? = some true
  apart : rs.Pairwise fun r r' => ¬ Ch g r r'
  cover : ∀ y ∈ g.sub, gd[y]? = some true → (∀ j, Ch g y j → j = y) ∨ ∃ r ∈ rs, Ch g r y

/-- The places left. -/
def left (count : List Nat) (n : Nat) : Nat := (List.range n).countP fun p => decide (count[p]? ≠ some 0)

theorem left_lt {c c' : List Nat} {n s : Nat} (h : ∀ p, p < n → c'[p]? ≠ some 0 → c[p]? ≠ some 0) (hs : s < n) (h1 : c[s]? ≠ some 0)
    (h2 : c'[s]? = some 0) : left c' n < left c n := by
  unfold left
  induction n with
  | zero => omega
  | succ n ih =>
    rw [List.range_succ, List.countP_append, List.countP_append]
    have hmono : (List.range n).countP (fun p => decide (c'[p]? ≠ some 0)) ≤ (List.range n).countP (fun p => decide (c[p]? ≠ some 0)) := by
      apply List.countP_mono_left
      intro p hp hp'
      have := List.mem_range.mp hp
      simpa using h p (by omega) (by simpa using hp')
    by_cases hsn : s = n
    · subst hsn
      simp only [List.countP_cons, List.countP_nil]
      rw [if_neg (by simp [h2]), if_pos (by simpa using h1)]
      omega
    · have := ih (fun p hp => h p (by omega)) (by omega)
      have hlast : [n].countP (fun p => decide (c'[p]? ≠ some 0)) ≤ [n].countP (fun p => decide (c[p]? ≠ some 0)) := by
        apply List.countP_mono_left
        intro p hp hp'
        rw [List.mem_singleton.mp hp] at hp' ⊢
        simpa using h n (by omega) (by simpa using hp')
      omega

/-- A list with some places set. -/
def mark (l : List Bool) (vis : List Nat) : List Bool := vis.foldl (fun l i => l.set i true) l

theorem mark_length (vis : List Nat) : ∀ (l : List Bool), (mark l vis).length = l.length := by
  induction vis with
  | nil => intro l; rfl
  | cons i vis ih => intro l; show (mark (l.set i true) vis).length = _; rw [ih]; simp

theorem mark_get (vis : List Nat) : ∀ (l : List Bool), (∀ i ∈ vis, i < l.length) → ∀ i : Nat, (mark l vis)[i]? = if i ∈ vis then some true else l[i]? := by
  induction vis with
  | nil => intro l _ i; simp [mark]
  | cons j vis ih =>
    intro l hl i
    show (mark (l.set j true) vis)[i]? = _
    rw [ih _ (by intro k hk; simpa using hl k (by simp [hk])), set_get (hl j (by simp))]
    by_cases h1 : i ∈ vis
    · simp [h1]
    · by_cases h2 : i = j
      · simp [h2]
      · simp [h1, h2]

theorem bool_of {l : List Bool} {i : Nat} (h : i < l.length) : l[i]? = some true ∨ l[i]? = some false := by
  rw [List.getElem?_eq_getElem h]
  cases l[i] <;> simp

/-- One walk with its edit. -/
theorem chain_ok {n : Nat} (hg : Good n find g) (hcells : cells.length = n) {scope : List Int} {done1 gd : List Bool} {a : Joined}
    {E0 E : List PathEdit} {rs : List Nat} (hE : a.edits = E0 ++ E) (ha : Acc n find g cells scope done1 gd a E rs) {s : Nat} (hs : s < g.vec.length)
    (hc : a.count[s]? = some 1 ∨ (a.count[s]? = some 2 ∧ ∀ p, p < g.vec.length → gd[own g p]? = some false → ∃ q, Mate g p q)) :
    ∃ a' gd' E' rs', chainFrom cells find g scope a s = .ok a' ∧ a'.edits = E0 ++ E' ∧ Acc n find g cells scope done1 gd' a' E' rs' ∧
      left a'.count g.vec.length < left a.count g.vec.length ∧ ∀ i : Nat, gd[i]? = some true → gd'[i]? = some true := by
  obtain ⟨v, hv⟩ : ∃ v, g.vec[s]? = some v := ⟨_, List.getElem?_eq_getElem hs⟩
  have hin : own g s < n := hg.bound _ (hg.own_mem hs)
  have hgl : own g s < gd.length := by rw [ha.rest.dlen]; exact hin
  have hdl : own g s < a.done.length := by rw [ha.dlen]; exact hin
  have hcl : s < a.count.length := by rw [ha.rest.clen]; omega
  have hx : cells[own g s]? = some (cells[own g s]'(by omega)) := List.getElem?_eq_getElem _
  generalize cells[own g s]'(by omega) = x at hx
  unfold chainFrom
  rw [vecGet_of (hg.sub_at hs), ok_bind, elemAt_of hx, ok_bind, vecGet_of (List.getElem?_eq_getElem hdl), ok_bind]
  have hc0 : a.count[s]? ≠ some 0 := by rcases hc with h | ⟨h, _⟩ <;> rw [h] <;> simp
  obtain ⟨v', hv'⟩ : ∃ v', g.vec[flip s]? = some v' := ⟨_, List.getElem?_eq_getElem (hg.flip_lt hs)⟩
  rcases bool_of hgl with hd | hd
  · -- the other end of a chain
    have h1 : num find g v = 1 ∧ a.count[s]? = some 1 := by
      rcases ha.rest.past s v hv hd with h | h
      · exact absurd h hc0
      · exact h
    have h2 : ∃ c : Nat, a.count[flip s]? = some c ∧ c ≤ 1 := by
      rcases ha.rest.past (flip s) v' hv' (by rw [own_flip]; exact hd) with h | h
      · exact ⟨0, h, by omega⟩
      · exact ⟨1, h.2, by omega⟩
    obtain ⟨c, h3, h4⟩ := h2
    rw [walk]
    show ∃ a' gd' E' rs', ((vecGet (a.count.set s 0) ((flip s : Nat) : Int)).bind _).bind _ = _ ∧ _
    rw [vecGet_of (show (a.count.set s 0)[flip s]? = some c by rw [List.getElem?_set_ne (flip_ne s).symm]; exact h3), ok_bind,
      if_neg (by omega), ok_bind]
    show ∃ a' gd' E' rs', (vecGet g.vec ((flip s : Nat) : Int)).map _ = _ ∧ _
    rw [vecGet_of hv']
    refine ⟨_, gd, E, rs, rfl, by simpa using hE, ?_, ?_, fun _ h => h⟩
    · refine ⟨⟨ha.rest.dlen, by simpa using ha.rest.clen, ?_, ?_, ha.rest.closed⟩, by simpa using ha.dlen, ?_, ?_, ha.edits, ha.roots, ha.apart, ha.cover⟩
      · intro p w hp hw
        show (a.count.set s 0)[p]? = _
        rw [List.getElem?_set_ne (by rintro rfl; rw [hd] at hw; simp at hw)]
        exact ha.rest.undone p w hp hw
      · intro p w hp hw
        show (a.count.set s 0)[p]? = _ ∨ _
        by_cases hps : p = s
        · subst hps; left; exact List.getElem?_set_self hcl
        · show _ ∨ _ ∧ (a.count.set s 0)[p]? = _
          rw [List.getElem?_set_ne (Ne.symm hps)]
          exact ha.rest.past p w hp hw
      · intro i hi
        show (a.done.set (own g s) true)[i]? = _
        rw [List.getElem?_set_ne (by rintro rfl; exact hi (hg.own_mem hs))]
        exact ha.out i hi
      · intro i hi hgi
        show (a.done.set (own g s) true)[i]? = _
        rw [set_get hdl]
        split
        · rfl
        · exact ha.inn i hi hgi
    · refine left_lt ?_ hs hc0 (List.getElem?_set_self hcl)
      intro p _ hp
      by_cases hps : p = s
      · subst hps; exact hc0
      · have hp' : (a.count.set s 0)[p]? ≠ some 0 := hp
        rwa [List.getElem?_set_ne (Ne.symm hps)] at hp'
  · -- a new chain
    have hnum := ha.rest.undone s v hv hd
    have hsall : (∃ t, Mate g s t) → ∀ p, p < g.vec.length → gd[own g p]? = some false → ∃ q, Mate g p q := by
      rintro ⟨t, ht⟩
      rcases hc with h | ⟨_, h⟩
      · have := hg.cnt_mate ht hv
        rw [hnum] at h
        have h' : (find g.vec v).length = 1 := Option.some.inj h
        omega
      · exact h
    have hinit : OnWay find g cells gd a.done a.count s [own g s]
        { done := a.done.set (own g s) true, count := a.count.set s 0, rmvE := [], rmvV := [], next := flip s } := by
      have hone : ∀ p, p < g.vec.length → own g p ∈ [own g s] → p = s ∨ p = flip s := fun p hp h =>
        hg.own_eq hs hp (List.mem_singleton.mp h).symm
      refine ⟨by simp, by simp, hs, hg.flip_lt hs, flip_ne s, by show own g (flip s) ∈ _; rw [own_flip]; simp, by simp,
        ⟨[], rfl, List.Forall₂.nil⟩, ?_, ?_, ?_, ?_, ?_, ?_, by simp, by simp, ?_⟩
      · intro i hi; rw [List.mem_singleton.mp hi]; exact ⟨hg.own_mem hs, hd⟩
      · intro i
        show (a.done.set (own g s) true)[i]? = _
        rw [set_get hdl]
        simp
      · intro p w _ hpv
        show (a.count.set s 0)[p]? = _
        rw [List.getElem?_set_ne (by rintro rfl; simp at hpv)]
      · intro p hp hpv hpn
        rcases hone p hp hpv with rfl | h
        · exact List.getElem?_set_self hcl
        · exact absurd h hpn
      · intro w hw
        have hw' : g.vec[flip s]? = some w := hw
        show (a.count.set s 0)[flip s]? = _
        rw [List.getElem?_set_ne (flip_ne s).symm]
        exact ha.rest.undone _ w hw' (by rw [own_flip]; exact hd)
      · intro p q hpq hpv hpn hps
        rcases hone p hpq.lt hpv with h | h
        · exact absurd h hps
        · exact absurd h hpn
      · intro i hi; rw [List.mem_singleton.mp hi]
    have hsub : 0 < g.sub.length := by have := hg.len; omega
    obtain ⟨w, vis, h1, hw, hemp⟩ := walk_ok hg hcells ha.rest ha.dlen hsall (g.vec.length + 1) _ _ hinit (by
      have := hg.len
      simp only [List.length_singleton]
      omega)
    rw [h1, ok_bind]
    obtain ⟨u, hu⟩ : ∃ u, g.vec[w.next]? = some u := ⟨_, List.getElem?_eq_getElem hw.next⟩
    rw [vecGet_of hu]
    have hvb : ∀ i ∈ vis, i < gd.length := fun i hi => by rw [ha.rest.dlen]; exact hg.bound i (hw.mem i hi).1
    have hmk := mark_get vis gd hvb
    have hch : ∀ i, Ch g (own g s) i ↔ i ∈ vis := fun i =>
      ⟨fun h => ch_closed (S := fun i => i ∈ vis) hw.link h hw.start, fun h => hw.reach i h⟩
    have hlp : Lp g (own g s) ↔ ∃ t, Mate g s t := by
      constructor
      · intro h; exact h s hs Relation.ReflTransGen.refl
      · intro h p hp hpc
        exact hsall h p hp (hw.mem _ ((hch _).mp hpc)).2
    have hcount : ∀ p, p < g.vec.length → w.count[p]? ≠ some 0 → a.count[p]? ≠ some 0 := by
      intro p hp hpc
      obtain ⟨z, hz⟩ : ∃ z, g.vec[p]? = some z := ⟨_, List.getElem?_eq_getElem hp⟩
      by_cases hpv : own g p ∈ vis
      · have hn := ha.rest.undone p z hz (hw.mem _ hpv).2
        have : 1 ≤ num find g z := hg.cnt_pos hz
        rw [hn]
        intro e
        have := Option.some.inj e
        omega
      · rw [hw.out p z hz hpv] at hpc; exact hpc
    have hrest : Rest n find g (mark gd vis) w.count := by
      refine ⟨by rw [mark_length]; exact ha.rest.dlen, by rw [hw.clen]; exact ha.rest.clen, ?_, ?_, ?_⟩
      · intro p z hz hp
        rw [hmk] at hp
        split at hp
        · simp at hp
        · rename_i hpv
          rw [hw.out p z hz hpv]
          exact ha.rest.undone p z hz hp
      · intro p z hz hp
        rw [hmk] at hp
        split at hp
        · rename_i hpv; exact hw.inn p z hz hpv
        · rename_i hpv
          rw [hw.out p z hz hpv]
          exact ha.rest.past p z hz hp
      · intro p q hpq hp
        rw [hmk] at hp ⊢
        split at hp
        · rename_i hpv; rw [if_pos (hw.link p q hpq hpv)]
        · split
          · rfl
          · exact ha.rest.closed p q hpq hp
    have hgm : ∀ i : Nat, gd[i]? = some true → (mark gd vis)[i]? = some true := by
      intro i hi
      rw [hmk]; split
      · rfl
      · exact hi
    have hdone : ∀ i ∈ g.sub, (mark gd vis)[i]? = some true → w.done[i]? = some true := by
      intro i hi hm
      rw [hmk] at hm
      rw [hw.done i]
      split at hm
      · rename_i h; rw [if_pos h]
      · rename_i h; rw [if_neg h]; exact ha.inn i hi hm
    have hout : ∀ i, i ∉ g.sub → w.done[i]? = done1[i]? := by
      intro i hi
      rw [hw.done i, if_neg (fun h => hi (hw.mem i h).1)]
      exact ha.out i hi
    by_cases hlen : w.rmvE = []
    · refine ⟨_, mark gd vis, E, rs, rfl, ?_, ?_, left_lt hcount hs hc0 hw.first, hgm⟩
      · simp [hlen, hE]
      · refine ⟨hrest, by rw [hw.dlen]; exact ha.dlen, hout, hdone, ha.edits, fun r hr => hgm r (ha.roots r hr), ha.apart, ?_⟩
        intro y hy hyd
        rw [hmk] at hyd
        split at hyd
        · rename_i hyv
          left
          rw [hemp hlen, List.mem_singleton] at hyv
          intro j hj
          rw [hyv] at hj ⊢
          have := (hch j).mp hj
          rw [hemp hlen, List.mem_singleton] at this
          exact this
        · exact ha.cover y hy hyd
    · refine ⟨_, mark gd vis, E ++ [⟨x.1, w.rmvE, u, w.rmvV, scope⟩], rs ++ [own g s], rfl, ?_, ?_, left_lt hcount hs hc0 hw.first, hgm⟩
      · have : w.rmvE.length > 0 := List.length_pos_of_ne_nil hlen
        simp [this, hE]
      · refine ⟨hrest, by rw [hw.dlen]; exact ha.dlen, hout, hdone, ?_, ?_, ?_, ?_⟩
        · refine List.rel_append ha.edits (List.Forall₂.cons ?_ List.Forall₂.nil)
          refine ⟨hg.own_mem hs, ⟨x, hx, rfl⟩, hlen, ?_, hw.vnodup, ?_, ⟨w.next, (hch _).mpr hw.nv, hu⟩, ?_, rfl⟩
          · obtain ⟨is, i1, i2, i3⟩ := hw.edges
            refine ⟨is, i1, i2, ?_⟩
            intro i
            rw [i3, hch, hlp]
          · intro z
            rw [hw.verts]
            constructor
            · rintro ⟨p, q, a1, a2, a3⟩; exact ⟨p, q, a1, (hch _).mpr a2, a3⟩
            · rintro ⟨p, q, a1, a2, a3⟩; exact ⟨p, q, a1, (hch _).mp a2, a3⟩
          · rw [hlp]; exact hw.last u hu
        · intro r hr
          rcases List.mem_append.mp hr with hr | hr
          · exact hgm r (ha.roots r hr)
          · rw [List.mem_singleton.mp hr, hmk, if_pos hw.start]
        · rw [List.pairwise_append]
          refine ⟨ha.apart, by simp, ?_⟩
          intro r hr r' hr' hrr
          rw [List.mem_singleton.mp hr'] at hrr
          have := ch_closed (S := fun i => gd[i]? = some true) (fun p q h1 h2 => ha.rest.closed p q h1 h2) hrr (ha.roots r hr)
          rw [hd] at this
          simp at this
        · intro y hy hyd
          rw [hmk] at hyd
          split at hyd
          · rename_i hyv
            exact Or.inr ⟨own g s, by simp, (hch y).mpr hyv⟩
          · rcases ha.cover y hy hyd with h | ⟨r, h1, h2⟩
            · exact Or.inl h
            · exact Or.inr ⟨r, by simp [h1], h2⟩

/-- All walks from places with a given count. -/
theorem phase_ok {n : Nat} (hg : Good n find g) (hcells : cells.length = n) {scope : List Int} {done1 : List Bool} {E0 : List PathEdit} {c : Nat} :
    ∀ (fuel : Nat) (gd : List Bool) (a : Joined) (E : List PathEdit) (rs : List Nat), a.edits = E0 ++ E → Acc n find g cells scope done1 gd a E rs →
      (c = 1 ∨ (c = 2 ∧ ∀ p, p < g.vec.length → gd[own g p]? = some false → ∃ q, Mate g p q)) → left a.count g.vec.length < fuel →
      ∃ a' gd' E' rs', phase cells find g scope c fuel a = .ok a' ∧ a'.edits = E0 ++ E' ∧ Acc n find g cells scope done1 gd' a' E' rs' ∧
        (∀ p, p < g.vec.length → a'.count[p]? ≠ some c) ∧ ∀ i : Nat, gd[i]? = some true → gd'[i]? = some true
  | 0, _, _, _, _, _, _, _, h => by omega
  | fuel + 1, gd, a, E, rs, hE, ha, hc, hf => by
    rw [phase]
    rcases hfi : (List.range g.vec.length).find? (fun p => a.count[p]? == some c) with _ | s
    · refine ⟨a, gd, E, rs, rfl, hE, ha, ?_, fun _ h => h⟩
      intro p hp he
      have := List.find?_eq_none.mp hfi p (List.mem_range.mpr hp)
      simp [he] at this
    · have hs : s < g.vec.length := List.mem_range.mp (List.mem_of_find?_eq_some hfi)
      have hsc : a.count[s]? = some c := by simpa using List.find?_some hfi
      have hc' : a.count[s]? = some 1 ∨ (a.count[s]? = some 2 ∧ ∀ p, p < g.vec.length → gd[own g p]? = some false → ∃ q, Mate g p q) := by
        rcases hc with rfl | ⟨rfl, h⟩
        · exact Or.inl hsc
        · exact Or.inr ⟨hsc, h⟩
      obtain ⟨a', gd', E', rs', h1, h2, h3, h4, h5⟩ := chain_ok hg hcells hE ha hs hc'
      have hback : ∀ p, p < g.vec.length → gd'[own g p]? = some false → gd[own g p]? = some false := by
        intro p hp h
        rcases bool_of (l := gd) (i := own g p) (by rw [ha.rest.dlen]; exact hg.bound _ (hg.own_mem hp)) with h' | h'
        · rw [h5 _ h'] at h; simp at h
        · exact h'
      obtain ⟨a'', gd'', E'', rs'', g1, g2, g3, g4, g5⟩ := phase_ok hg hcells fuel gd' a' E' rs' h2 h3
        (hc.imp_right fun ⟨e, h⟩ => ⟨e, fun p hp hpd => h p hp (hback p hp hpd)⟩) (by omega)
      refine ⟨a'', gd'', E'', rs'', ?_, g2, g3, g4, fun i h => g5 i (h5 i h)⟩
      show (chainFrom cells find g scope a s).bind _ = _
      rw [h1, ok_bind, g1]

/-- Both rounds: all edges of the surface are done. -/
theorem rounds_ok {n : Nat} (hg : Good n find g) (hcells : cells.length = n) {scope : List Int} {done1 : List Bool} (hd1 : done1.length = n) (E0 : List PathEdit) :
    ∃ (a a' : Joined) (E : List PathEdit) (rs : List Nat), phase cells find g scope 1 (g.vec.length + 2)
        { done := done1, count := (g.vec.map fun v => (find g.vec v).length) ++ [0], edits := E0 } = .ok a ∧
      phase cells find g scope 2 (g.vec.length + 2) a = .ok a' ∧ a'.edits = E0 ++ E ∧ a'.done.length = n ∧
      (∀ i, i ∉ g.sub → a'.done[i]? = done1[i]?) ∧ (∀ i ∈ g.sub, a'.done[i]? = some true) ∧ rs.Forall₂ (EditOk g cells scope) E ∧
      rs.Pairwise (fun r r' => ¬ Ch g r r') ∧ ∀ y ∈ g.sub, (∀ j, Ch g y j → j = y) ∨ ∃ r ∈ rs, Ch g r y := by
  have hleft : ∀ c : List Nat, left c g.vec.length < g.vec.length + 2 := by
    intro c
    have := List.countP_le_length (p := fun p => decide (c[p]? ≠ some 0)) (l := List.range g.vec.length)
    rw [List.length_range] at this
    unfold left
    omega
  have hnot : ∀ i : Nat, (List.replicate n false)[i]? ≠ some true := by
    intro i h
    rw [List.getElem?_replicate] at h
    split at h <;> simp at h
  have hinit : Acc n find g cells scope done1 (List.replicate n false)
      { done := done1, count := (g.vec.map fun v => (find g.vec v).length) ++ [0], edits := E0 } [] [] := by
    refine ⟨⟨by simp, by simp, ?_, fun p v _ h => absurd h (hnot _), fun p q _ h => absurd h (hnot _)⟩, hd1, fun _ _ => rfl,
      fun i _ h => absurd h (hnot _), List.Forall₂.nil, by simp, by simp, fun y _ h => absurd h (hnot _)⟩
    intro p v hv _
    have hp := (List.getElem?_eq_some_iff.mp hv).1
    show ((g.vec.map fun v => (find g.vec v).length) ++ [0])[p]? = _
    rw [List.getElem?_append_left (by simpa using hp), List.getElem?_map, hv]
    rfl
  obtain ⟨a, gd, E, rs, h1, h2, h3, h4, _⟩ := phase_ok hg hcells (E0 := E0) (c := 1) (g.vec.length + 2) _ _ [] [] (by simp) hinit (Or.inl rfl) (hleft _)
  have hmated : ∀ p, p < g.vec.length → gd[own g p]? = some false → ∃ q, Mate g p q := by
    intro p hp hpd
    obtain ⟨v, hv⟩ : ∃ v, g.vec[p]? = some v := ⟨_, List.getElem?_eq_getElem hp⟩
    have h5 := h3.rest.undone p v hv hpd
    refine hg.mate_of hv ?_
    have h6 := h4 p hp
    rw [h5] at h6
    have : 1 ≤ (find g.vec v).length := hg.cnt_pos hv
    have h7 : (find g.vec v).length ≠ 1 := fun e => h6 (congrArg some e)
    omega
  obtain ⟨a', gd', E', rs', g1, g2, g3, g4, g5⟩ := phase_ok hg hcells (E0 := E0) (c := 2) (g.vec.length + 2) gd a E rs h2 h3 (Or.inr ⟨rfl, hmated⟩) (hleft _)
  have hall : ∀ i ∈ g.sub, gd'[i]? = some true := by
    intro i hi
    obtain ⟨k, hk, rfl⟩ := List.getElem_of_mem hi
    have hp : 2 * k < g.vec.length := by rw [hg.len]; omega
    have ho : own g (2 * k) = g.sub[k] := by
      have h5 := hg.sub_at hp
      rw [show 2 * k / 2 = k by omega, List.getElem?_eq_getElem hk] at h5
      exact (Option.some.inj h5).symm
    rw [← ho]
    rcases bool_of (l := gd') (i := own g (2 * k)) (by rw [g3.rest.dlen]; exact hg.bound _ (hg.own_mem hp)) with h | h
    · exact h
    · exfalso
      obtain ⟨v, hv⟩ : ∃ v, g.vec[2 * k]? = some v := ⟨_, List.getElem?_eq_getElem hp⟩
      have hgd : gd[own g (2 * k)]? = some false := by
        rcases bool_of (l := gd) (i := own g (2 * k)) (by rw [h3.rest.dlen]; exact hg.bound _ (hg.own_mem hp)) with h' | h'
        · rw [g5 _ h'] at h; simp at h
        · exact h'
      obtain ⟨q, hq⟩ := hmated _ hp hgd
      have h6 := g3.rest.undone _ v hv h
      have h7 : num find g v = 2 := hg.cnt_mate hq hv
      rw [h7] at h6
      exact g4 _ hp h6
  exact ⟨a, a', E', rs', h1, g1, g2, g3.dlen, g3.out, fun i hi => g3.inn i hi (hall i hi), g3.edits, g3.apart,
    fun y hy => g3.cover y hy (hall y hy)⟩

end RSVS.MergeEdge
