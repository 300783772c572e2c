import Verif.Lemmas.MergeChains
import Verif.Lemmas.MergeAll
import Verif.Spec.SameSurf

/-!
# Lemmas for the merge of edges on one surface of the snake
-/

namespace RSVS.SameSurf

open RSVS.Spec RSVS.Mesh RSVS.SpawnRemove RSVS.MergeEdge

variable {m : Mesh} {cells : List (Int × Int)} {find : List Int → Int → List Nat} {sibs : Int → List Nat} {live : List Int}

/-- The surfaces of the edge at a position. -/
def surfAt (m : Mesh) (i : Nat) : List Int := (m.edges[i]?).elim [] Edge.surfind

theorem surfAt_of {i : Nat} (h : i < m.edges.length) : surfAt m i = m.edges[i].surfind := by
  unfold surfAt
  rw [List.getElem?_eq_getElem h]
  rfl

theorem eOwners_fold {sub : List Nat} (hb : ∀ i ∈ sub, i < m.edges.length) : ∀ (rest pre : List Nat) (acc : List Nat), sub = pre ++ rest →
    (List.range' pre.length rest.length).foldlM (m := Except Fault) (fun (acc : List Nat) (ii : Nat) =>
      (vecGet sub ii).bind fun p => (elemAt m.edges p).map fun x => acc ++ List.replicate x.surfind.length ii) acc =
      .ok (acc ++ MergeSurf.ownersFrom pre.length (rest.map (surfAt m)))
  | [], pre, acc, _ => by simp [MergeSurf.ownersFrom]; rfl
  | r :: rest, pre, acc, h => by
    have ih := eOwners_fold hb rest (pre ++ [r]) (acc ++ List.replicate (surfAt m r).length pre.length) (by rw [h]; simp)
    have hr : r < m.edges.length := hb r (by rw [h]; simp)
    have hs : sub[pre.length]? = some r := by rw [h]; simp
    rw [List.length_cons, List.range'_succ, List.foldlM_cons, vecGet_of hs, ok_bind, elemAt_of (List.getElem?_eq_getElem hr)]
    show List.foldlM _ (acc ++ List.replicate m.edges[r].surfind.length pre.length) _ = _
    rw [← surfAt_of hr]
    rw [List.length_append, List.length_singleton] at ih
    rw [ih, List.map_cons, MergeSurf.ownersFrom, List.append_assoc]

theorem eOwners_eq {sub : List Nat} (hb : ∀ i ∈ sub, i < m.edges.length) :
    edgeOwners m sub = .ok (MergeSurf.ownersFrom 0 (sub.map (surfAt m))) := by
  have := eOwners_fold hb sub [] [] rfl
  unfold edgeOwners
  rw [List.range_eq_range']
  simpa using this

theorem surfs_eq {sub : List Nat} (hb : ∀ i ∈ sub, i < m.edges.length) :
    concatField m.edges Edge.surfind (sub.map fun p : Nat => (p : Int)) = .ok (sub.map (surfAt m)).flatten := by
  unfold concatField
  rw [concatField_at m.edges Edge.surfind sub [] hb, List.nil_append]
  rfl

/-- No list has an entry twice, so an owner has one place for each entry. -/
theorem owners_inj : ∀ (L : List (List Int)) (k : Nat), (∀ l ∈ L, l.Nodup) → ∀ (p q o : Nat) (e : Int), L.flatten[p]? = some e → L.flatten[q]? = some e →
    (MergeSurf.ownersFrom k L)[p]? = some o → (MergeSurf.ownersFrom k L)[q]? = some o → p = q
  | [], k, _, p, q, o, e, h, _, _, _ => by simp at h
  | l :: L, k, hn, p, q, o, e, hp, hq, op, oq => by
    rw [List.flatten_cons] at hp hq
    rw [MergeSurf.ownersFrom] at op oq
    have first : ∀ {p : Nat}, p < l.length → (List.replicate l.length k ++ MergeSurf.ownersFrom (k + 1) L)[p]? = some k := by
      intro p h
      rw [List.getElem?_append_left (by simpa using h), List.getElem?_replicate, if_pos h]
    have later : ∀ {p o : Nat}, ¬ p < l.length → (List.replicate l.length k ++ MergeSurf.ownersFrom (k + 1) L)[p]? = some o →
        (MergeSurf.ownersFrom (k + 1) L)[p - l.length]? = some o ∧ k < o := by
      intro p o h h1
      rw [List.getElem?_append_right (by simpa using h), List.length_replicate] at h1
      have := (MergeSurf.owners_bounds _ _ _ (List.mem_of_getElem? h1)).1
      exact ⟨h1, by omega⟩
    by_cases h1 : p < l.length
    · rw [first h1] at op
      have ok := Option.some.inj op
      subst ok
      by_cases h2 : q < l.length
      · rw [List.getElem?_append_left h1] at hp
        rw [List.getElem?_append_left h2] at hq
        rw [List.getElem?_eq_getElem h1] at hp
        rw [List.getElem?_eq_getElem h2] at hq
        exact (List.Nodup.getElem_inj_iff (hn l (by simp))).mp ((Option.some.inj hp).trans (Option.some.inj hq).symm)
      · have := (later h2 oq).2
        omega
    · obtain ⟨a1, a2⟩ := later h1 op
      by_cases h2 : q < l.length
      · rw [first h2] at oq
        have := Option.some.inj oq
        omega
      · obtain ⟨b1, _⟩ := later h2 oq
        rw [List.getElem?_append_right (by omega)] at hp hq
        have := owners_inj L (k + 1) (fun l hl => hn l (by simp [hl])) _ _ o e hp hq a1 b1
        omega

/-- The edges of the places of a surface. -/
theorem places {sub : List Nat} (hnd : sub.Nodup) (hn : ∀ i ∈ sub, (surfAt m i).Nodup)
    (hf : ∀ l k, AllPos (fun e => e) l k (find l k)) (s : Int) :
    ∃ l, ((find (sub.map (surfAt m)).flatten s).mapM (m := Except Fault) fun p : Nat =>
        (vecGet (MergeSurf.ownersFrom 0 (sub.map (surfAt m))) p).bind fun o => vecGet sub o) = .ok l ∧ l.Nodup ∧
      l.length = (find (sub.map (surfAt m)).flatten s).length ∧ ∀ i, i ∈ l ↔ i ∈ sub ∧ s ∈ surfAt m i := by
  generalize hL : sub.map (surfAt m) = L
  have hLn : ∀ l ∈ L, l.Nodup := by
    intro l hl
    rw [← hL] at hl
    obtain ⟨i, hi, rfl⟩ := List.mem_map.mp hl
    exact hn i hi
  obtain ⟨ps, hps⟩ : ∃ ps, ps = find L.flatten s := ⟨_, rfl⟩
  have hpos := hf L.flatten s
  rw [← hps] at hpos ⊢
  have hmem : ∀ p, p ∈ ps ↔ L.flatten[p]? = some s := by
    intro p
    rw [hpos.2 p]
    constructor
    · rintro ⟨e, h1, rfl⟩; exact h1
    · intro h; exact ⟨s, h, rfl⟩
  have hval : ∀ p ∈ ps, ∃ o i, (MergeSurf.ownersFrom 0 L)[p]? = some o ∧ sub[o]? = some i ∧ s ∈ surfAt m i := by
    intro p hp
    have h1 := (hmem p).mp hp
    have hlt : p < (MergeSurf.ownersFrom 0 L).length := by
      rw [← MergeSurf.owners_length]; exact (List.getElem?_eq_some_iff.mp h1).1
    obtain ⟨l, n, a, b, c⟩ := (MergeSurf.owners_zip L 0 s _).mp ⟨p, h1, List.getElem?_eq_getElem hlt⟩
    have h2 : (MergeSurf.ownersFrom 0 L)[p]? = some n := by
      rw [List.getElem?_eq_getElem hlt]
      congr 1
      omega
    rw [← hL, List.getElem?_map] at a
    obtain ⟨i, hi, rfl⟩ := Option.map_eq_some_iff.mp a
    exact ⟨n, i, h2, hi, c⟩
  have hcomp : ∀ qs : List Nat, (∀ p ∈ qs, p ∈ ps) →
      qs.mapM (m := Except Fault) (fun p : Nat => (vecGet (MergeSurf.ownersFrom 0 L) p).bind fun o => vecGet sub o) =
        .ok (qs.map fun p => sub.getD ((MergeSurf.ownersFrom 0 L).getD p 0) 0) := by
    intro qs
    induction qs with
    | nil => intro _; rfl
    | cons p qs ih =>
      intro h
      obtain ⟨o, i, h1, h2, _⟩ := hval p (h p (by simp))
      rw [List.mapM_cons, ih (fun q hq => h q (by simp [hq])), vecGet_of h1, ok_bind, vecGet_of h2]
      show Except.ok (i :: _) = _
      rw [List.map_cons, List.getD_eq_getElem?_getD, List.getD_eq_getElem?_getD, h1, Option.getD_some, h2, Option.getD_some]
  have hget : ∀ p ∈ ps, ∀ o i, (MergeSurf.ownersFrom 0 L)[p]? = some o → sub[o]? = some i → sub.getD ((MergeSurf.ownersFrom 0 L).getD p 0) 0 = i := by
    intro p _ o i h1 h2
    rw [List.getD_eq_getElem?_getD, List.getD_eq_getElem?_getD, h1, Option.getD_some, h2, Option.getD_some]
  refine ⟨_, hcomp ps (fun _ h => h), ?_, by simp, ?_⟩
  · refine List.Nodup.map_on ?_ hpos.1
    intro p hp q hq e
    obtain ⟨o, i, h1, h2, _⟩ := hval p hp
    obtain ⟨o', i', h1', h2', _⟩ := hval q hq
    rw [hget p hp o i h1 h2, hget q hq o' i' h1' h2'] at e
    subst e
    obtain ⟨a, a1⟩ := List.getElem?_eq_some_iff.mp h2
    obtain ⟨b, b1⟩ := List.getElem?_eq_some_iff.mp h2'
    have := (List.Nodup.getElem_inj_iff hnd).mp (a1.trans b1.symm)
    subst this
    exact owners_inj L 0 hLn p q o s ((hmem p).mp hp) ((hmem q).mp hq) h1 h1'
  · intro i
    rw [List.mem_map]
    constructor
    · rintro ⟨p, hp, rfl⟩
      obtain ⟨o, i, h1, h2, h3⟩ := hval p hp
      rw [hget p hp o i h1 h2]
      exact ⟨List.mem_of_getElem? h2, h3⟩
    · rintro ⟨hi, hs⟩
      obtain ⟨k, hk, e1⟩ := List.getElem_of_mem hi
      have hk' : sub[k]? = some i := by rw [List.getElem?_eq_getElem hk, e1]
      obtain ⟨p, h3, h4⟩ := (MergeSurf.owners_zip L 0 s k).mpr ⟨surfAt m i, k, by rw [← hL, List.getElem?_map, hk']; rfl, by omega, hs⟩
      have hp := (hmem p).mpr h3
      exact ⟨p, hp, hget p hp k i h4 hk'⟩

/-- The step stops at the first count of two. -/
theorem scan_ok {count : List Nat} {n k : Nat} {c : Nat} (hk : count[k]? = some c) (hc : 2 ≤ c)
    (hb : ∀ j, j < k → ∃ c, count[j]? = some c ∧ c < 2) (hkn : k ≤ n) : ∀ (fuel j : Nat), j ≤ k → k - j < fuel → scan count n fuel j = .ok k
  | 0, j, _, h => by omega
  | fuel + 1, j, hj, h => by
    rw [scan]
    by_cases he : j = k
    · subst he
      rw [vecGet_of hk, ok_bind, if_neg (by omega)]
    · obtain ⟨c', h1, h2⟩ := hb j (by omega)
      rw [vecGet_of h1, ok_bind, if_pos ⟨h2, by omega⟩]
      exact scan_ok hk hc hb hkn fuel (j + 1) (by omega) (by omega)

/-- Without a count of two the step reads past the end. -/
theorem scan_ub {count : List Nat} {n : Nat} (hl : count.length = n + 1) (hb : ∀ c ∈ count, c < 2) :
    ∀ (fuel j : Nat), j ≤ n + 1 → n + 1 - j < fuel → scan count n fuel j = .error .ub
  | 0, j, _, h => by omega
  | fuel + 1, j, hj, h => by
    rw [scan]
    by_cases he : j = n + 1
    · have : vecGet count j = .error .ub := by
        unfold vecGet
        rw [if_neg (by omega), List.getElem?_eq_none (by simp; omega)]
      rw [this]
      rfl
    · have hlt : j < count.length := by omega
      rw [vecGet_of (List.getElem?_eq_getElem hlt), ok_bind, if_pos ⟨hb _ (List.getElem_mem hlt), by omega⟩]
      exact scan_ub hl hb fuel (j + 1) (by omega) (by omega)

theorem two_of_length {l : List Nat} (hn : l.Nodup) {i : Nat} (hi : i ∈ l) : 2 ≤ l.length ↔ ∃ j ∈ l, j ≠ i := by
  constructor
  · intro h
    match l, hn, hi, h with
    | [_], _, _, h => simp at h
    | a :: b :: l, hn, hi, _ =>
      have hab : a ≠ b := by rintro rfl; simp at hn
      by_cases ha : a = i
      · exact ⟨b, by simp, fun hb => hab (ha.trans hb.symm)⟩
      · exact ⟨a, by simp, ha⟩
  · rintro ⟨j, hj, hne⟩
    match l, hi, hj with
    | [a], hi, hj => simp at hi hj; omega
    | _ :: _ :: _, _, _ => simp

/-- The edge at position `i` and another sibling are on surface `s`. -/
def ShareAt (m : Mesh) (sub : List Nat) (i : Nat) (s : Int) : Prop := ∃ j ∈ sub, j ≠ i ∧ s ∈ surfAt m j

section
variable (S : Setting m cells sibs live find) (hnd : ∀ x ∈ m.edges, x.surfind.Nodup)
include S hnd

theorem surfAt_nodup {i : Nat} : (surfAt m i).Nodup := by
  by_cases h : i < m.edges.length
  · rw [surfAt_of h]; exact hnd _ (List.getElem_mem h)
  · unfold surfAt
    rw [List.getElem?_eq_none (by omega)]
    exact List.nodup_nil

/-- With a shared surface the siblings on the first one are found. -/
theorem sameSurf_ok {c : Int} {i : Nat} (hi : i ∈ sibs c) (hsh : ∃ s ∈ surfAt m i, ShareAt m (sibs c) i s) (prev : List Nat) :
    ∃ (k : Nat) (s : Int) (l : List Nat), sameSurf m cells sibs find prev i = .ok (k, l) ∧ (surfAt m i)[k]? = some s ∧ ShareAt m (sibs c) i s ∧
      (∀ (j : Nat) (t : Int), j < k → (surfAt m i)[j]? = some t → ¬ ShareAt m (sibs c) i t) ∧ l.Nodup ∧ ∀ j, j ∈ l ↔ j ∈ sibs c ∧ s ∈ surfAt m j := by
  obtain ⟨x, hx, hxc, _⟩ := ((S.sib c).2 i).mp hi
  have him := S.sib_lt hi
  have hb : ∀ j ∈ sibs c, j < m.edges.length := fun j hj => S.sib_lt hj
  have hcount : ∀ s ∈ surfAt m i, (2 ≤ (find ((sibs c).map (surfAt m)).flatten s).length ↔ ShareAt m (sibs c) i s) := by
    intro s hs
    obtain ⟨l, _, h2, h3, h4⟩ := places (S.sib c).1 (fun j _ => surfAt_nodup S hnd (i := j)) S.find s
    rw [← h3, two_of_length h2 ((h4 i).mpr ⟨hi, hs⟩)]
    constructor
    · rintro ⟨j, hj, hne⟩; exact ⟨j, ((h4 j).mp hj).1, hne, ((h4 j).mp hj).2⟩
    · rintro ⟨j, hj, hne, h5⟩; exact ⟨j, (h4 j).mpr ⟨hj, h5⟩, hne⟩
  classical
  have hex : ∃ k : Nat, ∃ s, (surfAt m i)[k]? = some s ∧ ShareAt m (sibs c) i s := by
    obtain ⟨s, hs, h⟩ := hsh
    obtain ⟨k, hk, e⟩ := List.getElem_of_mem hs
    exact ⟨k, s, by rw [List.getElem?_eq_getElem hk, e], h⟩
  obtain ⟨k, ⟨s, hk, hs⟩, hmin⟩ : ∃ k, (∃ s, (surfAt m i)[k]? = some s ∧ ShareAt m (sibs c) i s) ∧
      ∀ j, j < k → ¬ ∃ s, (surfAt m i)[j]? = some s ∧ ShareAt m (sibs c) i s := ⟨_, Nat.find_spec hex, fun j hj => Nat.find_min hex hj⟩
  have hkl : k < (surfAt m i).length := (List.getElem?_eq_some_iff.mp hk).1
  obtain ⟨l, g1, g2, g3, g4⟩ := places (S.sib c).1 (fun j _ => surfAt_nodup S hnd (i := j)) S.find s
  refine ⟨k, s, l, ?_, hk, hs, fun j t hj ht h => hmin j hj ⟨t, ht, h⟩, g2, g4⟩
  unfold sameSurf
  rw [elemAt_of hx, ok_bind, hxc, surfs_eq hb, ok_bind, eOwners_eq hb, ok_bind, elemAt_of (List.getElem?_eq_getElem him), ok_bind, ← surfAt_of him]
  have hscan : scan (((surfAt m i).map fun s => (find ((sibs c).map (surfAt m)).flatten s).length) ++ [0]) (surfAt m i).length
      ((surfAt m i).length + 3) 0 = .ok k := by
    refine scan_ok (c := (find ((sibs c).map (surfAt m)).flatten s).length) ?_ ((hcount s (List.mem_of_getElem? hk)).mpr hs) ?_ (by omega) _ _ (by omega) (by omega)
    · rw [List.getElem?_append_left (by simpa using hkl), List.getElem?_map, hk]; rfl
    · intro j hj
      have hjl : j < (surfAt m i).length := by omega
      refine ⟨_, by rw [List.getElem?_append_left (by simpa using hjl), List.getElem?_map, List.getElem?_eq_getElem hjl]; rfl, ?_⟩
      by_contra hge
      exact hmin j hj ⟨_, List.getElem?_eq_getElem hjl, (hcount _ (List.getElem_mem hjl)).mp (Nat.not_lt.mp hge)⟩
  rw [hscan, ok_bind, if_pos hkl, vecGet_of hk, ok_bind, g1]
  rfl

/-- Without one the counts are read past the end. -/
theorem sameSurf_ub {c : Int} {i : Nat} (hi : i ∈ sibs c) (hsh : ∀ s ∈ surfAt m i, ¬ ShareAt m (sibs c) i s) (prev : List Nat) :
    sameSurf m cells sibs find prev i = .error .ub := by
  obtain ⟨x, hx, hxc, _⟩ := ((S.sib c).2 i).mp hi
  have him := S.sib_lt hi
  have hb : ∀ j ∈ sibs c, j < m.edges.length := fun j hj => S.sib_lt hj
  unfold sameSurf
  rw [elemAt_of hx, ok_bind, hxc, surfs_eq hb, ok_bind, eOwners_eq hb, ok_bind, elemAt_of (List.getElem?_eq_getElem him), ok_bind, ← surfAt_of him]
  rw [scan_ub (by simp) ?_ _ _ (by omega) (by omega)]
  · rfl
  · intro a ha
    rcases List.mem_append.mp ha with ha | ha
    · obtain ⟨s, hs, rfl⟩ := List.mem_map.mp ha
      by_contra hge
      refine hsh s hs ?_
      obtain ⟨l, _, h2, h3, h4⟩ := places (S.sib c).1 (fun j _ => surfAt_nodup S hnd (i := j)) S.find s
      obtain ⟨j, hj, hne⟩ := (two_of_length h2 ((h4 i).mpr ⟨hi, hs⟩)).mp (by omega)
      exact ⟨j, ((h4 j).mp hj).1, hne, ((h4 j).mp hj).2⟩
    · simp at ha; omega

end

end RSVS.SameSurf
