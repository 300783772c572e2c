import Verif.Lemmas.MergeAll

/-!
# Lemmas for the merge of surfaces: the edits
-/

namespace RSVS.MergeSurf

open RSVS.Spec RSVS.Mesh RSVS.SpawnRemove

variable {m : Mesh} {findE : List Int → Int → List Nat} {findS : List Nat → Nat → List Nat}

/-- One turn of the loop over the surfaces. -/
theorem top_step (hu : (m.surfs.map Surf.index).Nodup) (hF : Finds findE findS) {cells : List (Int × Int)} {sibs : Int → List Nat}
    (hcl : cells.length = m.surfs.length) (hs : ∀ c, AllPos Prod.snd cells c (sibs c)) {done : List Bool} {ro : Nat → Nat} {E : List Edit}
    (h : Top m findE sibs done ro E) {i : Nat} (hi : i < cells.length) :
    ∃ done' ro' E', ((vecGet done i).bind fun d =>
      if !d then
        (elemAt cells i).bind fun x =>
        (if (sibs x.2).length > 1 then mergeGeneral m findE findS done E (sibs x.2) else .ok (done, E)).map fun r => (r.1.set i true, r.2)
      else .ok (done, E)) = .ok (done', E') ∧ Top m findE sibs done' ro' E' ∧ done'[i]? = some true ∧
      ∀ j : Nat, done[j]? = some true → done'[j]? = some true := by
  have him : i < m.surfs.length := hcl ▸ hi
  rcases bool_cases (l := done) (i := i) (by rw [h.dlen]; exact him) with hd | hd
  · exact ⟨done, ro, E, by rw [vecGet_of hd]; rfl, h, hd, fun _ hj => hj⟩
  · have hx : cells[i]? = some cells[i] := List.getElem?_eq_getElem hi
    have hmem : i ∈ sibs cells[i].2 := ((hs _).2 i).mpr ⟨_, hx, rfl⟩
    rw [vecGet_of hd, ok_bind]
    simp only [Bool.not_false, if_true]
    rw [elemAt_of hx, ok_bind]
    generalize cells[i].2 = c at hmem
    have hn : (sibs c).Nodup := (hs c).1
    have hb : ∀ j ∈ sibs c, j < m.surfs.length := by
      intro j hj
      obtain ⟨e, he, _⟩ := ((hs c).2 j).mp hj
      exact hcl ▸ (List.getElem?_eq_some_iff.mp he).1
    have hdis : ∀ c' j, j ∈ sibs c → j ∈ sibs c' → c = c' := by
      intro c' j h1 h2
      obtain ⟨e, he, h3⟩ := ((hs c).2 j).mp h1
      obtain ⟨e', he', h4⟩ := ((hs c').2 j).mp h2
      rw [he] at he'
      rw [← h3, ← h4, Option.some.inj he']
    have hmono : ∀ (D : List Bool), D.length = m.surfs.length → (∀ j : Nat, done[j]? = some true → D[j]? = some true) →
        ∀ j : Nat, done[j]? = some true → (D.set i true)[j]? = some true := by
      intro D hD hmo j hj
      by_cases hij : i = j
      · subst hij; exact List.getElem?_set_self (by rw [hD]; exact him)
      · rw [List.getElem?_set_ne hij]; exact hmo j hj
    by_cases hlen : (sibs c).length > 1
    · rw [if_pos hlen]
      rcases h.cell c with h1 | ⟨h1, h2⟩
      · obtain ⟨D, E', r, g1, g2⟩ := general_fresh hu hF hn hb h.dlen h1 E
        obtain ⟨r', t1, t2⟩ := top_cell hu h hn hb hdis h1 g2
        obtain ⟨r'', t3⟩ := top_mark t1 him hmem hdis t2 (fun p e y hp hy => by
          refine g2.settled p e y hp ?_
          by_cases hiy : i = y
          · subst hiy
            rw [List.getElem?_set_self (by rw [g2.dlen]; exact him)] at hy
            simp at hy
          · rwa [List.getElem?_set_ne hiy] at hy)
        rw [g1]
        refine ⟨_, _, _, rfl, t3, List.getElem?_set_self (by rw [g2.dlen]; exact him), hmono _ g2.dlen ?_⟩
        intro j hj
        rw [g2.out j]
        · exact hj
        · intro hjc; rw [h1 j hjc] at hj; simp at hj
      · obtain ⟨r, t3⟩ := top_mark h him hmem hdis h1 (fun p e y hp hy => by
          refine h2 p e y hp ?_
          by_cases hiy : i = y
          · subst hiy
            rw [List.getElem?_set_self (by rw [h.dlen]; exact him)] at hy
            simp at hy
          · rwa [List.getElem?_set_ne hiy] at hy)
        rw [general_again hF hn hb h.dlen h2 E]
        exact ⟨_, _, _, rfl, t3, List.getElem?_set_self (by rw [h.dlen]; exact him), hmono _ h.dlen fun _ hj => hj⟩
    · rw [if_neg hlen]
      have hone : ∀ y ∈ sibs c, y = i := by
        intro y hy
        obtain ⟨a, ha⟩ := List.length_eq_one_iff.mp (show (sibs c).length = 1 by
          have := List.length_pos_of_mem hmem; omega)
        rw [ha] at hy hmem
        rw [List.mem_singleton.mp hy, List.mem_singleton.mp hmem]
      obtain ⟨r, t3⟩ := top_mark h him hmem hdis
        (fun y hy z hz hyz _ => absurd ((hone y hy).trans (hone z hz).symm) hyz)
        (fun p e y hp hy => by
          rw [hone y hp.sub, List.getElem?_set_self (by rw [h.dlen]; exact him)] at hy
          simp at hy)
      exact ⟨_, _, _, rfl, t3, List.getElem?_set_self (by rw [h.dlen]; exact him), hmono _ h.dlen fun _ hj => hj⟩

/-- All surfaces are done. -/
theorem top_all (hu : (m.surfs.map Surf.index).Nodup) (hF : Finds findE findS) {cells : List (Int × Int)} {sibs : Int → List Nat}
    (hcl : cells.length = m.surfs.length) (hs : ∀ c, AllPos Prod.snd cells c (sibs c)) :
    ∃ E done ro, identifyMergSurf m cells sibs findE findS = .ok E ∧ Top m findE sibs done ro E ∧
      ∀ i, i < m.surfs.length → done[i]? = some true := by
  have hbound : ∀ c, ∀ j ∈ sibs c, j < cells.length := by
    intro c j hj
    obtain ⟨e, he, _⟩ := ((hs c).2 j).mp hj
    exact (List.getElem?_eq_some_iff.mp he).1
  have key : ∀ n, n ≤ cells.length → ∃ E done ro, (List.range n).foldlM (m := Except Fault)
      (fun (a : List Bool × List Edit) (ii : Nat) =>
        (vecGet a.1 ii).bind fun d =>
        if !d then
          (elemAt cells ii).bind fun x =>
          (if (sibs x.2).length > 1 then mergeGeneral m findE findS a.1 a.2 (sibs x.2) else .ok a).map fun r => (r.1.set ii true, r.2)
        else .ok a) (List.replicate cells.length false, []) = .ok (done, E) ∧ Top m findE sibs done ro E ∧
      ∀ i, i < n → done[i]? = some true := by
    intro n
    induction n with
    | zero =>
      intro _
      refine ⟨[], _, fun y => y, rfl, ⟨by simpa using hcl, ?_, ?_, ?_, by simp, by simp⟩, by simp⟩
      · intro c
        left
        intro y hy
        rw [List.getElem?_replicate, if_pos (hbound c y hy)]
      · intro y hy
        rw [List.getElem?_replicate] at hy
        split at hy <;> simp at hy
      · intro y _ hr
        exact absurd rfl hr
    | succ n ih =>
      intro hn
      obtain ⟨E, done, ro, h1, h2, h3⟩ := ih (by omega)
      obtain ⟨done', ro', E', h4, h5, h6, h7⟩ := top_step hu hF hcl hs h2 (show n < cells.length by omega)
      refine ⟨E', done', ro', ?_, h5, ?_⟩
      · rw [List.range_succ, List.foldlM_append, h1]
        show Except.bind (Except.ok (done, E)) _ = _
        rw [ok_bind, List.foldlM_cons, h4]
        rfl
      · intro i hi
        by_cases hin : i = n
        · subst hin; exact h6
        · exact h7 i (h3 i (by omega))
  obtain ⟨E, done, ro, h1, h2, h3⟩ := key _ (le_refl _)
  refine ⟨E, done, ro, ?_, h2, fun i hi => h3 i (by omega)⟩
  unfold identifyMergSurf
  rw [h1]
  rfl

theorem hasSurf_pos {s : Int} (h : HasSurf m s) : ∃ i, i < m.surfs.length ∧ ids m i = s := by
  obtain ⟨x, hx, rfl⟩ := h
  obtain ⟨i, hi, rfl⟩ := List.getElem_of_mem hx
  exact ⟨i, hi, by unfold ids; rw [List.getElem?_eq_getElem hi]; rfl⟩

theorem hasSurf_ids {i : Nat} (h : i < m.surfs.length) : HasSurf m (ids m i) :=
  ⟨m.surfs[i], List.getElem_mem h, by unfold ids; rw [List.getElem?_eq_getElem h]; rfl⟩

theorem surfEdge_ids (hu : (m.surfs.map Surf.index).Nodup) {i : Nat} {e : Int} (h : i < m.surfs.length) :
    SurfEdge m (ids m i) e ↔ e ∈ edgesAt m i := by
  have h1 : edgesAt m i = m.surfs[i].edgeind := by unfold edgesAt; rw [List.getElem?_eq_getElem h]; rfl
  have h2 : ids m i = m.surfs[i].index := by unfold ids; rw [List.getElem?_eq_getElem h]; rfl
  rw [h1, h2]
  constructor
  · rintro ⟨x, hx, h3, h4⟩
    rwa [inj_of_nodup hu hx (List.getElem_mem h) h3] at h4
  · intro h4
    exact ⟨_, List.getElem_mem h, rfl, h4⟩

/-- The edits merge what is joined and nothing else. -/
theorem merges (hu : (m.surfs.map Surf.index).Nodup) (hF : Finds findE findS) {cells : List (Int × Int)} {sibs : Int → List Nat}
    (hc : cells.map Prod.fst = m.surfs.map Surf.index) (hs : ∀ c, AllPos Prod.snd cells c (sibs c)) :
    ∃ E, identifyMergSurf m cells sibs findE findS = .ok E ∧ MergesRight m cells E := by
  have hcl : cells.length = m.surfs.length := by simpa using congrArg List.length hc
  obtain ⟨E, done, ro, h1, h2, h3⟩ := top_all hu hF hcl hs
  refine ⟨E, h1, ?_⟩
  have lt_of : ∀ {y : Nat}, done[y]? = some true → y < m.surfs.length := fun hy => by
    rw [← h2.dlen]; exact (List.getElem?_eq_some_iff.mp hy).1
  have hcell : ∀ {i : Nat} {c : Int}, i < m.surfs.length → ((ids m i, c) ∈ cells ↔ i ∈ sibs c) := by
    intro i c hi
    have hi' : i < cells.length := by omega
    have hid : cells[i].1 = ids m i := by
      have h4 : (cells.map Prod.fst)[i]? = (m.surfs.map Surf.index)[i]? := by rw [hc]
      rw [List.getElem?_map, List.getElem?_map, List.getElem?_eq_getElem hi', List.getElem?_eq_getElem hi] at h4
      unfold ids
      rw [List.getElem?_eq_getElem hi]
      exact Option.some.inj h4
    rw [(hs c).2 i]
    constructor
    · intro hm
      refine ⟨cells[i], List.getElem?_eq_getElem hi', ?_⟩
      have := inj_of_nodup (ix := Prod.fst) (by rw [hc]; exact hu) hm (List.getElem_mem hi') hid.symm
      rw [← this]
    · rintro ⟨e, he, rfl⟩
      rw [List.getElem?_eq_getElem hi'] at he
      rw [← Option.some.inj he, ← hid]
      exact List.getElem_mem hi'
  have hmeet : ∀ {i j : Nat}, i < m.surfs.length → j < m.surfs.length → (Meets m cells (ids m i) (ids m j) ↔ PosMeet m sibs i j) := by
    intro i j hi hj
    unfold Meets PosMeet Sh
    constructor
    · rintro ⟨c, a1, a2, e, a3, a4⟩
      exact ⟨c, (hcell hi).mp a1, (hcell hj).mp a2, e, (surfEdge_ids hu hi).mp a3, (surfEdge_ids hu hj).mp a4⟩
    · rintro ⟨c, a1, a2, e, a3, a4⟩
      exact ⟨c, (hcell hi).mpr a1, (hcell hj).mpr a2, e, (surfEdge_ids hu hi).mpr a3, (surfEdge_ids hu hj).mpr a4⟩
  have hbound : ∀ c, ∀ j ∈ sibs c, j < m.surfs.length := by
    intro c j hj
    obtain ⟨e, he, _⟩ := ((hs c).2 j).mp hj
    have := (List.getElem?_eq_some_iff.mp he).1
    omega
  have hchain : ∀ {i j : Nat}, i < m.surfs.length → Relation.ReflTransGen (PosMeet m sibs) i j → MeetsChain m cells (ids m i) (ids m j) := by
    intro i j hi hij
    induction hij with
    | refl => exact Relation.ReflTransGen.refl
    | tail hab hbc ih =>
      obtain ⟨c, a1, a2, a3⟩ := hbc
      exact ih.tail ((hmeet (hbound c _ a1) (hbound c _ a2)).mpr ⟨c, a1, a2, a3⟩)
  have hsym : ∀ {a b : Int}, MeetsChain m cells a b → MeetsChain m cells b a := by
    intro a b hab
    have hone : ∀ {x y : Int}, Meets m cells x y → Meets m cells y x := by
      rintro x y ⟨c, a1, a2, e, a3, a4⟩
      exact ⟨c, a2, a1, e, a4, a3⟩
    induction hab with
    | refl => exact Relation.ReflTransGen.refl
    | tail _ hbc ih => exact Relation.ReflTransGen.head (hone hbc) ih
  have hro : ∀ {i j : Nat}, PosMeet m sibs i j → ro i = ro j := by
    rintro i j ⟨c, a1, a2, a3⟩
    by_cases hij : i = j
    · rw [hij]
    · rcases h2.cell c with h | ⟨h, _⟩
      · have := h i a1
        rw [h3 i (hbound c i a1)] at this
        simp at this
      · exact (h i a1 j a2 hij a3).2.2
  have hrem : ∀ {y : Nat}, y < m.surfs.length → (Removed E (ids m y) ↔ ro y ≠ y) := by
    intro y hy
    constructor
    · rintro ⟨d, hd, hy'⟩
      obtain ⟨_, _, s, _, a2, _, a4⟩ := h2.edit d hd
      obtain ⟨z, b1, b2, b3, b4⟩ := a4 _ hy'
      have := ids_inj hu hy (lt_of b1) b4
      subst this
      rw [b2]; exact b3.symm
    · intro hr
      obtain ⟨d, hd, _, h4⟩ := h2.gone y (h3 y hy) hr
      exact ⟨d, hd, h4⟩
  have hkept : ∀ {y : Nat} {k : Int}, y < m.surfs.length → (KeptAs E k (ids m y) ↔ k = ids m (ro y)) := by
    intro y k hy
    constructor
    · rintro (⟨d, hd, rfl, hy'⟩ | ⟨rfl, hn⟩)
      · obtain ⟨_, _, s, _, a2, a3, a4⟩ := h2.edit d hd
        obtain ⟨z, b1, b2, b3, b4⟩ := a4 _ hy'
        have := ids_inj hu hy (lt_of b1) b4
        subst this
        rw [a3, b2]
      · have : ro y = y := by
          by_contra hr
          exact hn ((hrem hy).mpr hr)
        rw [this]
    · rintro rfl
      by_cases hr : ro y = y
      · right
        exact ⟨by rw [hr], fun hn => (hrem hy).mp hn hr⟩
      · obtain ⟨d, hd, h4, h5⟩ := h2.gone y (h3 y hy) hr
        exact Or.inl ⟨d, hd, h4, h5⟩
  refine ⟨?_, h2.once, ?_, ?_⟩
  · intro s t h4 h5
    obtain ⟨i, hi, rfl⟩ := hasSurf_pos h4
    obtain ⟨j, hj, rfl⟩ := hasSurf_pos h5
    constructor
    · intro h6
      have : ∀ {b : Int}, MeetsChain m cells (ids m i) b → ∀ j, j < m.surfs.length → b = ids m j → ro i = ro j := by
        intro b hb
        induction hb with
        | refl => intro j hj e; rw [ids_inj hu hi hj e]
        | tail hab hbc ih =>
          intro j hj e
          obtain ⟨c, a1, a2, e', ⟨x, hx, hx1, hx2⟩, a4⟩ := id hbc
          obtain ⟨k, hk, rfl⟩ := hasSurf_pos (m := m) ⟨x, hx, hx1⟩
          rw [ih k hk rfl]
          subst e
          exact hro ((hmeet hk hj).mp hbc)
      exact ⟨_, (hkept hi).mpr rfl, (hkept hj).mpr (by rw [this h6 j hj rfl])⟩
    · rintro ⟨k, a1, a2⟩
      have h6 : ids m (ro i) = ids m (ro j) := ((hkept hi).mp a1).symm.trans ((hkept hj).mp a2)
      obtain ⟨b1, _, b3⟩ := h2.root i (h3 i hi)
      obtain ⟨c1, _, c3⟩ := h2.root j (h3 j hj)
      have h7 := hsym (hchain (lt_of b1) b3)
      rw [h6] at h7
      exact h7.trans (hchain (lt_of c1) c3)
  · intro d hd
    obtain ⟨_, _, s, a1, a2, a3, _⟩ := h2.edit d hd
    rw [a3]
    exact ⟨hasSurf_ids (lt_of a1), fun h => (hrem (lt_of a1)).mp h a2⟩
  · intro d hd
    obtain ⟨b1, b2, s, a1, a2, a3, a4⟩ := h2.edit d hd
    refine ⟨b1, b2, ?_⟩
    intro t ht
    obtain ⟨y, c1, _, _, rfl⟩ := a4 t ht
    exact hasSurf_ids (lt_of c1)

end RSVS.MergeSurf
