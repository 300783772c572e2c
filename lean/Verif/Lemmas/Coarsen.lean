import Verif.Model.Refine
import Verif.Spec.Coarsen
import Verif.Lemmas.MeshCrop
import Verif.Lemmas.MeshSwitch
import Verif.Lemmas.MeshOrder

/-!
# Lemmas about merging cells
-/

namespace RSVS.Refine

open RSVS.Mesh RSVS.Spec

/-! ### One cell -/

section Generic

variable {α β : Type} {ixA : α → Int} {ixB : β → Int} {fld : β → List Int} {upd : β → β}
  {setA : α → List Int → α} {gA : α → List Int}

/-- The common form of the loops of `SwitchIndex` for surfaces and volumes. -/
def mergeStep (ixB : β → Int) (fld : β → List Int) (upd : β → β) (setA : α → List Int → α)
    (gA : α → List Int) (old newSub : Int) (s : List α × List β) (sub : Int) : Res (List α × List β) := do
  let x ← elemAt s.2 sub
  if (fld x).contains old then do
    let B ← modAt s.2 sub upd
    let A ← modAt s.1 newSub (fun a => setA a (gA a ++ List.replicate ((fld x).count old) (ixB x)))
    pure (A, B)
  else pure s

theorem switchVoluStep_eq (old new newSub : Int) :
    switchVoluStep old new newSub = mergeStep Surf.index Surf.voluind
      (fun x => { x with voluind := replaceAll old new x.voluind })
      (fun (c : Volu) l => { c with surfind := l }) Volu.surfind old newSub := rfl

theorem switchSurfEdgeStep_eq (old new newSub : Int) :
    switchSurfEdgeStep old new newSub = mergeStep Edge.index Edge.surfind
      (fun x => { x with surfind := replaceAll old new x.surfind })
      (fun (c : Surf) l => { c with edgeind := l }) Surf.edgeind old newSub := rfl

theorem merge_fold {old new : Int} {A0 : List α} {B0 : List β}
    (hA : ∀ a l, ixA (setA a l) = ixA a) (hg : ∀ a l, gA (setA a l) = l)
    (hss : ∀ a l l', setA (setA a l) l' = setA a l') (hsg : ∀ a, setA a (gA a) = a)
    (hB : ∀ b, ixB (upd b) = ixB b) (hno : ∀ b, old ∉ fld b → upd b = b) (huu : ∀ b, upd (upd b) = upd b) :
    ∀ (ks : List Int) (A : List α) (B : List β), (A.map ixA).Nodup → A.map ixA = A0.map ixA →
      (B.map ixB).Nodup → B.map ixB = B0.map ixB → (∀ k ∈ ks, ∃ b ∈ B, ixB b = k) →
      (∃ a ∈ A, ixA a = new) →
      ∃ extra, (posList ixB B0 ks).foldlM (m := Except Fault)
          (mergeStep ixB fld upd setA gA old (posOf ixA A0 new)) (A, B) =
          .ok (A.map (fun a => if ixA a = new then setA a (gA a ++ extra) else a),
            B.map (fun b => if ixB b ∈ ks then upd b else b)) ∧
        ∀ x, x ∈ extra ↔ x ∈ ks ∧ ∃ b ∈ B, ixB b = x ∧ old ∈ fld b := by
  intro ks
  induction ks with
  | nil =>
    intro A B _ _ _ _ _ _
    refine ⟨[], ?_, by simp⟩
    simp [posList, hsg]
    rfl
  | cons k ks ih =>
    intro A B hAn hA0 hBn hB0 hk hnew
    obtain ⟨b, hb1, hbB, hbk⟩ := elemAt_posOf_ok (ix := ixB) (hk k (by simp))
    rw [posOf_congr hB0] at hb1
    have hk' : ∀ k' ∈ ks, ∃ b ∈ B, ixB b = k' := fun k' h => hk k' (by simp [h])
    simp only [posList, List.map_cons, List.foldlM_cons]
    by_cases hc : old ∈ fld b
    · have hstep : mergeStep ixB fld upd setA gA old (posOf ixA A0 new) (A, B) (posOf ixB B0 k) =
          .ok (A.map (fun a => if ixA a = new then setA a (gA a ++ List.replicate ((fld b).count old) (ixB b)) else a),
            B.map (fun b => if ixB b = k then upd b else b)) := by
        unfold mergeStep
        simp only [hb1]
        show (if (fld b).contains old = true then _ else _) = _
        rw [if_pos (by simpa using hc)]
        rw [← posOf_congr hB0, modAt_posOf hBn (hk k (by simp))]
        show (modAt A _ _ >>= fun A => _) = _
        rw [← posOf_congr hA0, modAt_posOf hAn hnew]
        rfl
      have hAm := map_if_index (ix := ixA) (l := A)
        (f := fun a => setA a (gA a ++ List.replicate ((fld b).count old) (ixB b))) (fun a => hA a _)
        (fun a => ixA a = new)
      have hBm := map_if_index (ix := ixB) (l := B) (f := upd) hB (fun b => ixB b = k)
      obtain ⟨extra, h1, h2⟩ := ih _ _ (by rw [hAm]; exact hAn) (by rw [hAm, hA0]) (by rw [hBm]; exact hBn)
        (by rw [hBm, hB0])
        (by
          intro k' h
          obtain ⟨b', hb', hbk'⟩ := hk' k' h
          refine ⟨_, List.mem_map.mpr ⟨b', hb', rfl⟩, ?_⟩
          split
          · rw [hB, hbk']
          · exact hbk')
        (by
          obtain ⟨a, ha, han⟩ := hnew
          exact ⟨_, List.mem_map.mpr ⟨a, ha, rfl⟩, by rw [if_pos han, hA, han]⟩)
      refine ⟨List.replicate ((fld b).count old) (ixB b) ++ extra, ?_, ?_⟩
      · rw [hstep]
        show List.foldlM _ _ (posList ixB B0 ks) = _
        rw [h1, List.map_map, List.map_map]
        congr 2
        · apply List.map_congr_left
          intro a _
          simp only [Function.comp]
          by_cases ha : ixA a = new
          · simp [ha, hA, hg, hss]
          · simp [ha]
        · apply List.map_congr_left
          intro b' _
          simp only [Function.comp]
          by_cases h3 : ixB b' = k
          · subst h3
            by_cases h4 : ixB b' ∈ ks <;> simp [hB, h4, huu]
          · by_cases h4 : ixB b' ∈ ks <;> simp [h3, h4]
      · intro x
        rw [List.mem_append, h2, List.mem_replicate]
        constructor
        · rintro (⟨_, rfl⟩ | ⟨hx, b', hb', hbx, ho⟩)
          · exact ⟨by simp [hbk], b, hbB, rfl, hc⟩
          · obtain ⟨b0, hb0, rfl⟩ := List.mem_map.mp hb'
            refine ⟨by simp [hx], b0, hb0, ?_, ?_⟩
            · split at hbx
              · rw [hB] at hbx; exact hbx
              · exact hbx
            · by_contra hcon
              split at ho
              · rw [hno b0 hcon] at ho; exact hcon ho
              · exact hcon ho
        · rintro ⟨hx, b', hb', rfl, ho⟩
          by_cases h3 : ixB b' = k
          · left
            have : b' = b := inj_of_nodup hBn hb' hbB (h3.trans hbk.symm)
            subst this
            exact ⟨(List.count_pos_iff.mpr ho).ne', rfl⟩
          · right
            refine ⟨?_, _, List.mem_map.mpr ⟨b', hb', rfl⟩, ?_, ?_⟩
            · rcases List.mem_cons.mp hx with h | h
              · exact absurd h h3
              · exact h
            · rw [if_neg h3]
            · rw [if_neg h3]; exact ho
    · have hstep : mergeStep ixB fld upd setA gA old (posOf ixA A0 new) (A, B) (posOf ixB B0 k) = .ok (A, B) := by
        unfold mergeStep
        simp only [hb1]
        show (if (fld b).contains old = true then _ else _) = _
        rw [if_neg (by simpa using hc)]
        rfl
      obtain ⟨extra, h1, h2⟩ := ih A B hAn hA0 hBn hB0 hk' hnew
      refine ⟨extra, ?_, ?_⟩
      · rw [hstep]
        show List.foldlM _ _ (posList ixB B0 ks) = _
        rw [h1]
        congr 2
        apply List.map_congr_left
        intro b' hb'
        by_cases h3 : ixB b' = k
        · have : b' = b := inj_of_nodup hBn hb' hbB (h3.trans hbk.symm)
          subst this
          simp [hno b' hc]
        · by_cases h4 : ixB b' ∈ ks <;> simp [h3, h4]
      · intro x
        rw [h2]
        constructor
        · rintro ⟨hx, h⟩; exact ⟨by simp [hx], h⟩
        · rintro ⟨hx, b', hb', rfl, ho⟩
          refine ⟨?_, b', hb', rfl, ho⟩
          rcases List.mem_cons.mp hx with h | h
          · have : b' = b := inj_of_nodup hBn hb' hbB (h.trans hbk.symm)
            subst this
            exact absurd ho hc
          · exact h

end Generic

theorem replaceAll_eq (old new : Int) (l : List Int) :
    replaceAll old new l = l.map fun x => if x = old then new else x := by
  induction l with
  | nil => rfl
  | cons x l ih => simp [replaceAll, ih]

theorem replaceAll_no {old new : Int} {l : List Int} (h : old ∉ l) : replaceAll old new l = l := by
  rw [replaceAll_eq]
  conv_rhs => rw [← List.map_id l]
  apply List.map_congr_left
  intro x hx
  rw [if_neg (by rintro rfl; exact h hx)]
  rfl

theorem replaceAll_twice (old new : Int) (l : List Int) :
    replaceAll old new (replaceAll old new l) = replaceAll old new l := by
  by_cases h : old = new
  · subst h
    rw [replaceAll_eq, replaceAll_eq, List.map_map]
    apply List.map_congr_left
    intro x _
    simp only [Function.comp]
    split <;> simp_all
  · apply replaceAll_no
    rw [mem_replaceAll]
    rintro (⟨_, h1⟩ | ⟨h1, _⟩)
    · exact h1 rfl
    · exact h h1

/-- What `SwitchIndex` of a volume does when the volume lists all surfaces which list it. -/
theorem switchVolu_eq {m : Mesh} {old new : Int} {ov : Volu} (hs : (m.surfs.map Surf.index).Nodup)
    (hv : (m.volus.map Volu.index).Nodup) (hov : ov ∈ m.volus) (hoi : ov.index = old)
    (hk : ∀ k ∈ ov.surfind, ∃ s ∈ m.surfs, s.index = k) (hnew : ∃ c ∈ m.volus, c.index = new)
    (hinc : ∀ s ∈ m.surfs, old ∈ s.voluind → s.index ∈ ov.surfind) :
    ∃ extra, m.switchVolu old new = .ok { m with
        surfs := m.surfs.map (fun s => { s with voluind := replaceAll old new s.voluind })
        volus := m.volus.map (fun c => if c.index = new then { c with surfind := c.surfind ++ extra } else c) } ∧
      ∀ x, x ∈ extra ↔ ∃ s ∈ m.surfs, s.index = x ∧ old ∈ s.voluind := by
  obtain ⟨ov', h1, h2, h3⟩ := elemAt_posOf_ok (ix := Volu.index) (l := m.volus) ⟨ov, hov, hoi⟩
  have : ov' = ov := inj_of_nodup hv h2 hov (h3.trans hoi.symm)
  subst this
  obtain ⟨extra, h4, h5⟩ := merge_fold (ixA := Volu.index) (ixB := Surf.index) (fld := Surf.voluind)
    (upd := fun x => { x with voluind := replaceAll old new x.voluind })
    (setA := fun (c : Volu) l => { c with surfind := l }) (gA := Volu.surfind) (old := old) (new := new)
    (A0 := m.volus) (B0 := m.surfs) (fun _ _ => rfl) (fun _ _ => rfl) (fun _ _ _ => rfl) (fun _ => rfl)
    (fun _ => rfl) (fun b hb => by simp only [replaceAll_no hb]) (fun b => by simp only [replaceAll_twice])
    ov'.surfind m.volus m.surfs hv rfl hs rfl hk hnew
  refine ⟨extra, ?_, ?_⟩
  · unfold switchVolu
    simp only [h1]
    show (List.foldlM (m := Except Fault) _ _ _ >>= fun _ => _) = _
    rw [switchVoluStep_eq, h4]
    show Except.ok _ = Except.ok _
    congr 2
    apply List.map_congr_left
    intro s hsm
    split
    · rfl
    · rename_i hn
      rw [replaceAll_no (fun h => hn (hinc s hsm h))]
  · intro x
    rw [h5]
    constructor
    · rintro ⟨_, h⟩; exact h
    · rintro ⟨s, hsm, rfl, ho⟩; exact ⟨hinc s hsm ho, s, hsm, rfl, ho⟩

/-- What `SwitchIndex` of a surface does in a mesh without volumes when the surface lists all edges which
list it. -/
theorem switchSurf_eq {m : Mesh} {old new : Int} {os : Surf} (he : (m.edges.map Edge.index).Nodup)
    (hs : (m.surfs.map Surf.index).Nodup) (hflat : m.volus = []) (hos : os ∈ m.surfs) (hoi : os.index = old)
    (hk : ∀ k ∈ os.edgeind, ∃ e ∈ m.edges, e.index = k) (hnew : ∃ c ∈ m.surfs, c.index = new)
    (hinc : ∀ e ∈ m.edges, old ∈ e.surfind → e.index ∈ os.edgeind) :
    ∃ extra, m.switchSurf old new = .ok { m with
        edges := m.edges.map (fun e => { e with surfind := replaceAll old new e.surfind })
        surfs := m.surfs.map (fun c => if c.index = new then
          { c with edgeind := c.edgeind ++ extra, isordered := false } else c) } ∧
      ∀ x, x ∈ extra ↔ ∃ e ∈ m.edges, e.index = x ∧ old ∈ e.surfind := by
  obtain ⟨os', h1, h2, h3⟩ := elemAt_posOf_ok (ix := Surf.index) (l := m.surfs) ⟨os, hos, hoi⟩
  have : os' = os := inj_of_nodup hs h2 hos (h3.trans hoi.symm)
  subst this
  obtain ⟨extra, h4, h5⟩ := merge_fold (ixA := Surf.index) (ixB := Edge.index) (fld := Edge.surfind)
    (upd := fun x => { x with surfind := replaceAll old new x.surfind })
    (setA := fun (c : Surf) l => { c with edgeind := l }) (gA := Surf.edgeind) (old := old) (new := new)
    (A0 := m.surfs) (B0 := m.edges) (fun _ _ => rfl) (fun _ _ => rfl) (fun _ _ _ => rfl) (fun _ => rfl)
    (fun _ => rfl) (fun b hb => by simp only [replaceAll_no hb]) (fun b => by simp only [replaceAll_twice])
    os'.edgeind m.surfs m.edges hs rfl he rfl hk hnew
  refine ⟨extra, ?_, ?_⟩
  · unfold switchSurf
    simp only [h1]
    show (List.foldlM (m := Except Fault) _ _ _ >>= fun _ => _) = _
    rw [switchSurfEdgeStep_eq, h4]
    have hm1 := map_if_index (ix := Surf.index) (l := m.surfs)
      (f := fun a => { a with edgeind := a.edgeind ++ extra }) (fun _ => rfl) (fun a => a.index = new)
    show (elemAt (m.surfs.map fun a => if a.index = new then { a with edgeind := a.edgeind ++ extra } else a) _ >>= fun os => _) = _
    obtain ⟨o2, g1, g2, g3⟩ := elemAt_posOf_ok (ix := Surf.index)
      (l := m.surfs.map fun a => if a.index = new then { a with edgeind := a.edgeind ++ extra } else a) (k := old) (by
        have : old ∈ (m.surfs.map fun a => if a.index = new then { a with edgeind := a.edgeind ++ extra } else a).map Surf.index := by
          rw [hm1]; exact List.mem_map.mpr ⟨os', hos, hoi⟩
        obtain ⟨x, hx, hxi⟩ := List.mem_map.mp this
        exact ⟨x, hx, hxi⟩)
    rw [g1]
    show (List.foldlM (m := Except Fault) _ _ (posList Volu.index m.volus o2.voluind) >>= fun _ => _) = _
    have hv : ∀ (l : List Int) (st : List Surf × List Volu),
        (posList Volu.index m.volus l).foldlM (m := Except Fault) (switchSurfVoluStep old new (posOf Surf.index m.surfs new)) st = .ok st := by
      intro l
      induction l with
      | nil => intro st; rfl
      | cons k l ih =>
        intro st
        simp only [posList, List.map_cons, List.foldlM_cons]
        have : posOf Volu.index m.volus k = -1 := by rw [hflat]; rfl
        have hst : switchSurfVoluStep old new (posOf Surf.index m.surfs new) st (posOf Volu.index m.volus k) = .ok st := by
          unfold switchSurfVoluStep
          rw [this]
          rfl
        rw [hst]
        exact ih st
    rw [hv]
    show (modAt _ _ _ >>= fun _ => _) = _
    rw [← posOf_congr hm1, modAt_posOf (by rw [hm1]; exact hs) (by
      have : new ∈ (m.surfs.map fun a => if a.index = new then { a with edgeind := a.edgeind ++ extra } else a).map Surf.index := by
        rw [hm1]; obtain ⟨c, hc, hci⟩ := hnew; exact List.mem_map.mpr ⟨c, hc, hci⟩
      obtain ⟨x, hx, hxi⟩ := List.mem_map.mp this
      exact ⟨x, hx, hxi⟩)]
    show Except.ok _ = Except.ok _
    congr 2
    · apply List.map_congr_left
      intro e hem
      split
      · rfl
      · rename_i hn
        rw [replaceAll_no (fun h => hn (hinc e hem h))]
    · rw [List.map_map]
      apply List.map_congr_left
      intro c _
      simp only [Function.comp]
      by_cases hc : c.index = new <;> simp [hc]
  · intro x
    rw [h5]
    constructor
    · rintro ⟨_, h⟩; exact h
    · rintro ⟨s, hsm, rfl, ho⟩; exact ⟨hinc s hsm ho, s, hsm, rfl, ho⟩

/-! ### All cells -/

/-- The image of an index when the cells of `done` were switched. -/
def partMap (φ : Int → Int) (done : List Int) (x : Int) : Int := if x ∈ done then φ x else x

theorem partMap_in {φ : Int → Int} {done : List Int} {x : Int} (h : x ∈ done) : partMap φ done x = φ x :=
  if_pos h

theorem partMap_out {φ : Int → Int} {done : List Int} {x : Int} (h : x ∉ done) : partMap φ done x = x :=
  if_neg h

theorem partMap_step {φ : Int → Int} {done : List Int} {c : Int}
    (hφ : ∀ x ∈ done, φ (φ x) = φ x) (l : List Int) :
    replaceAll c (φ c) (l.map (partMap φ done)) = l.map (partMap φ (c :: done)) := by
  rw [replaceAll_eq, List.map_map]
  apply List.map_congr_left
  intro x _
  simp only [Function.comp]
  by_cases hx : x ∈ done
  · rw [partMap_in hx, partMap_in (List.mem_cons_of_mem c hx)]
    split
    · rename_i h; rw [← h, hφ x hx]
    · rfl
  · rw [partMap_out hx]
    by_cases hc : x = c
    · subst hc; rw [if_pos rfl, partMap_in (by simp)]
    · rw [if_neg hc, partMap_out (by simp [hc, hx])]

/-- Volumes after some switches. -/
def addVolu (E : Int → List Int) (c : Volu) : Volu := { c with surfind := c.surfind ++ E c.index }

/-- Surfaces after some switches of volumes. -/
def renVolu (f : Int → Int) (s : Surf) : Surf := { s with voluind := s.voluind.map f }

theorem switchVolus_loop {m : Mesh} {φ : Int → Int} (hm : Sound m)
    (hφ : ∀ c, HasVolu m c → HasVolu m (φ c) ∧ φ (φ c) = φ c) :
    ∀ (todo done : List Int) (E : Int → List Int), (∀ c ∈ todo, HasVolu m c) → (∀ c ∈ done, HasVolu m c) →
      (∀ i, ∀ x ∈ E i, ∃ s ∈ m.surfs, s.index = x ∧ ∃ c ∈ s.voluind, HasVolu m c ∧ φ c = i) →
      (∀ c ∈ done, ∀ s ∈ m.surfs, c ∈ s.voluind → s.index ∈ E (φ c)) →
      ∃ E' : Int → List Int,
        (todo.map fun c => (c, φ c)).foldlM (m := Except Fault) (fun m p => m.switchVolu p.1 p.2)
          { m with surfs := m.surfs.map (renVolu (partMap φ done)), volus := m.volus.map (addVolu E) } =
          .ok { m with surfs := m.surfs.map (renVolu (partMap φ (todo.reverse ++ done))),
                       volus := m.volus.map (addVolu E') } ∧
        (∀ i, ∀ x ∈ E' i, ∃ s ∈ m.surfs, s.index = x ∧ ∃ c ∈ s.voluind, HasVolu m c ∧ φ c = i) ∧
        (∀ c ∈ todo.reverse ++ done, ∀ s ∈ m.surfs, c ∈ s.voluind → s.index ∈ E' (φ c))
  | [], done, E, _, _, h1, h2 => ⟨E, rfl, h1, by simpa using h2⟩
  | c :: todo, done, E, ht, hd, h1, h2 => by
    obtain ⟨ov, hov, hoi⟩ := ht c (by simp)
    have hix : (m.volus.map (addVolu E)).map Volu.index = m.volus.map Volu.index := by
      rw [List.map_map]; rfl
    have hixs : (m.surfs.map (renVolu (partMap φ done))).map Surf.index = m.surfs.map Surf.index := by
      rw [List.map_map]; rfl
    obtain ⟨extra, h3, h4⟩ := switchVolu_eq (old := c) (new := φ c)
      (m := { m with surfs := m.surfs.map (renVolu (partMap φ done)), volus := m.volus.map (addVolu E) })
      (ov := addVolu E ov) (by rw [hixs]; exact hm.unique.surfs) (by rw [hix]; exact hm.unique.volus)
      (List.mem_map.mpr ⟨ov, hov, rfl⟩) hoi
      (by
        intro k hk
        have : HasSurf m k := by
          rcases List.mem_append.mp hk with hk | hk
          · have h0 : VoluSurf m c k := ⟨ov, hov, hoi, hk⟩
            exact hm.noDangling.voluSurf c k h0 (by rintro rfl; exact hm.zeroOutside.voluSurf _ h0)
          · obtain ⟨s, hs, hsx, _⟩ := h1 _ _ hk
            exact ⟨s, hs, hsx⟩
        obtain ⟨s, hs, hsk⟩ := this
        exact ⟨_, List.mem_map.mpr ⟨s, hs, rfl⟩, hsk⟩)
      (by
        obtain ⟨o, ho, hoi⟩ := (hφ c (ht c (by simp))).1
        exact ⟨_, List.mem_map.mpr ⟨o, ho, rfl⟩, hoi⟩)
      (by
        intro s' hs' hc'
        obtain ⟨s, hs, rfl⟩ := List.mem_map.mp hs'
        obtain ⟨x, hx, hxc⟩ := List.mem_map.mp hc'
        simp only [partMap] at hxc
        split at hxc
        · rename_i hxd
          have := h2 x hxd s hs hx
          rw [hxc] at this
          refine List.mem_append.mpr (Or.inr ?_)
          rw [hoi]; exact this
        · subst hxc
          have := (hm.sym.surfVolu s.index x ⟨s, hs, rfl⟩ ⟨ov, hov, hoi⟩).mp ⟨s, hs, rfl, hx⟩
          obtain ⟨ov', hov', hoi', hin⟩ := this
          rw [inj_of_nodup hm.unique.volus hov' hov (hoi'.trans hoi.symm)] at hin
          exact List.mem_append.mpr (Or.inl hin))
    let E1 : Int → List Int := fun i => if i = φ c then E i ++ extra else E i
    have hstate : ({ m with
        surfs := (m.surfs.map (renVolu (partMap φ done))).map (fun s => { s with voluind := replaceAll c (φ c) s.voluind })
        volus := (m.volus.map (addVolu E)).map (fun d => if d.index = φ c then { d with surfind := d.surfind ++ extra } else d) } : Mesh) =
        { m with surfs := m.surfs.map (renVolu (partMap φ (c :: done))), volus := m.volus.map (addVolu E1) } := by
      congr 1
      · rw [List.map_map]
        apply List.map_congr_left
        intro s _
        simp only [Function.comp, renVolu]
        rw [partMap_step (fun x hx => (hφ x (hd x hx)).2)]
      · rw [List.map_map]
        apply List.map_congr_left
        intro d _
        simp only [Function.comp, addVolu, E1]
        by_cases hdc : d.index = φ c
        · simp [hdc]
        · simp [hdc]
    obtain ⟨E', h5, h6, h7⟩ := switchVolus_loop hm hφ todo (c :: done) E1 (fun d hd => ht d (by simp [hd]))
      (by
        intro d hdd
        rcases List.mem_cons.mp hdd with e | h
        · rw [e]; exact ht c (by simp)
        · exact hd d h)
      (by
        intro i x hx
        simp only [E1] at hx
        have hold : x ∈ E i → _ := h1 i x
        split at hx
        · rename_i hi
          rcases List.mem_append.mp hx with hx | hx
          · exact hold hx
          · obtain ⟨s', hs', hsx, hc'⟩ := (h4 x).mp hx
            obtain ⟨s, hs, rfl⟩ := List.mem_map.mp hs'
            obtain ⟨y, hy, hyc⟩ := List.mem_map.mp hc'
            refine ⟨s, hs, hsx, y, hy, ?_⟩
            simp only [partMap] at hyc
            split at hyc
            · rename_i hyd
              exact ⟨hd y hyd, by rw [hi, ← hyc, (hφ y (hd y hyd)).2]⟩
            · subst hyc; exact ⟨ht y (by simp), hi.symm⟩
        · exact hold hx)
      (by
        intro d hdd s hs hds
        simp only [E1]
        by_cases hdd' : d ∈ done
        · have := h2 d hdd' s hs hds
          split
          · exact List.mem_append.mpr (Or.inl this)
          · exact this
        · rcases List.mem_cons.mp hdd with e | h
          · subst e
            rw [if_pos rfl]
            refine List.mem_append.mpr (Or.inr ((h4 _).mpr ⟨_, List.mem_map.mpr ⟨s, hs, rfl⟩, rfl, ?_⟩))
            exact List.mem_map.mpr ⟨d, hds, by simp [partMap, hdd']⟩
          · exact absurd h hdd')
    refine ⟨E', ?_, h6, ?_⟩
    · simp only [List.map_cons, List.foldlM_cons]
      rw [h3]
      show List.foldlM _ _ _ = _
      simp only
      rw [hstate, h5]
      simp
    · simpa using h7

/-- Surfaces after some switches: more edges. -/
def addEdges (E : Int → List Int) (o : Int → Bool) (s : Surf) : Surf :=
  { s with edgeind := s.edgeind ++ E s.index, isordered := s.isordered && o s.index }

/-- Edges after some switches of surfaces. -/
def renSurf (f : Int → Int) (e : Edge) : Edge := { e with surfind := e.surfind.map f }

theorem switchSurfs_loop {m : Mesh} {φ : Int → Int} (hm : Sound m) (hflat : m.volus = [])
    (hφ : ∀ c, HasSurf m c → HasSurf m (φ c) ∧ φ (φ c) = φ c) :
    ∀ (todo done : List Int) (E : Int → List Int) (o : Int → Bool), (∀ c ∈ todo, HasSurf m c) →
      (∀ c ∈ done, HasSurf m c) →
      (∀ i, ∀ x ∈ E i, ∃ e ∈ m.edges, e.index = x ∧ ∃ c ∈ e.surfind, HasSurf m c ∧ φ c = i) →
      (∀ c ∈ done, ∀ e ∈ m.edges, c ∈ e.surfind → e.index ∈ E (φ c)) →
      ∃ (E' : Int → List Int) (o' : Int → Bool),
        (todo.map fun c => (c, φ c)).foldlM (m := Except Fault) (fun m p => m.switchSurf p.1 p.2)
          { m with edges := m.edges.map (renSurf (partMap φ done)), surfs := m.surfs.map (addEdges E o) } =
          .ok { m with edges := m.edges.map (renSurf (partMap φ (todo.reverse ++ done))),
                       surfs := m.surfs.map (addEdges E' o') } ∧
        (∀ i, ∀ x ∈ E' i, ∃ e ∈ m.edges, e.index = x ∧ ∃ c ∈ e.surfind, HasSurf m c ∧ φ c = i) ∧
        (∀ c ∈ todo.reverse ++ done, ∀ e ∈ m.edges, c ∈ e.surfind → e.index ∈ E' (φ c))
  | [], done, E, o, _, _, h1, h2 => ⟨E, o, rfl, h1, by simpa using h2⟩
  | c :: todo, done, E, o, ht, hd, h1, h2 => by
    obtain ⟨ov, hov, hoi⟩ := ht c (by simp)
    have hix : (m.surfs.map (addEdges E o)).map Surf.index = m.surfs.map Surf.index := by
      rw [List.map_map]; rfl
    have hixs : (m.edges.map (renSurf (partMap φ done))).map Edge.index = m.edges.map Edge.index := by
      rw [List.map_map]; rfl
    obtain ⟨extra, h3, h4⟩ := switchSurf_eq (old := c) (new := φ c)
      (m := { m with edges := m.edges.map (renSurf (partMap φ done)), surfs := m.surfs.map (addEdges E o) })
      (os := addEdges E o ov) (by rw [hixs]; exact hm.unique.edges) (by rw [hix]; exact hm.unique.surfs) hflat
      (List.mem_map.mpr ⟨ov, hov, rfl⟩) hoi
      (by
        intro k hk
        have : HasEdge m k := by
          rcases List.mem_append.mp hk with hk | hk
          · exact hm.noDangling.surfEdge c k ⟨ov, hov, hoi, hk⟩
          · obtain ⟨s, hs, hsx, _⟩ := h1 _ _ hk
            exact ⟨s, hs, hsx⟩
        obtain ⟨s, hs, hsk⟩ := this
        exact ⟨_, List.mem_map.mpr ⟨s, hs, rfl⟩, hsk⟩)
      (by
        obtain ⟨o, ho, hoi⟩ := (hφ c (ht c (by simp))).1
        exact ⟨_, List.mem_map.mpr ⟨o, ho, rfl⟩, hoi⟩)
      (by
        intro s' hs' hc'
        obtain ⟨s, hs, rfl⟩ := List.mem_map.mp hs'
        obtain ⟨x, hx, hxc⟩ := List.mem_map.mp hc'
        simp only [partMap] at hxc
        split at hxc
        · rename_i hxd
          have := h2 x hxd s hs hx
          rw [hxc] at this
          refine List.mem_append.mpr (Or.inr ?_)
          rw [hoi]; exact this
        · subst hxc
          have := (hm.sym.edgeSurf s.index x ⟨s, hs, rfl⟩ ⟨ov, hov, hoi⟩).mp ⟨s, hs, rfl, hx⟩
          obtain ⟨ov', hov', hoi', hin⟩ := this
          rw [inj_of_nodup hm.unique.surfs hov' hov (hoi'.trans hoi.symm)] at hin
          exact List.mem_append.mpr (Or.inl hin))
    let E1 : Int → List Int := fun i => if i = φ c then E i ++ extra else E i
    let o1 : Int → Bool := fun i => if i = φ c then false else o i
    have hstate : ({ m with
        edges := (m.edges.map (renSurf (partMap φ done))).map (fun s => { s with surfind := replaceAll c (φ c) s.surfind })
        surfs := (m.surfs.map (addEdges E o)).map (fun d => if d.index = φ c then
          { d with edgeind := d.edgeind ++ extra, isordered := false } else d) } : Mesh) =
        { m with edges := m.edges.map (renSurf (partMap φ (c :: done))), surfs := m.surfs.map (addEdges E1 o1) } := by
      congr 1
      · rw [List.map_map]
        apply List.map_congr_left
        intro s _
        simp only [Function.comp, renSurf]
        rw [partMap_step (fun x hx => (hφ x (hd x hx)).2)]
      · rw [List.map_map]
        apply List.map_congr_left
        intro d _
        simp only [Function.comp, addEdges, E1, o1]
        by_cases hdc : d.index = φ c
        · simp [hdc]
        · simp [hdc]
    obtain ⟨E', o', h5, h6, h7⟩ := switchSurfs_loop hm hflat hφ todo (c :: done) E1 o1 (fun d hd => ht d (by simp [hd]))
      (by
        intro d hdd
        rcases List.mem_cons.mp hdd with e | h
        · rw [e]; exact ht c (by simp)
        · exact hd d h)
      (by
        intro i x hx
        simp only [E1] at hx
        have hold : x ∈ E i → _ := h1 i x
        split at hx
        · rename_i hi
          rcases List.mem_append.mp hx with hx | hx
          · exact hold hx
          · obtain ⟨s', hs', hsx, hc'⟩ := (h4 x).mp hx
            obtain ⟨s, hs, rfl⟩ := List.mem_map.mp hs'
            obtain ⟨y, hy, hyc⟩ := List.mem_map.mp hc'
            refine ⟨s, hs, hsx, y, hy, ?_⟩
            simp only [partMap] at hyc
            split at hyc
            · rename_i hyd
              exact ⟨hd y hyd, by rw [hi, ← hyc, (hφ y (hd y hyd)).2]⟩
            · subst hyc; exact ⟨ht y (by simp), hi.symm⟩
        · exact hold hx)
      (by
        intro d hdd s hs hds
        simp only [E1]
        by_cases hdd' : d ∈ done
        · have := h2 d hdd' s hs hds
          split
          · exact List.mem_append.mpr (Or.inl this)
          · exact this
        · rcases List.mem_cons.mp hdd with e | h
          · subst e
            rw [if_pos rfl]
            refine List.mem_append.mpr (Or.inr ((h4 _).mpr ⟨_, List.mem_map.mpr ⟨s, hs, rfl⟩, rfl, ?_⟩))
            exact List.mem_map.mpr ⟨d, hds, by simp [partMap, hdd']⟩
          · exact absurd h hdd')
    refine ⟨E', o', ?_, h6, ?_⟩
    · simp only [List.map_cons, List.foldlM_cons]
      rw [h3]
      show List.foldlM _ _ _ = _
      simp only
      rw [hstate, h5]
      simp
    · simpa using h7

/-! ### Volumes -/

theorem tighten_eq {m : Mesh} (h : ∀ e ∈ m.edges, e.vertind.length ≤ 2) : m.tighten = .ok
    { m with verts := m.verts.map tightenVert,
             edges := m.edges.map (fun e => { e with surfind := sortUnique e.surfind }),
             surfs := m.surfs.map tightenSurf, volus := m.volus.map tightenVolu } := by
  unfold tighten
  rw [mapM_tightenEdge _ h]
  rfl

theorem strict_two {l : List Int} (h : l.Pairwise (· < ·)) (h2 : 2 ≤ l.length) :
    ∃ a b, vecGet l 0 = .ok a ∧ vecGet l 1 = .ok b ∧ a ≠ b := by
  match l, h2 with
  | a :: b :: l, _ =>
    rw [List.pairwise_cons] at h
    have := h.1 b (by simp)
    exact ⟨a, b, rfl, rfl, by omega⟩

theorem dropSurfs_ok : ∀ (l : List Surf) (st : Mesh × List Int),
    (∀ s ∈ l, s.voluind.Pairwise (· < ·) ∧ 2 ≤ s.voluind.length) → dropSurfs l st = .ok st
  | [], _, _ => rfl
  | s :: l, st, h => by
    obtain ⟨h1, h2⟩ := h s (by simp)
    obtain ⟨a, b, ha, hb, hab⟩ := strict_two h1 h2
    unfold dropSurfs
    rw [ha]; simp only [Except.bind]
    rw [hb]; simp only
    rw [if_neg hab]
    exact dropSurfs_ok l st (fun s hs => h s (by simp [hs]))

theorem dropSurfs_ub : ∀ (l : List Surf) (st : Mesh × List Int),
    (∀ s ∈ l, s.voluind.Pairwise (· < ·)) → (∃ s ∈ l, s.voluind.length < 2) → dropSurfs l st = .error .ub
  | [], _, _, h => by obtain ⟨s, hs, _⟩ := h; simp at hs
  | s :: l, st, hp, h => by
    unfold dropSurfs
    by_cases h2 : 2 ≤ s.voluind.length
    · obtain ⟨a, b, ha, hb, hab⟩ := strict_two (hp s (by simp)) h2
      rw [ha]; simp only [Except.bind]
      rw [hb]; simp only
      rw [if_neg hab]
      refine dropSurfs_ub l st (fun s hs => hp s (by simp [hs])) ?_
      obtain ⟨s', hs', hl⟩ := h
      rcases List.mem_cons.mp hs' with e | hs'
      · subst e; omega
      · exact ⟨s', hs', hl⟩
    · match hv : s.voluind, h2 with
      | [], _ => rfl
      | [a], _ => rfl
      | a :: b :: l, h2 => simp at h2

theorem dropEdges_none (n : Nat) : ∀ (l : List Edge) (st : Mesh × List Int),
    (∀ e ∈ l, e.surfind.length ≠ n) → dropEdges n l st = .ok st
  | [], _, _ => rfl
  | e :: l, st, h => by
    unfold dropEdges
    rw [if_neg (h e (by simp))]
    exact dropEdges_none n l st (fun e he => h e (by simp [he]))

theorem zip_self (l : List Int) (φ : Int → Int) : l.zip (l.map φ) = l.map fun c => (c, φ c) := by
  induction l with
  | nil => rfl
  | cons a l ih => simp [ih]

/-- The mesh in space after the switches and tightening. -/
theorem solid_switched {m : Mesh} {φ : Int → Int} (hm : Sound m) (h2 : TwoVerts m) (hdim : m.meshDim = 3)
    (hφ : Merging (HasVolu m) φ) :
    ∃ E : Int → List Int,
      ((checkMapping m (m.volus.map fun c => φ c.index)).bind fun _ =>
        (switchCells m (m.volus.map fun c => φ c.index)).bind fun m1 => m1.tighten) =
      .ok { m with
        verts := m.verts.map tightenVert
        edges := m.edges.map (fun e => { e with surfind := sortUnique e.surfind })
        surfs := m.surfs.map (fun s => tightenSurf (renVolu φ s))
        volus := m.volus.map (fun c => tightenVolu (addVolu E c)) } ∧
      (∀ i, ∀ x ∈ E i, ∃ s ∈ m.surfs, s.index = x ∧ ∃ c ∈ s.voluind, HasVolu m c ∧ φ c = i) ∧
      (∀ c, HasVolu m c → ∀ s ∈ m.surfs, c ∈ s.voluind → s.index ∈ E (φ c)) := by
  have hin : ∀ c, c ∈ m.volus.map Volu.index ↔ HasVolu m c := by
    intro c; simp [HasVolu]
  obtain ⟨E, h3, h4, h5⟩ := switchVolus_loop hm (φ := φ) (fun c hc => ⟨hφ.image c hc, hφ.idem c hc⟩)
    (m.volus.map Volu.index) [] (fun _ => []) (fun c hc => (hin c).mp hc) (by simp) (by simp) (by simp)
  refine ⟨E, ?_, h4, ?_⟩
  · have hcheck : checkMapping m (m.volus.map fun c => φ c.index) = .ok () := by
      unfold checkMapping
      rw [hdim]
      simp only
      rw [if_neg]
      rintro (h | h)
      · simp at h
      · rw [List.any_eq_true] at h
        obtain ⟨x, hx, hx1⟩ := h
        obtain ⟨c, hc, rfl⟩ := List.mem_map.mp hx
        rw [beq_iff_eq, posOf_eq_neg_one_iff] at hx1
        obtain ⟨d, hd, hdi⟩ := hφ.image c.index ⟨c, hc, rfl⟩
        exact hx1 d hd hdi
    rw [hcheck]
    simp only [Except.bind]
    have hsw : switchCells m (m.volus.map fun c => φ c.index) = .ok { m with
        surfs := m.surfs.map (renVolu φ), volus := m.volus.map (addVolu E) } := by
      unfold switchCells
      rw [if_pos hdim]
      have : (m.volus.map fun c => φ c.index) = (m.volus.map Volu.index).map φ := by simp
      rw [this, zip_self]
      have hm0 : m = { m with surfs := m.surfs.map (renVolu (partMap φ [])), volus := m.volus.map (addVolu fun _ => []) } := by
        have e1 : m.surfs.map (renVolu (partMap φ [])) = m.surfs := by
          conv_rhs => rw [← List.map_id m.surfs]
          apply List.map_congr_left
          intro s _
          have : partMap φ [] = id := by funext x; simp [partMap]
          simp [renVolu, this]
        have e2 : m.volus.map (addVolu fun _ => []) = m.volus := by
          conv_rhs => rw [← List.map_id m.volus]
          apply List.map_congr_left
          intro s _
          simp [addVolu]
        rw [e1, e2]
      conv_lhs => rw [hm0]
      simp only [← hm0]
      have hren : m.surfs.map (renVolu (partMap φ ((m.volus.map Volu.index).reverse ++ []))) = m.surfs.map (renVolu φ) := by
        apply List.map_congr_left
        intro s hs
        unfold renVolu
        congr 1
        apply List.map_congr_left
        intro x hx
        by_cases hx0 : x = 0
        · subst hx0
          rw [partMap_out, hφ.zero]
          intro h
          have : (0 : Int) ∈ m.volus.map Volu.index := by simpa using h
          exact absurd (hm.pos.volus 0 ((hin 0).mp this)) (by omega)
        · refine partMap_in ?_
          have := (hin x).mpr (hm.noDangling.surfVolu s.index x ⟨s, hs, rfl, hx⟩ hx0)
          simpa using this
      rw [← hren]
      refine Eq.trans ?_ h3
      congr 1
      simp [addVolu]
    rw [hsw]
    simp only
    rw [tighten_eq (m := { m with surfs := m.surfs.map (renVolu φ), volus := m.volus.map (addVolu E) })
      (fun e he => (h2 e he).le)]
    simp only [List.map_map]
    rfl
  · intro c hc s hs hcs
    exact h5 c (by simpa using (hin c).mpr hc) s hs hcs

theorem removeIdx_nil {α : Type} (ix : α → Int) (l : List α) : removeIdx ix l (sortUnique []) = l := by
  have : sortUnique [] = [] := rfl
  rw [this]
  simp [removeIdx]

theorem sortUnique_ne_nil {l : List Int} (h : l ≠ []) : sortUnique l ≠ [] := by
  cases l with
  | nil => exact absurd rfl h
  | cons a l =>
    intro e
    have : a ∈ sortUnique (a :: l) := mem_sortUnique.mpr (by simp)
    rw [e] at this
    simp at this

theorem solid_ub {m : Mesh} {φ : Int → Int} (hm : Sound m) (h2 : TwoVerts m) (hdim : m.meshDim = 3)
    (hφ : Merging (HasVolu m) φ) (hin : ∃ s ∈ m.surfs, ∃ x, ∀ c ∈ s.voluind, φ c = x) :
    coarsenMesh m (m.volus.map fun c => φ c.index) = .error .ub := by
  obtain ⟨E, h3, -, -⟩ := solid_switched hm h2 hdim hφ
  obtain ⟨_, g1, h4⟩ := bind_ok_iff.mp h3
  obtain ⟨m1, g2, g3⟩ := bind_ok_iff.mp h4
  unfold coarsenMesh
  rw [g1]; simp only [Except.bind]
  rw [g2]; simp only
  rw [g3]; simp only
  rw [if_pos hdim, dropSurfs_ub]
  · intro s hs
    obtain ⟨s0, _, rfl⟩ := List.mem_map.mp hs
    exact sortUnique_strict _
  · obtain ⟨s, hs, x, hx⟩ := hin
    refine ⟨_, List.mem_map.mpr ⟨s, hs, rfl⟩, ?_⟩
    by_contra hcon
    obtain ⟨a, b, ha, hb, hab⟩ := strict_two (sortUnique_strict (s.voluind.map φ)) (by
      have : (tightenSurf (renVolu φ s)).voluind = sortUnique (s.voluind.map φ) := rfl
      rw [this] at hcon; omega)
    have mem : ∀ {i : Int} {y : Int}, vecGet (sortUnique (s.voluind.map φ)) i = .ok y → y = x := by
      intro i y h
      have : y ∈ sortUnique (s.voluind.map φ) := by
        unfold vecGet at h
        split at h
        · cases h
        · split at h
          · rename_i hh; cases h; exact List.mem_of_getElem? hh
          · cases h
      obtain ⟨c, hc, rfl⟩ := List.mem_map.mp (mem_sortUnique.mp this)
      exact hx c hc
    exact hab ((mem ha).trans (mem hb).symm)

theorem solid_ok {m : Mesh} {φ : Int → Int} (hm : Sound m) (h2 : TwoVerts m) (hl : NoneLoose m)
    (hdim : m.meshDim = 3) (hφ : Merging (HasVolu m) φ)
    (hb : ∀ s ∈ m.surfs, ∃ c ∈ s.voluind, ∃ d ∈ s.voluind, φ c ≠ φ d) :
    ∃ r, coarsenMesh m (m.volus.map fun c => φ c.index) = .ok r ∧ UniqueIndices r ∧ SolidMerged m r φ := by
  obtain ⟨E, h3, hE1, hE2⟩ := solid_switched hm h2 hdim hφ
  obtain ⟨_, g1, h4⟩ := bind_ok_iff.mp h3
  obtain ⟨m1, g2, g3⟩ := bind_ok_iff.mp h4
  have hsurf : ∀ s ∈ m.surfs.map (fun s => tightenSurf (renVolu φ s)),
      s.voluind.Pairwise (· < ·) ∧ 2 ≤ s.voluind.length := by
    intro s hs
    obtain ⟨s0, hs0, rfl⟩ := List.mem_map.mp hs
    refine ⟨sortUnique_strict _, ?_⟩
    obtain ⟨c, hc, d, hd, hcd⟩ := hb s0 hs0
    have e1 : φ c ∈ sortUnique (s0.voluind.map φ) := mem_sortUnique.mpr (List.mem_map.mpr ⟨c, hc, rfl⟩)
    have e2 : φ d ∈ sortUnique (s0.voluind.map φ) := mem_sortUnique.mpr (List.mem_map.mpr ⟨d, hd, rfl⟩)
    show 2 ≤ (sortUnique (s0.voluind.map φ)).length
    match hh : sortUnique (s0.voluind.map φ), e1, e2 with
    | [], e1, _ => simp at e1
    | [a], e1, e2 =>
      rw [List.mem_singleton] at e1 e2
      exact absurd (e1.trans e2.symm) hcd
    | a :: b :: l, _, _ => simp
  refine ⟨removeUnused (m.volus.map fun c => φ c.index) [] [] { m with
        verts := m.verts.map tightenVert
        edges := m.edges.map (fun e => { e with surfind := sortUnique e.surfind })
        surfs := m.surfs.map (fun s => tightenSurf (renVolu φ s))
        volus := m.volus.map (fun c => tightenVolu (addVolu E c)) }, ?_, ?_, ?_⟩
  · unfold coarsenMesh
    rw [g1]; simp only [Except.bind]
    rw [g2]; simp only
    rw [g3]; simp only
    rw [if_pos hdim, dropSurfs_ok _ _ hsurf]
    simp only
    rw [if_pos hdim, dropEdges_none]
    · rfl
    · intro e he
      obtain ⟨e0, he0, rfl⟩ := List.mem_map.mp he
      have := sortUnique_ne_nil (hl.2 e0 he0)
      exact fun h => this (List.length_eq_zero_iff.mp h)
  · have hsub : ∀ {α : Type} (ix : α → Int) (l : List α) (d : List Int), (l.map ix).Nodup →
        ((removeIdx ix l d).map ix).Nodup := fun ix l d h => h.sublist (List.filter_sublist.map ix)
    refine ⟨hsub _ _ _ ?_, hsub _ _ _ ?_, hsub _ _ _ ?_, hsub _ _ _ ?_⟩
    · rw [List.map_map]; exact hm.unique.verts
    · rw [List.map_map]; exact hm.unique.edges
    · rw [List.map_map]; exact hm.unique.surfs
    · rw [List.map_map]; exact hm.unique.volus
  · have hv : ((m.verts.map tightenVert).filter fun v => v.edgeind.length == 0) = [] := by
      rw [List.filter_eq_nil_iff]
      intro v hv
      obtain ⟨v0, hv0, rfl⟩ := List.mem_map.mp hv
      simpa [tightenVert] using sortUnique_ne_nil (hl.1 v0 hv0)
    simp only [removeUnused, hv, if_pos hdim, List.map_nil, List.append_nil, removeIdx_nil]
    have hvol : ∀ c, c ∈ (removeIdx Volu.index (m.volus.map fun c => tightenVolu (addVolu E c))
        (sortUnique (((m.volus.map fun c => tightenVolu (addVolu E c)).filter
          fun c => !(m.volus.map fun c => φ c.index).contains c.index).map Volu.index))) ↔
        ∃ c0 ∈ m.volus, c = tightenVolu (addVolu E c0) ∧ ∃ d, HasVolu m d ∧ φ d = c0.index := by
      intro c
      rw [mem_removeIdx, mem_sortUnique]
      constructor
      · rintro ⟨h, hn⟩
        obtain ⟨c0, hc0, rfl⟩ := List.mem_map.mp h
        refine ⟨c0, hc0, rfl, ?_⟩
        by_contra hcon
        apply hn
        refine List.mem_map.mpr ⟨_, List.mem_filter.mpr ⟨h, ?_⟩, rfl⟩
        simp only [Bool.not_eq_true', List.contains_eq_mem, decide_eq_false_iff_not]
        intro hmem
        obtain ⟨d, hd, hdi⟩ := List.mem_map.mp hmem
        exact hcon ⟨d.index, ⟨d, hd, rfl⟩, hdi⟩
      · rintro ⟨c0, hc0, rfl, d, ⟨d0, hd0, rfl⟩, hdi⟩
        refine ⟨List.mem_map.mpr ⟨c0, hc0, rfl⟩, ?_⟩
        intro hmem
        obtain ⟨x, hx, hxi⟩ := List.mem_map.mp hmem
        obtain ⟨_, hx2⟩ := List.mem_filter.mp hx
        simp only [Bool.not_eq_true', List.contains_eq_mem, decide_eq_false_iff_not] at hx2
        apply hx2
        rw [hxi]
        exact List.mem_map.mpr ⟨d0, hd0, hdi⟩
    refine ⟨?_, ?_, ?_, ?_, ?_, ?_, ?_, ?_, ?_, ?_⟩
    · intro i; simp [HasVert, tightenVert]
    · intro i; simp [HasEdge]
    · intro i; simp [HasSurf, tightenSurf, renVolu]
    · intro c
      unfold HasVolu
      simp only [hvol]
      constructor
      · rintro ⟨x, ⟨c0, hc0, rfl, d, hd, hdi⟩, rfl⟩
        exact ⟨d, hd, hdi⟩
      · rintro ⟨c0, hc0, rfl⟩
        obtain ⟨d, hd, hdi⟩ := hφ.image c0 hc0
        exact ⟨_, ⟨d, hd, rfl, c0, hc0, hdi.symm⟩, hdi⟩
    · intro v e; simp [VertEdge, tightenVert, mem_sortUnique]
    · intro e v; simp [EdgeVert]
    · intro e s; simp [EdgeSurf, mem_sortUnique]
    · intro s e; simp [SurfEdge, tightenSurf, renVolu, mem_sortUnique]
    · intro s c
      simp only [SurfVolu, tightenSurf, renVolu, List.mem_map, exists_exists_and_eq_and, mem_sortUnique]
      constructor
      · rintro ⟨a, ha, hi, b, hb, rfl⟩; exact ⟨b, ⟨a, ha, hi, hb⟩, rfl⟩
      · rintro ⟨b, ⟨a, ha, hi, hb⟩, rfl⟩; exact ⟨a, ha, hi, b, hb, rfl⟩
    · intro c s
      unfold VoluSurf
      simp only [hvol]
      constructor
      · rintro ⟨x, ⟨c0, hc0, rfl, d, hd, hdi⟩, rfl, hs⟩
        have hself : φ c0.index = c0.index := by rw [← hdi, hφ.idem d hd]
        rcases List.mem_append.mp (mem_sortUnique.mp hs) with h | h
        · exact ⟨c0.index, ⟨c0, hc0, rfl, h⟩, hself⟩
        · obtain ⟨s0, hs0, rfl, c1, hc1, hv1, e1⟩ := hE1 _ _ h
          have := (hm.sym.surfVolu s0.index c1 ⟨s0, hs0, rfl⟩ hv1).mp ⟨s0, hs0, rfl, hc1⟩
          exact ⟨c1, this, e1⟩
      · rintro ⟨c0, ⟨x, hx, rfl, hs⟩, rfl⟩
        have hv : HasVolu m x.index := ⟨x, hx, rfl⟩
        obtain ⟨d, hd, hdi⟩ := hφ.image _ hv
        refine ⟨_, ⟨d, hd, rfl, x.index, hv, hdi.symm⟩, hdi, mem_sortUnique.mpr (List.mem_append.mpr (Or.inr ?_))⟩
        rw [hdi]
        have h0 : VoluSurf m x.index s := ⟨x, hx, rfl, hs⟩
        have hss : HasSurf m s := hm.noDangling.voluSurf _ _ h0 (by rintro rfl; exact hm.zeroOutside.voluSurf _ h0)
        obtain ⟨s0, hs0, rfl, hc0⟩ := (hm.sym.surfVolu s x.index hss hv).mpr h0
        exact hE2 x.index hv s0 hs0 hc0

/-! ### Surfaces in the plane -/

/-- The mesh in the plane after the switches and tightening. -/
theorem plane_switched {m : Mesh} {φ : Int → Int} (hm : Sound m) (h2 : TwoVerts m) (hdim : m.meshDim = 2)
    (hflat : m.volus = []) (hφ : Merging (HasSurf m) φ) :
    ∃ (E : Int → List Int) (o : Int → Bool),
      ((checkMapping m (m.surfs.map fun c => φ c.index)).bind fun _ =>
        (switchCells m (m.surfs.map fun c => φ c.index)).bind fun m1 => m1.tighten) =
      .ok { m with
        verts := m.verts.map tightenVert
        edges := m.edges.map (fun e => { e with surfind := sortUnique (e.surfind.map φ) })
        surfs := m.surfs.map (fun s => tightenSurf (addEdges E o s))
        volus := m.volus.map tightenVolu } ∧
      (∀ i, ∀ x ∈ E i, ∃ e ∈ m.edges, e.index = x ∧ ∃ c ∈ e.surfind, HasSurf m c ∧ φ c = i) ∧
      (∀ c, HasSurf m c → ∀ e ∈ m.edges, c ∈ e.surfind → e.index ∈ E (φ c)) := by
  have hin : ∀ c, c ∈ m.surfs.map Surf.index ↔ HasSurf m c := by
    intro c; simp [HasSurf]
  obtain ⟨E, o, h3, h4, h5⟩ := switchSurfs_loop hm hflat (φ := φ) (fun c hc => ⟨hφ.image c hc, hφ.idem c hc⟩)
    (m.surfs.map Surf.index) [] (fun _ => []) (fun _ => true) (fun c hc => (hin c).mp hc) (by simp) (by simp) (by simp)
  refine ⟨E, o, ?_, h4, ?_⟩
  · have hcheck : checkMapping m (m.surfs.map fun c => φ c.index) = .ok () := by
      unfold checkMapping
      rw [hdim]
      simp only
      rw [if_neg]
      rintro (h | h)
      · simp at h
      · rw [List.any_eq_true] at h
        obtain ⟨x, hx, hx1⟩ := h
        obtain ⟨c, hc, rfl⟩ := List.mem_map.mp hx
        rw [beq_iff_eq, posOf_eq_neg_one_iff] at hx1
        obtain ⟨d, hd, hdi⟩ := hφ.image c.index ⟨c, hc, rfl⟩
        exact hx1 d hd hdi
    rw [hcheck]
    simp only [Except.bind]
    have hsw : switchCells m (m.surfs.map fun c => φ c.index) = .ok { m with
        edges := m.edges.map (renSurf φ), surfs := m.surfs.map (addEdges E o) } := by
      unfold switchCells
      rw [if_neg (by omega)]
      have : (m.surfs.map fun c => φ c.index) = (m.surfs.map Surf.index).map φ := by simp
      rw [this, zip_self]
      have hm0 : m = { m with edges := m.edges.map (renSurf (partMap φ [])), surfs := m.surfs.map (addEdges (fun _ => []) fun _ => true) } := by
        have e1 : m.edges.map (renSurf (partMap φ [])) = m.edges := by
          conv_rhs => rw [← List.map_id m.edges]
          apply List.map_congr_left
          intro s _
          have : partMap φ [] = id := by funext x; simp [partMap]
          simp [renSurf, this]
        have e2 : m.surfs.map (addEdges (fun _ => []) fun _ => true) = m.surfs := by
          conv_rhs => rw [← List.map_id m.surfs]
          apply List.map_congr_left
          intro s _
          simp [addEdges]
        rw [e1, e2]
      conv_lhs => rw [hm0]
      simp only [← hm0]
      have hren : m.edges.map (renSurf (partMap φ ((m.surfs.map Surf.index).reverse ++ []))) = m.edges.map (renSurf φ) := by
        apply List.map_congr_left
        intro s hs
        unfold renSurf
        congr 1
        apply List.map_congr_left
        intro x hx
        by_cases hx0 : x = 0
        · subst hx0
          rw [partMap_out, hφ.zero]
          intro h
          have : (0 : Int) ∈ m.surfs.map Surf.index := by simpa using h
          exact absurd (hm.pos.surfs 0 ((hin 0).mp this)) (by omega)
        · refine partMap_in ?_
          have := (hin x).mpr (hm.noDangling.edgeSurf s.index x ⟨s, hs, rfl, hx⟩ hx0)
          simpa using this
      rw [← hren]
      refine Eq.trans ?_ h3
      congr 1
      simp [addEdges]
    rw [hsw]
    simp only
    rw [tighten_eq (m := { m with edges := m.edges.map (renSurf φ), surfs := m.surfs.map (addEdges E o) })
      (by
        intro e he
        obtain ⟨e0, he0, rfl⟩ := List.mem_map.mp he
        exact (h2 e0 he0).le)]
    simp only [List.map_map]
    rfl
  · intro c hc s hs hcs
    exact h5 c (by simpa using (hin c).mpr hc) s hs hcs

/-- Whether edge `e` lists surface `s`. -/
def listsSurf (es : List Edge) (e s : Int) : Bool := es.any fun x => x.index == e && x.surfind.contains s

/-- The mesh after the edges of `D` were detached. -/
def detached (b : Mesh) (D : List Int) (o : Surf → Bool) : Mesh :=
  { b with
    verts := b.verts.map fun v => { v with edgeind := v.edgeind.filter (fun e => !D.contains e) }
    edges := b.edges.map fun e => if e.index ∈ D then { e with vertind := [], surfind := [] } else e
    surfs := b.surfs.map fun s => { s with
      edgeind := s.edgeind.filter (fun e => !(D.contains e && listsSurf b.edges e s.index)), isordered := o s } }

theorem detach_one {b : Mesh} {D : List Int} {o : Surf → Bool} {e : Edge} (hv : (b.verts.map Vert.index).Nodup)
    (he : (b.edges.map Edge.index).Nodup) (hs : (b.surfs.map Surf.index).Nodup)
    (hk : ∀ e ∈ b.edges, ∀ k ∈ e.vertind, ∃ v ∈ b.verts, v.index = k)
    (hsym : ∀ v ∈ b.verts, ∀ e ∈ b.edges, e.index ∈ v.edgeind → v.index ∈ e.vertind)
    (hem : e ∈ b.edges) (heD : e.index ∉ D) :
    ∃ o', (detached b D o).removeEdge e.index = .ok (detached b (D ++ [e.index]) o') := by
  have hixe : (detached b D o).edges.map Edge.index = b.edges.map Edge.index := by
    simp only [detached, List.map_map]
    apply List.map_congr_left
    intro x _
    simp only [Function.comp]
    split <;> rfl
  have hixv : (detached b D o).verts.map Vert.index = b.verts.map Vert.index := by
    simp only [detached, List.map_map]; rfl
  have hixs : (detached b D o).surfs.map Surf.index = b.surfs.map Surf.index := by
    simp only [detached, List.map_map]; rfl
  have hmem : e ∈ (detached b D o).edges := List.mem_map.mpr ⟨e, hem, by rw [if_neg heD]⟩
  obtain ⟨e', h1, h2, h3⟩ := elemAt_posOf_ok (ix := Edge.index) (l := (detached b D o).edges) ⟨e, hmem, rfl⟩
  have : e' = e := inj_of_nodup (by rw [hixe]; exact he) h2 hmem h3
  subst this
  unfold removeEdge
  simp only [h1]
  show ∃ o', (visit _ _ _ >>= fun verts => _) = _
  rw [visit_eq (ix := Vert.index) (by intro a; rfl) (by intro a; simp [eraseAll_eraseAll])
    e'.vertind _ (by rw [hixv]; exact hv) rfl (by
      intro k hkk
      obtain ⟨v, hvm, hvk⟩ := hk e' hem k hkk
      exact ⟨_, List.mem_map.mpr ⟨v, hvm, rfl⟩, hvk⟩)]
  show ∃ o', (visitKnown _ _ _ >>= fun surfs => _) = _
  rw [visitKnown_eq (ix := Surf.index) (by intro a; rfl) (by
      intro a; simp [eraseAll_eraseAll, mem_eraseAll])
    e'.surfind _ (by rw [hixs]; exact hs) rfl]
  show ∃ o', (modAt _ _ _ >>= fun edges => _) = _
  rw [modAt_posOf (by rw [hixe]; exact he) ⟨e', hmem, rfl⟩]
  refine ⟨fun s => if s.index ∈ e'.surfind then o s && !(s.edgeind.filter (fun x => !(D.contains x && listsSurf b.edges x s.index))).contains e'.index else o s, ?_⟩
  show Except.ok _ = Except.ok _
  congr 1
  unfold detached
  simp only [List.map_map]
  congr 1
  · apply List.map_congr_left
    intro v hvm
    simp only [Function.comp]
    split
    · congr 1
      rw [eraseAll_eq_filter, List.filter_filter]
      apply List.filter_congr
      intro x _
      rw [Bool.eq_iff_iff]
      simp only [ne_eq, Bool.and_eq_true, Bool.not_eq_true', List.contains_eq_mem, decide_eq_false_iff_not,
        List.mem_append, List.mem_singleton, decide_eq_true_eq]
      tauto
    · rename_i hn
      congr 1
      apply List.filter_congr
      intro x hx
      have : x ≠ e'.index := by
        rintro rfl
        exact hn (hsym v hvm e' hem hx)
      simp [this]
  · apply List.map_congr_left
    intro x _
    simp only [Function.comp]
    by_cases hxD : x.index ∈ D
    · simp [hxD]
    · by_cases hxe : x.index = e'.index
      · simp [hxe, heD]
      · simp [hxD, hxe]
  · apply List.map_congr_left
    intro s hsm
    simp only [Function.comp]
    have hlist : listsSurf b.edges e'.index s.index = decide (s.index ∈ e'.surfind) := by
      rw [Bool.eq_iff_iff]
      simp only [listsSurf, List.any_eq_true, Bool.and_eq_true, beq_iff_eq, List.contains_eq_mem, decide_eq_true_eq]
      constructor
      · rintro ⟨x, hx, hxi, h⟩
        rw [inj_of_nodup he hx hem hxi] at h
        exact h
      · intro h; exact ⟨e', hem, rfl, h⟩
    split
    · rename_i hin
      congr 1
      rw [eraseAll_eq_filter, List.filter_filter]
      apply List.filter_congr
      intro x _
      by_cases hxe : x = e'.index
      · subst hxe
        simp [hlist, hin]
      · simp [hxe]
    · rename_i hin
      congr 1
      apply List.filter_congr
      intro x _
      by_cases hxe : x = e'.index
      · subst hxe
        simp [hlist, hin]
      · simp [hxe]

/-- The loop over edges detaches those with one surface. -/
theorem detach_loop {b : Mesh} (hv : (b.verts.map Vert.index).Nodup)
    (he : (b.edges.map Edge.index).Nodup) (hs : (b.surfs.map Surf.index).Nodup)
    (hk : ∀ e ∈ b.edges, ∀ k ∈ e.vertind, ∃ v ∈ b.verts, v.index = k)
    (hsym : ∀ v ∈ b.verts, ∀ e ∈ b.edges, e.index ∈ v.edgeind → v.index ∈ e.vertind) (n : Nat) :
    ∀ (l : List Edge) (D : List Int) (o : Surf → Bool), (∀ e ∈ l, e ∈ b.edges) → (l.map Edge.index).Nodup →
      (∀ e ∈ l, e.index ∉ D) →
      ∃ o', dropEdges n l (detached b D o, D) =
        .ok (detached b (D ++ (l.filter fun e => e.surfind.length == n).map Edge.index) o',
          D ++ (l.filter fun e => e.surfind.length == n).map Edge.index)
  | [], D, o, _, _, _ => ⟨o, by simp [dropEdges]⟩
  | e :: l, D, o, hl, hn, hD => by
    unfold dropEdges
    simp only [List.map_cons, List.nodup_cons] at hn
    by_cases h : e.surfind.length = n
    · rw [if_pos h]
      obtain ⟨o1, h1⟩ := detach_one (o := o) hv he hs hk hsym (hl e (by simp)) (hD e (by simp))
      rw [h1]
      simp only [Except.bind]
      obtain ⟨o2, h2⟩ := detach_loop hv he hs hk hsym n l (D ++ [e.index]) o1 (fun x hx => hl x (by simp [hx])) hn.2
        (by
          intro x hx hmem
          rcases List.mem_append.mp hmem with hm | hm
          · exact hD x (by simp [hx]) hm
          · rw [List.mem_singleton] at hm
            exact hn.1 (hm ▸ List.mem_map.mpr ⟨x, hx, rfl⟩))
      refine ⟨o2, ?_⟩
      rw [h2]
      simp [h]
    · rw [if_neg h]
      obtain ⟨o2, h2⟩ := detach_loop hv he hs hk hsym n l D o (fun x hx => hl x (by simp [hx])) hn.2
        (fun x hx => hD x (by simp [hx]))
      refine ⟨o2, ?_⟩
      rw [h2]
      simp [h]

theorem detached_nil (b : Mesh) : detached b [] Surf.isordered = b := by
  unfold detached
  simp

theorem strict_one {l : List Int} (h : l.Pairwise (· < ·)) (hne : l ≠ []) :
    l.length = 1 ↔ ¬ ∃ a ∈ l, ∃ b ∈ l, a ≠ b := by
  match l, hne with
  | [a], _ => simp
  | a :: b :: l, _ =>
    rw [List.pairwise_cons] at h
    have := h.1 b (by simp)
    simp only [List.length_cons]
    constructor
    · intro h; omega
    · intro hn; exact absurd ⟨a, by simp, b, by simp, by omega⟩ hn

theorem plane_ok {m : Mesh} {φ : Int → Int} (hm : Sound m) (h2 : TwoVerts m) (hl : NoneLoose m)
    (hdim : m.meshDim = 2) (hflat : m.volus = []) (hφ : Merging (HasSurf m) φ) :
    ∃ r, coarsenMesh m (m.surfs.map fun c => φ c.index) = .ok r ∧ UniqueIndices r ∧ r.volus = [] ∧
      PlaneMerged m r φ := by
  obtain ⟨E, o, h3, hE1, hE2⟩ := plane_switched hm h2 hdim hflat hφ
  obtain ⟨_, g1, h4⟩ := bind_ok_iff.mp h3
  obtain ⟨m1, g2, g3⟩ := bind_ok_iff.mp h4
  let b : Mesh := { m with
    verts := m.verts.map tightenVert
    edges := m.edges.map (fun e => { e with surfind := sortUnique (e.surfind.map φ) })
    surfs := m.surfs.map (fun s => tightenSurf (addEdges E o s))
    volus := m.volus.map tightenVolu }
  have hbv : b.verts.map Vert.index = m.verts.map Vert.index := by simp only [b, List.map_map]; rfl
  have hbe : b.edges.map Edge.index = m.edges.map Edge.index := by simp only [b, List.map_map]; rfl
  have hbs : b.surfs.map Surf.index = m.surfs.map Surf.index := by simp only [b, List.map_map]; rfl
  have hvu : (b.verts.map Vert.index).Nodup := by rw [hbv]; exact hm.unique.verts
  have heu : (b.edges.map Edge.index).Nodup := by rw [hbe]; exact hm.unique.edges
  have hsu : (b.surfs.map Surf.index).Nodup := by rw [hbs]; exact hm.unique.surfs
  obtain ⟨o', hdrop⟩ := detach_loop (b := b) hvu heu hsu
    (by
      intro e he k hk
      obtain ⟨e0, he0, rfl⟩ := List.mem_map.mp he
      have h0 : EdgeVert m e0.index k := ⟨e0, he0, rfl, hk⟩
      obtain ⟨v, hv, hvk⟩ := hm.noDangling.edgeVert _ _ h0 (by rintro rfl; exact hm.zeroOutside.edgeVert _ h0)
      exact ⟨_, List.mem_map.mpr ⟨v, hv, rfl⟩, hvk⟩)
    (by
      intro v hv e he hev
      obtain ⟨v0, hv0, rfl⟩ := List.mem_map.mp hv
      obtain ⟨e0, he0, rfl⟩ := List.mem_map.mp he
      obtain ⟨e1, he1, hi1, hx⟩ := (hm.sym.vertEdge v0.index e0.index ⟨v0, hv0, rfl⟩ ⟨e0, he0, rfl⟩).mp
        ⟨v0, hv0, rfl, mem_sortUnique.mp hev⟩
      rw [inj_of_nodup hm.unique.edges he1 he0 hi1] at hx
      exact hx)
    1 b.edges [] Surf.isordered (fun e he => he) heu (by simp)
  rw [List.nil_append] at hdrop
  generalize hD : (b.edges.filter fun e => e.surfind.length == 1).map Edge.index = D at hdrop
  -- the detached edges
  have hDm : ∀ x, HasEdge m x → (x ∈ D ↔ ¬ Between m φ x) := by
    rintro x ⟨e, he, rfl⟩
    have hlen : (sortUnique (e.surfind.map φ)).length = 1 ↔ ¬ Between m φ e.index := by
      rw [strict_one (sortUnique_strict _) (sortUnique_ne_nil (by simpa using hl.2 e he))]
      apply not_congr
      constructor
      · rintro ⟨a, ha, c, hc, hac⟩
        obtain ⟨s, hs, rfl⟩ := List.mem_map.mp (mem_sortUnique.mp ha)
        obtain ⟨s', hs', rfl⟩ := List.mem_map.mp (mem_sortUnique.mp hc)
        exact ⟨s, s', ⟨e, he, rfl, hs⟩, ⟨e, he, rfl, hs'⟩, hac⟩
      · rintro ⟨s, s', ⟨e1, he1, hi1, hs⟩, ⟨e2, he2, hi2, hs'⟩, hss⟩
        rw [inj_of_nodup hm.unique.edges he1 he hi1] at hs
        rw [inj_of_nodup hm.unique.edges he2 he hi2] at hs'
        exact ⟨φ s, mem_sortUnique.mpr (List.mem_map.mpr ⟨s, hs, rfl⟩), φ s',
          mem_sortUnique.mpr (List.mem_map.mpr ⟨s', hs', rfl⟩), hss⟩
    rw [← hlen, ← hD]
    constructor
    · intro h
      obtain ⟨x, hx, hxi⟩ := List.mem_map.mp h
      obtain ⟨hx1, hx2⟩ := List.mem_filter.mp hx
      obtain ⟨e1, he1, rfl⟩ := List.mem_map.mp hx1
      rw [inj_of_nodup hm.unique.edges he1 he hxi] at hx2
      simpa using hx2
    · intro h
      exact List.mem_map.mpr ⟨_, List.mem_filter.mpr ⟨List.mem_map.mpr ⟨e, he, rfl⟩, by simpa using h⟩, rfl⟩
  have hEdgeOf : ∀ v ∈ m.verts, ∀ x ∈ v.edgeind, HasEdge m x := by
    intro v hv x hx
    have h0 : VertEdge m v.index x := ⟨v, hv, rfl, hx⟩
    exact hm.noDangling.vertEdge _ _ h0 (by rintro rfl; exact hm.zeroOutside.vertEdge _ h0)
  -- the result
  refine ⟨removeUnused (m.surfs.map fun c => φ c.index) [] D (detached b D o'), ?_, ?_, ?_, ?_⟩
  · unfold coarsenMesh
    rw [g1]; simp only [Except.bind]
    rw [g2]; simp only
    rw [g3]; simp only
    rw [if_neg (by omega)]
    simp only
    rw [if_neg (by omega)]
    have : dropEdges 1 b.edges (b, []) = .ok (detached b D o', D) := by
      conv_lhs => rw [← detached_nil b]
      simp only [detached_nil]
      rw [← hdrop, detached_nil]
    show (dropEdges 1 b.edges (b, [])).map _ = _
    rw [this]
    rfl
  · have hsub : ∀ {α : Type} (ix : α → Int) (l : List α) (d : List Int), (l.map ix).Nodup →
        ((removeIdx ix l d).map ix).Nodup := fun ix l d h => h.sublist (List.filter_sublist.map ix)
    refine ⟨hsub _ _ _ ?_, hsub _ _ _ ?_, hsub _ _ _ ?_, hsub _ _ _ ?_⟩
    · have : (detached b D o').verts.map Vert.index = b.verts.map Vert.index := by
        simp only [detached, List.map_map]; rfl
      rw [this]; exact hvu
    · have : (detached b D o').edges.map Edge.index = b.edges.map Edge.index := by
        simp only [detached, List.map_map]
        apply List.map_congr_left
        intro x _
        simp only [Function.comp]
        split <;> rfl
      rw [this]; exact heu
    · have : (detached b D o').surfs.map Surf.index = b.surfs.map Surf.index := by
        simp only [detached, List.map_map]; rfl
      rw [this]; exact hsu
    · simp [detached, b, hflat]
  · simp [removeUnused, detached, b, hflat, removeIdx]
  · have hdim' : ¬ (detached b D o').meshDim = 3 := by
      show ¬ m.meshDim = 3
      omega
    -- edges
    have hedge : ∀ e, e ∈ (removeUnused (m.surfs.map fun c => φ c.index) [] D (detached b D o')).edges ↔
        ∃ e0 ∈ m.edges, e = { e0 with surfind := sortUnique (e0.surfind.map φ) } ∧ Between m φ e0.index := by
      intro e
      simp only [removeUnused]
      rw [mem_removeIdx, mem_sortUnique]
      constructor
      · rintro ⟨h, hn⟩
        obtain ⟨x, hx, rfl⟩ := List.mem_map.mp h
        obtain ⟨e0, he0, rfl⟩ := List.mem_map.mp hx
        by_cases hin : e0.index ∈ D
        · exfalso; apply hn; rw [if_pos (by exact hin)]; exact hin
        · refine ⟨e0, he0, by rw [if_neg (by exact hin)], ?_⟩
          have := hDm e0.index ⟨e0, he0, rfl⟩
          tauto
      · rintro ⟨e0, he0, rfl, hb⟩
        have hin : e0.index ∉ D := by
          have := hDm e0.index ⟨e0, he0, rfl⟩
          tauto
        refine ⟨List.mem_map.mpr ⟨_, List.mem_map.mpr ⟨e0, he0, rfl⟩, by rw [if_neg (by exact hin)]⟩, hin⟩
    -- surfaces
    have hsurf : ∀ s, s ∈ (removeUnused (m.surfs.map fun c => φ c.index) [] D (detached b D o')).surfs ↔
        ∃ s0 ∈ m.surfs, (∃ d, HasSurf m d ∧ φ d = s0.index) ∧
          s = { tightenSurf (addEdges E o s0) with
            edgeind := (sortUnique (s0.edgeind ++ E s0.index)).filter
              (fun e => !(D.contains e && listsSurf b.edges e s0.index)),
            isordered := o' (tightenSurf (addEdges E o s0)) } := by
      intro s
      simp only [removeUnused, if_neg hdim', List.nil_append]
      rw [mem_removeIdx, mem_sortUnique]
      constructor
      · rintro ⟨h, hn⟩
        obtain ⟨x, hx, rfl⟩ := List.mem_map.mp h
        obtain ⟨s0, hs0, rfl⟩ := List.mem_map.mp hx
        refine ⟨s0, hs0, ?_, rfl⟩
        by_contra hcon
        apply hn
        refine List.mem_map.mpr ⟨_, List.mem_filter.mpr ⟨h, ?_⟩, rfl⟩
        simp only [Bool.not_eq_true', List.contains_eq_mem, decide_eq_false_iff_not]
        intro hmem
        obtain ⟨d, hd, hdi⟩ := List.mem_map.mp hmem
        exact hcon ⟨d.index, ⟨d, hd, rfl⟩, hdi⟩
      · rintro ⟨s0, hs0, ⟨_, ⟨d0, hd0, rfl⟩, hdi⟩, rfl⟩
        refine ⟨List.mem_map.mpr ⟨_, List.mem_map.mpr ⟨s0, hs0, rfl⟩, rfl⟩, ?_⟩
        intro hmem
        obtain ⟨x, hx, hxi⟩ := List.mem_map.mp hmem
        obtain ⟨_, hx2⟩ := List.mem_filter.mp hx
        simp only [Bool.not_eq_true', List.contains_eq_mem, decide_eq_false_iff_not] at hx2
        apply hx2
        rw [hxi]
        exact List.mem_map.mpr ⟨d0, hd0, hdi⟩
    -- vertices
    have hvert : ∀ v, v ∈ (removeUnused (m.surfs.map fun c => φ c.index) [] D (detached b D o')).verts ↔
        ∃ v0 ∈ m.verts, (∃ e, VertEdge m v0.index e ∧ Between m φ e) ∧
          v = { v0 with edgeind := (sortUnique v0.edgeind).filter (fun e => !D.contains e) } := by
      intro v
      simp only [removeUnused]
      rw [mem_removeIdx, mem_sortUnique]
      have hne : ∀ v0 ∈ m.verts, (sortUnique v0.edgeind).filter (fun e => !D.contains e) ≠ [] ↔
          ∃ e, VertEdge m v0.index e ∧ Between m φ e := by
        intro v0 hv0
        constructor
        · intro h
          obtain ⟨e, he⟩ := List.exists_mem_of_ne_nil _ h
          obtain ⟨h1, h2⟩ := List.mem_filter.mp he
          rw [mem_sortUnique] at h1
          have := hDm e (hEdgeOf v0 hv0 e h1)
          simp only [Bool.not_eq_true', List.contains_eq_mem, decide_eq_false_iff_not] at h2
          exact ⟨e, ⟨v0, hv0, rfl, h1⟩, by tauto⟩
        · rintro ⟨e, ⟨v1, hv1, hi1, he⟩, hb⟩ h0
          rw [inj_of_nodup hm.unique.verts hv1 hv0 hi1] at he
          have := hDm e (hEdgeOf v0 hv0 e he)
          have hmem : e ∈ (sortUnique v0.edgeind).filter (fun e => !D.contains e) :=
            List.mem_filter.mpr ⟨mem_sortUnique.mpr he, by
              simp only [Bool.not_eq_true', List.contains_eq_mem, decide_eq_false_iff_not]; tauto⟩
          rw [h0] at hmem
          simp at hmem
      constructor
      · rintro ⟨h, hn⟩
        obtain ⟨x, hx, rfl⟩ := List.mem_map.mp h
        obtain ⟨v0, hv0, rfl⟩ := List.mem_map.mp hx
        refine ⟨v0, hv0, (hne v0 hv0).mp ?_, rfl⟩
        intro h0
        apply hn
        refine List.mem_map.mpr ⟨_, List.mem_filter.mpr ⟨h, ?_⟩, rfl⟩
        have : ((tightenVert v0).edgeind.filter fun e => !D.contains e) = [] := h0
        show (((tightenVert v0).edgeind.filter fun e => !D.contains e).length == 0) = true
        rw [this]; rfl
      · rintro ⟨v0, hv0, hex, rfl⟩
        refine ⟨List.mem_map.mpr ⟨_, List.mem_map.mpr ⟨v0, hv0, rfl⟩, rfl⟩, ?_⟩
        intro hmem
        obtain ⟨x, hx, hxi⟩ := List.mem_map.mp hmem
        obtain ⟨hx1, hx2⟩ := List.mem_filter.mp hx
        obtain ⟨y, hy, rfl⟩ := List.mem_map.mp hx1
        obtain ⟨v1, hv1, rfl⟩ := List.mem_map.mp hy
        have e1 : v1 = v0 := inj_of_nodup hm.unique.verts hv1 hv0 hxi
        subst e1
        have hx2' : (((sortUnique v1.edgeind).filter fun e => !D.contains e).length == 0) = true := hx2
        exact (hne v1 hv0).mpr hex (List.length_eq_zero_iff.mp (by simpa only [beq_iff_eq] using hx2'))
    refine ⟨?_, ?_, ?_, ?_, ?_, ?_, ?_, ?_⟩
    · intro c
      unfold HasSurf
      simp only [hsurf]
      constructor
      · rintro ⟨x, ⟨s0, hs0, ⟨d, hd, hdi⟩, rfl⟩, rfl⟩
        exact ⟨d, hd, hdi⟩
      · rintro ⟨c0, hc0, rfl⟩
        obtain ⟨d, hd, hdi⟩ := hφ.image c0 hc0
        exact ⟨_, ⟨d, hd, ⟨c0, hc0, hdi.symm⟩, rfl⟩, hdi⟩
    · intro x
      unfold HasEdge
      simp only [hedge]
      constructor
      · rintro ⟨_, ⟨e0, he0, rfl, hb⟩, rfl⟩; exact ⟨⟨e0, he0, rfl⟩, hb⟩
      · rintro ⟨⟨e0, he0, rfl⟩, hb⟩; exact ⟨_, ⟨e0, he0, rfl, hb⟩, rfl⟩
    · intro x
      unfold HasVert
      simp only [hvert]
      constructor
      · rintro ⟨_, ⟨v0, hv0, hb, rfl⟩, rfl⟩; exact ⟨⟨v0, hv0, rfl⟩, hb⟩
      · rintro ⟨⟨v0, hv0, rfl⟩, hb⟩; exact ⟨_, ⟨v0, hv0, hb, rfl⟩, rfl⟩
    · intro x e
      constructor
      · rintro ⟨v, hv, rfl, he⟩
        obtain ⟨v0, hv0, _, rfl⟩ := (hvert v).mp hv
        obtain ⟨h1, h2⟩ := List.mem_filter.mp he
        rw [mem_sortUnique] at h1
        have := hDm e (hEdgeOf v0 hv0 e h1)
        simp only [Bool.not_eq_true', List.contains_eq_mem, decide_eq_false_iff_not] at h2
        exact ⟨⟨v0, hv0, rfl, h1⟩, by tauto⟩
      · rintro ⟨⟨v0, hv0, rfl, he⟩, hb⟩
        have := hDm e (hEdgeOf v0 hv0 e he)
        refine ⟨_, (hvert _).mpr ⟨v0, hv0, ⟨e, ⟨v0, hv0, rfl, he⟩, hb⟩, rfl⟩, rfl,
          List.mem_filter.mpr ⟨mem_sortUnique.mpr he, ?_⟩⟩
        simp only [Bool.not_eq_true', List.contains_eq_mem, decide_eq_false_iff_not]; tauto
    · intro x v
      unfold EdgeVert
      simp only [hedge]
      constructor
      · rintro ⟨_, ⟨e0, he0, rfl, hb⟩, rfl, hv⟩; exact ⟨⟨e0, he0, rfl, hv⟩, hb⟩
      · rintro ⟨⟨e0, he0, rfl, hv⟩, hb⟩; exact ⟨_, ⟨e0, he0, rfl, hb⟩, rfl, hv⟩
    · intro x c
      unfold EdgeSurf
      simp only [hedge]
      constructor
      · rintro ⟨_, ⟨e0, he0, rfl, hb⟩, rfl, hc⟩
        obtain ⟨c0, hc0, rfl⟩ := List.mem_map.mp (mem_sortUnique.mp hc)
        exact ⟨hb, c0, ⟨e0, he0, rfl, hc0⟩, rfl⟩
      · rintro ⟨hb, c0, ⟨e0, he0, rfl, hc0⟩, rfl⟩
        exact ⟨_, ⟨e0, he0, rfl, hb⟩, rfl, mem_sortUnique.mpr (List.mem_map.mpr ⟨c0, hc0, rfl⟩)⟩
    · intro c x
      constructor
      · rintro ⟨s, hs, rfl, hx⟩
        obtain ⟨s0, hs0, ⟨d, hd, hdi⟩, rfl⟩ := (hsurf s).mp hs
        obtain ⟨h1, h2⟩ := List.mem_filter.mp hx
        have hself : φ s0.index = s0.index := by rw [← hdi, hφ.idem d hd]
        have hex : HasEdge m x ∧ ∃ c0, SurfEdge m c0 x ∧ φ c0 = s0.index := by
          rcases List.mem_append.mp (mem_sortUnique.mp h1) with h | h
          · exact ⟨hm.noDangling.surfEdge s0.index x ⟨s0, hs0, rfl, h⟩, s0.index, ⟨s0, hs0, rfl, h⟩, hself⟩
          · obtain ⟨e0, he0, rfl, c1, hc1, hv1, e1⟩ := hE1 _ _ h
            exact ⟨⟨e0, he0, rfl⟩, c1, (hm.sym.edgeSurf e0.index c1 ⟨e0, he0, rfl⟩ hv1).mp ⟨e0, he0, rfl, hc1⟩, e1⟩
        refine ⟨?_, hex.2⟩
        by_contra hcon
        have hDx := (hDm x hex.1).mpr hcon
        obtain ⟨c0, hc0, hcs⟩ := hex.2
        have hc0' : HasSurf m c0 := by obtain ⟨s, hs, hi, _⟩ := hc0; exact ⟨s, hs, hi⟩
        obtain ⟨e0, he0, hxi, hce⟩ := (hm.sym.edgeSurf x c0 hex.1 hc0').mpr hc0
        have hlist : listsSurf b.edges x s0.index = true := by
          simp only [listsSurf, List.any_eq_true, Bool.and_eq_true, beq_iff_eq, List.contains_eq_mem,
            decide_eq_true_eq]
          exact ⟨_, List.mem_map.mpr ⟨e0, he0, rfl⟩, hxi, mem_sortUnique.mpr (List.mem_map.mpr ⟨c0, hce, hcs⟩)⟩
        rw [hlist] at h2
        simp [hDx] at h2
      · rintro ⟨hb, c0, ⟨s1, hs1, rfl, hx⟩, rfl⟩
        have hv : HasSurf m s1.index := ⟨s1, hs1, rfl⟩
        have hxe : HasEdge m x := hm.noDangling.surfEdge _ _ ⟨s1, hs1, rfl, hx⟩
        obtain ⟨d, hd, hdi⟩ := hφ.image _ hv
        refine ⟨_, (hsurf _).mpr ⟨d, hd, ⟨s1.index, hv, hdi.symm⟩, rfl⟩, hdi, List.mem_filter.mpr ⟨?_, ?_⟩⟩
        · refine mem_sortUnique.mpr (List.mem_append.mpr (Or.inr ?_))
          rw [hdi]
          obtain ⟨e0, he0, rfl, hce⟩ := (hm.sym.edgeSurf x s1.index hxe hv).mpr ⟨s1, hs1, rfl, hx⟩
          exact hE2 _ hv e0 he0 hce
        · have hDx : x ∉ D := by
            have := hDm x hxe
            tauto
          simp [hDx]
    · intro c d
      constructor
      · rintro ⟨s, hs, rfl, hd⟩
        obtain ⟨s0, hs0, _, rfl⟩ := (hsurf s).mp hs
        exact ⟨⟨_, hs, rfl⟩, s0, hs0, rfl, mem_sortUnique.mp hd⟩
      · rintro ⟨⟨s, hs, rfl⟩, s1, hs1, hi, hd⟩
        obtain ⟨s0, hs0, hex, rfl⟩ := (hsurf s).mp hs
        have e1 : s1 = s0 := inj_of_nodup hm.unique.surfs hs1 hs0 hi
        subst e1
        exact ⟨_, hs, rfl, mem_sortUnique.mpr hd⟩

theorem solid_sound {m r : Mesh} {φ : Int → Int} (hm : Sound m) (hφ : Merging (HasVolu m) φ)
    (hu : UniqueIndices r) (h : SolidMerged m r φ) : Sound r where
  unique := hu
  pos := ⟨fun i hi => hm.pos.verts i ((h.verts i).mp hi), fun i hi => hm.pos.edges i ((h.edges i).mp hi),
    fun i hi => hm.pos.surfs i ((h.surfs i).mp hi), fun i hi => by
      obtain ⟨c, hc, rfl⟩ := (h.volus i).mp hi
      exact hm.pos.volus _ (hφ.image c hc)⟩
  noDangling := by
    refine ⟨fun v e h0 hn => (h.edges e).mpr (hm.noDangling.vertEdge v e ((h.vertEdge v e).mp h0) hn),
      fun e v h0 hn => (h.verts v).mpr (hm.noDangling.edgeVert e v ((h.edgeVert e v).mp h0) hn),
      fun e s h0 hn => (h.surfs s).mpr (hm.noDangling.edgeSurf e s ((h.edgeSurf e s).mp h0) hn),
      fun s e h0 => (h.edges e).mpr (hm.noDangling.surfEdge s e ((h.surfEdge s e).mp h0)), ?_, ?_⟩
    · intro s c h0 hn
      obtain ⟨c0, hc0, rfl⟩ := (h.surfVolu s c).mp h0
      exact (h.volus _).mpr ⟨c0, hm.noDangling.surfVolu s c0 hc0 (by rintro rfl; exact hn hφ.zero), rfl⟩
    · intro c s h0 hn
      obtain ⟨c0, hc0, rfl⟩ := (h.voluSurf c s).mp h0
      exact (h.surfs s).mpr (hm.noDangling.voluSurf c0 s hc0 hn)
  zeroOutside := by
    refine ⟨fun v h0 => hm.zeroOutside.vertEdge v ((h.vertEdge v 0).mp h0),
      fun e h0 => hm.zeroOutside.edgeVert e ((h.edgeVert e 0).mp h0),
      fun s h0 => hm.zeroOutside.surfEdge s ((h.surfEdge s 0).mp h0), ?_⟩
    intro c h0
    obtain ⟨c0, hc0, rfl⟩ := (h.voluSurf c 0).mp h0
    exact hm.zeroOutside.voluSurf c0 hc0
  sym := by
    refine ⟨?_, ?_, ?_⟩
    · intro v e hv he
      rw [h.vertEdge, h.edgeVert]
      exact hm.sym.vertEdge v e ((h.verts v).mp hv) ((h.edges e).mp he)
    · intro e s he hs
      rw [h.edgeSurf, h.surfEdge]
      exact hm.sym.edgeSurf e s ((h.edges e).mp he) ((h.surfs s).mp hs)
    · intro s c hs hc
      rw [h.surfVolu, h.voluSurf]
      have hs' := (h.surfs s).mp hs
      obtain ⟨c1, hc1, hi1⟩ := (h.volus c).mp hc
      have hpos := hm.pos.volus _ (hφ.image c1 hc1)
      constructor
      · rintro ⟨c0, hc0, rfl⟩
        have h0 : HasVolu m c0 := hm.noDangling.surfVolu s c0 hc0 (by rintro rfl; rw [hi1, hφ.zero] at hpos; omega)
        exact ⟨c0, (hm.sym.surfVolu s c0 hs' h0).mp hc0, rfl⟩
      · rintro ⟨c0, hc0, rfl⟩
        have h0 : HasVolu m c0 := by obtain ⟨x, hx, hxi, _⟩ := hc0; exact ⟨x, hx, hxi⟩
        exact ⟨c0, (hm.sym.surfVolu s c0 hs' h0).mpr hc0, rfl⟩

theorem plane_sound {m r : Mesh} {φ : Int → Int} (hm : Sound m) (hφ : Merging (HasSurf m) φ)
    (hflat : m.volus = []) (hu : UniqueIndices r) (hflat' : r.volus = []) (h : PlaneMerged m r φ) : Sound r := by
  have hnov : ∀ c, ¬ HasVolu r c := by rintro c ⟨x, hx, _⟩; simp [hflat'] at hx
  have hnov' : ∀ c, ¬ HasVolu m c := by rintro c ⟨x, hx, _⟩; simp [hflat] at hx
  have hnos : ∀ c s, ¬ VoluSurf r c s := by rintro c s ⟨x, hx, _⟩; simp [hflat'] at hx
  refine ⟨hu, ⟨fun i hi => hm.pos.verts i ((h.verts i).mp hi).1, fun i hi => hm.pos.edges i ((h.edges i).mp hi).1,
    fun i hi => ?_, fun i hi => absurd hi (hnov i)⟩, ⟨?_, ?_, ?_, ?_, ?_, ?_⟩, ⟨?_, ?_, ?_, ?_⟩, ?_, ?_, ?_⟩
  · obtain ⟨c, hc, rfl⟩ := (h.surfs i).mp hi
    exact hm.pos.surfs _ (hφ.image c hc)
  · intro v e h0 hn
    obtain ⟨h1, h2⟩ := (h.vertEdge v e).mp h0
    exact (h.edges e).mpr ⟨hm.noDangling.vertEdge v e h1 hn, h2⟩
  · intro e v h0 hn
    obtain ⟨h1, h2⟩ := (h.edgeVert e v).mp h0
    have hv := hm.noDangling.edgeVert e v h1 hn
    have he : HasEdge m e := by obtain ⟨x, hx, hxi, _⟩ := h1; exact ⟨x, hx, hxi⟩
    exact (h.verts v).mpr ⟨hv, e, (hm.sym.vertEdge v e hv he).mpr h1, h2⟩
  · intro e s h0 hn
    obtain ⟨_, c0, hc0, rfl⟩ := (h.edgeSurf e s).mp h0
    exact (h.surfs _).mpr ⟨c0, hm.noDangling.edgeSurf e c0 hc0 (by rintro rfl; exact hn hφ.zero), rfl⟩
  · intro s e h0
    obtain ⟨h1, c0, hc0, rfl⟩ := (h.surfEdge s e).mp h0
    exact (h.edges e).mpr ⟨hm.noDangling.surfEdge c0 e hc0, h1⟩
  · intro s c h0 hn
    exact absurd (hm.noDangling.surfVolu s c ((h.surfVolu s c).mp h0).2 hn) (hnov' c)
  · intro c s h0; exact absurd h0 (hnos c s)
  · intro v h0; exact hm.zeroOutside.vertEdge v ((h.vertEdge v 0).mp h0).1
  · intro e h0; exact hm.zeroOutside.edgeVert e ((h.edgeVert e 0).mp h0).1
  · intro s h0
    obtain ⟨_, c0, hc0, rfl⟩ := (h.surfEdge s 0).mp h0
    exact hm.zeroOutside.surfEdge c0 hc0
  · intro c h0; exact hnos c 0 h0
  · intro v e hv he
    rw [h.vertEdge, h.edgeVert, hm.sym.vertEdge v e ((h.verts v).mp hv).1 ((h.edges e).mp he).1]
  · intro e s he hs
    rw [h.edgeSurf, h.surfEdge]
    obtain ⟨c1, hc1, hi1⟩ := (h.surfs s).mp hs
    have hpos := hm.pos.surfs _ (hφ.image c1 hc1)
    have he' := ((h.edges e).mp he).1
    refine and_congr_right fun _ => ?_
    constructor
    · rintro ⟨c0, hc0, rfl⟩
      have h0 : HasSurf m c0 := hm.noDangling.edgeSurf e c0 hc0 (by rintro rfl; rw [hi1, hφ.zero] at hpos; omega)
      exact ⟨c0, (hm.sym.edgeSurf e c0 he' h0).mp hc0, rfl⟩
    · rintro ⟨c0, hc0, rfl⟩
      have h0 : HasSurf m c0 := by obtain ⟨x, hx, hxi, _⟩ := hc0; exact ⟨x, hx, hxi⟩
      exact ⟨c0, (hm.sym.edgeSurf e c0 he' h0).mpr hc0, rfl⟩
  · intro s c _ hc; exact absurd hc (hnov c)

end RSVS.Refine
