import Verif.Lemmas.EndPass
import Verif.Spec.Switch

/-!
# Lemmas for the switch of an edge, a surface or a volume for another
-/

namespace RSVS.Switch

open RSVS.Spec RSVS.Mesh RSVS.EndPass RSVS.Refine RSVS.FaceFan RSVS.SplitSurf

theorem modAt_congr {α : Type} {l : List α} {p : Int} {x : α} {f g : α → α} (hx : elemAt l p = .ok x) (h : f x = g x) :
    modAt l p f = modAt l p g := by
  unfold elemAt at hx
  unfold modAt
  split at hx
  · cases hx
  · rename_i hp
    rw [if_neg hp, if_neg hp]
    split at hx
    · rename_i a ha
      cases hx
      split
      · congr 1
        apply List.ext_getElem?
        intro i
        rw [List.getElem?_modify, List.getElem?_modify]
        by_cases hi : p.toNat = i
        · subst hi
          rw [ha]
          simp [h]
        · simp [hi]
      · rfl
    · cases hx

/-- Entries which are skipped can be left out. -/
theorem skip_fold {σ : Type} {step step' : σ → Int → Res σ} {pos : Int → Int} {P : Int → Bool} :
    ∀ (ks : List Int) (s : σ), (∀ k ∈ ks, ∀ s, P k = false → step s (pos k) = .ok s) → (∀ k ∈ ks, ∀ s, P k = true → step s (pos k) = step' s (pos k)) →
      (ks.map pos).foldlM (m := Except Fault) step s = ((ks.filter P).map pos).foldlM (m := Except Fault) step' s
  | [], _, _, _ => rfl
  | k :: ks, s, h1, h2 => by
    have ih := fun s => skip_fold ks s (fun k hk => h1 k (by simp [hk])) fun k hk => h2 k (by simp [hk])
    rw [List.map_cons, List.foldlM_cons]
    by_cases hP : P k = true
    · rw [List.filter_cons_of_pos hP, List.map_cons, List.foldlM_cons, h2 k (by simp) s hP]
      congr 1
      funext s'
      exact ih s'
    · have hP' : P k = false := by simpa using hP
      rw [List.filter_cons_of_neg hP, h1 k (by simp) s hP']
      exact ih s

theorem hasSurf_iff {m : Mesh} {k : Int} : (m.surfs.map Surf.index).contains k = true ↔ HasSurf m k := by
  simp [HasSurf]

theorem hasVolu_iff {m : Mesh} {k : Int} : (m.volus.map Volu.index).contains k = true ↔ HasVolu m k := by
  simp [HasVolu]

theorem posOf_none {α : Type} {ix : α → Int} {l : List α} {k : Int} (h : ¬ ∃ a ∈ l, ix a = k) : posOf ix l k = -1 := by
  rcases posOf_cases (ix := ix) l k with ⟨h1, _⟩ | ⟨p, _, hp, h2⟩
  · exact h1
  · exact absurd ⟨_, List.getElem_mem hp, h2⟩ h

/-- The surface with the edge replaced in it. -/
def swapIn (old new : Int) (x : Surf) : Surf :=
  if old ∈ x.edgeind then { x with edgeind := replaceAll old new x.edgeind, isordered := false } else x

theorem swapIn_index (old new : Int) (x : Surf) : (swapIn old new x).index = x.index := by
  unfold swapIn; split <;> rfl

theorem swapIn_twice (old new : Int) (h : old ≠ new) (x : Surf) : swapIn old new (swapIn old new x) = swapIn old new x := by
  by_cases hx : old ∈ x.edgeind
  · have : swapIn old new x = { x with edgeind := replaceAll old new x.edgeind, isordered := false } := if_pos hx
    rw [this]
    unfold swapIn
    rw [if_neg]
    simp only [mem_replaceAll]
    rintro (⟨_, h1⟩ | ⟨h1, _⟩)
    · exact h1 rfl
    · exact h h1
  · have : swapIn old new x = x := if_neg hx
    rw [this, this]

theorem replaceAll_length (old new : Int) (l : List Int) : (replaceAll old new l).length = l.length := by
  induction l with
  | nil => rfl
  | cons x l ih => simp [replaceAll, ih]

/-- What `SwitchIndex` of an edge does. -/
theorem edge_run {m : Mesh} {old new : Int} (hu : UniqueIndices m) (hne : old ≠ new) {oe : Edge} (hoe : oe ∈ m.edges) (hoi : oe.index = old)
    (hnew : HasEdge m new) (hv : ∀ k ∈ oe.vertind, HasVert m k) (hs : ∀ k ∈ oe.surfind, HasSurf m k ∨ m.volus = []) :
    ∃ extra, m.switchEdge old new = .ok { m with
        verts := m.verts.map fun v => if v.index ∈ oe.vertind then { v with edgeind := replaceAll old new v.edgeind } else v
        edges := m.edges.map fun e => if e.index = new then { e with surfind := e.surfind ++ extra } else e
        surfs := m.surfs.map fun x => if x.index ∈ oe.surfind then swapIn old new x else x } ∧
      ∀ x, x ∈ extra ↔ x ∈ oe.surfind ∧ ∃ b ∈ m.surfs, b.index = x ∧ old ∈ b.edgeind := by
  obtain ⟨oe', h1, h2, h3⟩ := elemAt_posOf_ok (ix := Edge.index) (l := m.edges) ⟨oe, hoe, hoi⟩
  obtain rfl := inj_of_nodup hu.edges h2 hoe (h3.trans hoi.symm)
  obtain ⟨extra, h4, h5⟩ := merge_fold (ixA := Edge.index) (ixB := Surf.index) (fld := Surf.edgeind) (upd := swapIn old new)
    (setA := fun (c : Edge) l => { c with surfind := l }) (gA := Edge.surfind) (old := old) (new := new)
    (A0 := m.edges) (B0 := m.surfs) (fun _ _ => rfl) (fun _ _ => rfl) (fun _ _ _ => rfl) (fun _ => rfl)
    (swapIn_index old new) (fun b hb => if_neg hb) (swapIn_twice old new hne)
    (oe'.surfind.filter fun k => (m.surfs.map Surf.index).contains k) m.edges m.surfs hu.edges rfl hu.surfs rfl
    (fun k hk => hasSurf_iff.1 (List.mem_filter.1 hk).2) hnew
  have hfold : (posList Surf.index m.surfs oe'.surfind).foldlM (m := Except Fault)
      (switchEdgeStep (!m.volus.isEmpty) old new (posOf Edge.index m.edges new)) (m.edges, m.surfs) =
      .ok (m.edges.map fun e => if e.index = new then { e with surfind := e.surfind ++ extra } else e,
        m.surfs.map fun x => if x.index ∈ oe'.surfind then swapIn old new x else x) := by
    unfold posList
    rw [skip_fold (P := fun k => (m.surfs.map Surf.index).contains k) (step' := mergeStep Surf.index Surf.edgeind (swapIn old new)
      (fun (c : Edge) l => { c with surfind := l }) Edge.surfind old (posOf Edge.index m.edges new))]
    · unfold posList at h4
      rw [h4]
      congr 2
      apply List.map_congr_left
      intro x hx
      have : (m.surfs.map Surf.index).contains x.index = true := hasSurf_iff.2 ⟨x, hx, rfl⟩
      simp only [List.mem_filter, this, and_true]
    · intro k hk s hP
      have hn : ¬ HasSurf m k := fun h => by
        have := hasSurf_iff.2 h
        rw [this] at hP
        cases hP
      have h0 := (hs k hk).resolve_left hn
      unfold switchEdgeStep
      rw [posOf_none hn, if_neg (by simp [h0])]
      rfl
    · intro k hk s hP
      obtain ⟨p, hp, _⟩ := posOf_mem (hasSurf_iff.1 hP)
      unfold switchEdgeStep mergeStep
      rw [if_pos (by left; rw [hp]; omega)]
      cases hx : elemAt s.2 (posOf Surf.index m.surfs k) with
      | error f => rfl
      | ok x =>
        show (if x.edgeind.contains old = true then _ else _) = (if x.edgeind.contains old = true then _ else _)
        by_cases hc : old ∈ x.edgeind
        · rw [if_pos (by simpa using hc), if_pos (by simpa using hc)]
          have : modAt s.2 (posOf Surf.index m.surfs k) (fun x => { x with edgeind := replaceAll old new x.edgeind, isordered := false }) =
              modAt s.2 (posOf Surf.index m.surfs k) (swapIn old new) := modAt_congr hx (if_pos hc).symm
          rw [this]
        · rw [if_neg (by simpa using hc), if_neg (by simpa using hc)]
  refine ⟨extra, ?_, ?_⟩
  · unfold switchEdge
    simp only [h1]
    show (visit _ _ _ >>= fun verts => _) = _
    rw [visit_eq (ix := Vert.index) (by intro a; rfl) (by intro a; simp [replaceAll_twice]) oe'.vertind m.verts hu.verts rfl hv]
    show (List.foldlM (m := Except Fault) _ _ _ >>= fun _ => _) = _
    rw [hfold]
    rfl
  · intro x
    rw [h5, List.mem_filter]
    constructor
    · rintro ⟨⟨h, _⟩, b⟩; exact ⟨h, b⟩
    · rintro ⟨h, b, hb, hbi, ho⟩; exact ⟨⟨h, hasSurf_iff.2 ⟨b, hb, hbi⟩⟩, b, hb, hbi, ho⟩

/-- What `SwitchIndex` of a volume does. -/
theorem volu_run {m : Mesh} {old new : Int} (hu : UniqueIndices m) {ov : Volu} (hov : ov ∈ m.volus) (hoi : ov.index = old)
    (hnew : HasVolu m new) (hs : ∀ k ∈ ov.surfind, HasSurf m k) :
    ∃ extra, m.switchVolu old new = .ok { m with
        surfs := m.surfs.map fun s => if s.index ∈ ov.surfind then { s with voluind := replaceAll old new s.voluind } else s
        volus := m.volus.map fun c => if c.index = new then { c with surfind := c.surfind ++ extra } else c } ∧
      ∀ x, x ∈ extra ↔ x ∈ ov.surfind ∧ ∃ b ∈ m.surfs, b.index = x ∧ old ∈ b.voluind := by
  obtain ⟨ov', h1, h2, h3⟩ := elemAt_posOf_ok (ix := Volu.index) (l := m.volus) ⟨ov, hov, hoi⟩
  obtain rfl := inj_of_nodup hu.volus h2 hov (h3.trans hoi.symm)
  obtain ⟨extra, h4, h5⟩ := merge_fold (ixA := Volu.index) (ixB := Surf.index) (fld := Surf.voluind)
    (upd := fun x => { x with voluind := replaceAll old new x.voluind })
    (setA := fun (c : Volu) l => { c with surfind := l }) (gA := Volu.surfind) (old := old) (new := new)
    (A0 := m.volus) (B0 := m.surfs) (fun _ _ => rfl) (fun _ _ => rfl) (fun _ _ _ => rfl) (fun _ => rfl)
    (fun _ => rfl) (fun b hb => by simp only [replaceAll_no hb]) (fun b => by simp only [replaceAll_twice])
    ov'.surfind m.volus m.surfs hu.volus rfl hu.surfs rfl hs hnew
  refine ⟨extra, ?_, h5⟩
  unfold switchVolu
  simp only [h1]
  show (List.foldlM (m := Except Fault) _ _ _ >>= fun _ => _) = _
  rw [switchVoluStep_eq, h4]
  rfl

/-- What `SwitchIndex` of a surface does. -/
theorem surf_switch {m : Mesh} {old new : Int} (hu : UniqueIndices m) (hne : old ≠ new) {os : Surf} (hos : os ∈ m.surfs) (hoi : os.index = old)
    (hnew : HasSurf m new) (he : ∀ k ∈ os.edgeind, HasEdge m k) :
    ∃ extra extra', m.switchSurf old new = .ok { m with
        edges := m.edges.map fun e => if e.index ∈ os.edgeind then { e with surfind := replaceAll old new e.surfind } else e
        surfs := m.surfs.map fun s => if s.index = new then { s with edgeind := s.edgeind ++ extra, voluind := s.voluind ++ extra', isordered := false } else s
        volus := m.volus.map fun c => if c.index ∈ os.voluind then { c with surfind := replaceAll old new c.surfind } else c } ∧
      (∀ x, x ∈ extra ↔ x ∈ os.edgeind ∧ ∃ b ∈ m.edges, b.index = x ∧ old ∈ b.surfind) ∧
      ∀ x, x ∈ extra' ↔ x ∈ os.voluind ∧ ∃ b ∈ m.volus, b.index = x ∧ old ∈ b.surfind := by
  obtain ⟨os', h1, h2, h3⟩ := elemAt_posOf_ok (ix := Surf.index) (l := m.surfs) ⟨os, hos, hoi⟩
  obtain rfl := inj_of_nodup hu.surfs h2 hos (h3.trans hoi.symm)
  obtain ⟨extra, h4, h5⟩ := merge_fold (ixA := Surf.index) (ixB := Edge.index) (fld := Edge.surfind)
    (upd := fun x => { x with surfind := replaceAll old new x.surfind })
    (setA := fun (c : Surf) l => { c with edgeind := l }) (gA := Surf.edgeind) (old := old) (new := new)
    (A0 := m.surfs) (B0 := m.edges) (fun _ _ => rfl) (fun _ _ => rfl) (fun _ _ _ => rfl) (fun _ => rfl)
    (fun _ => rfl) (fun b hb => by simp only [replaceAll_no hb]) (fun b => by simp only [replaceAll_twice])
    os'.edgeind m.surfs m.edges hu.surfs rfl hu.edges rfl he hnew
  have hm1 : (m.surfs.map fun a => if a.index = new then { a with edgeind := a.edgeind ++ extra } else a).map Surf.index = m.surfs.map Surf.index :=
    map_idx (by intro a; split <;> rfl)
  have hhas : ∀ k, HasSurf m k → ∃ a ∈ m.surfs.map fun a => if a.index = new then { a with edgeind := a.edgeind ++ extra } else a, a.index = k :=
    fun k hk => (FaceFan.has_of_map hm1 k).2 hk
  obtain ⟨o2, g1, g2, g3⟩ := elemAt_posOf_ok (ix := Surf.index) (hhas old ⟨os', hos, hoi⟩)
  have hvol : o2.voluind = os'.voluind := by
    obtain ⟨x, hx, rfl⟩ := List.mem_map.1 g2
    split at g3
    · rename_i hxn
      exact absurd (g3.symm.trans hxn) hne
    · rename_i hxn
      rw [if_neg hxn, inj_of_nodup hu.surfs hx hos (g3.trans hoi.symm)]
  obtain ⟨extra', k4, k5⟩ := merge_fold (ixA := Surf.index) (ixB := Volu.index) (fld := Volu.surfind)
    (upd := fun x => { x with surfind := replaceAll old new x.surfind })
    (setA := fun (c : Surf) l => { c with voluind := l }) (gA := Surf.voluind) (old := old) (new := new)
    (A0 := m.surfs) (B0 := m.volus) (fun _ _ => rfl) (fun _ _ => rfl) (fun _ _ _ => rfl) (fun _ => rfl)
    (fun _ => rfl) (fun b hb => by simp only [replaceAll_no hb]) (fun b => by simp only [replaceAll_twice])
    (os'.voluind.filter fun k => (m.volus.map Volu.index).contains k)
    (m.surfs.map fun a => if a.index = new then { a with edgeind := a.edgeind ++ extra } else a) m.volus (by rw [hm1]; exact hu.surfs) hm1 hu.volus rfl
    (fun k hk => hasVolu_iff.1 (List.mem_filter.1 hk).2) (hhas new hnew)
  have hfold : (posList Volu.index m.volus o2.voluind).foldlM (m := Except Fault)
      (switchSurfVoluStep old new (posOf Surf.index m.surfs new)) ((m.surfs.map fun a => if a.index = new then { a with edgeind := a.edgeind ++ extra } else a), m.volus) =
      .ok (m.surfs.map fun s => if s.index = new then { s with edgeind := s.edgeind ++ extra, voluind := s.voluind ++ extra' } else s,
        m.volus.map fun c => if c.index ∈ os'.voluind then { c with surfind := replaceAll old new c.surfind } else c) := by
    rw [hvol]
    unfold posList
    rw [skip_fold (P := fun k => (m.volus.map Volu.index).contains k) (step' := mergeStep Volu.index Volu.surfind
      (fun x => { x with surfind := replaceAll old new x.surfind })
      (fun (c : Surf) l => { c with voluind := l }) Surf.voluind old (posOf Surf.index m.surfs new))]
    · unfold posList at k4
      rw [k4, List.map_map]
      congr 2
      · apply List.map_congr_left
        intro x _
        simp only [Function.comp]
        by_cases hx : x.index = new <;> simp [hx]
      · apply List.map_congr_left
        intro x hx
        have : (m.volus.map Volu.index).contains x.index = true := hasVolu_iff.2 ⟨x, hx, rfl⟩
        simp only [List.mem_filter, this, and_true]
    · intro k hk s hP
      have hn : ¬ HasVolu m k := fun h => by
        have := hasVolu_iff.2 h
        rw [this] at hP
        cases hP
      unfold switchSurfVoluStep
      rw [posOf_none hn]
      rfl
    · intro k hk s hP
      obtain ⟨p, hp, _⟩ := posOf_mem (hasVolu_iff.1 hP)
      unfold switchSurfVoluStep mergeStep
      rw [if_pos (by rw [hp]; omega)]
  have hm2 : (m.surfs.map fun s => if s.index = new then { s with edgeind := s.edgeind ++ extra, voluind := s.voluind ++ extra' } else s).map Surf.index =
      m.surfs.map Surf.index := map_idx (by intro a; split <;> rfl)
  refine ⟨extra, extra', ?_, h5, ?_⟩
  · unfold switchSurf
    simp only [h1]
    show (List.foldlM (m := Except Fault) _ _ _ >>= fun _ => _) = _
    rw [switchSurfEdgeStep_eq, h4]
    show (elemAt (m.surfs.map fun a => if a.index = new then { a with edgeind := a.edgeind ++ extra } else a) _ >>= fun os => _) = _
    rw [g1]
    show (List.foldlM (m := Except Fault) _ _ (posList Volu.index m.volus o2.voluind) >>= fun _ => _) = _
    rw [hfold]
    show (modAt _ _ _ >>= fun _ => _) = _
    rw [← posOf_congr hm2, modAt_posOf (by rw [hm2]; exact hu.surfs) ((FaceFan.has_of_map hm2 new).2 hnew)]
    show Except.ok _ = Except.ok _
    congr 2
    rw [List.map_map]
    apply List.map_congr_left
    intro c _
    simp only [Function.comp]
    by_cases hc : c.index = new <;> simp [hc]
  · intro x
    rw [k5, List.mem_filter]
    constructor
    · rintro ⟨⟨h, _⟩, b⟩; exact ⟨h, b⟩
    · rintro ⟨h, b, hb, hbi, ho⟩; exact ⟨⟨h, hasVolu_iff.2 ⟨b, hb, hbi⟩⟩, b, hb, hbi, ho⟩

theorem swap_rel {α : Type} {ix : α → Int} {F : α → List Int} {f : α → α} {l : List α} {old new a : Int} (hf : ∀ x, ix (f x) = ix x)
    (h : ∀ x ∈ l, ix x = a → ∀ e, e ∈ F (f x) ↔ (e ∈ F x ∧ e ≠ old) ∨ (e = new ∧ old ∈ F x)) (e : Int) :
    (∃ y ∈ l.map f, ix y = a ∧ e ∈ F y) ↔ ((∃ x ∈ l, ix x = a ∧ e ∈ F x) ∧ e ≠ old) ∨ (e = new ∧ ∃ x ∈ l, ix x = a ∧ old ∈ F x) := by
  constructor
  · rintro ⟨y, hy, h1, h2⟩
    obtain ⟨x, hx, rfl⟩ := List.mem_map.1 hy
    rw [hf] at h1
    rcases (h x hx h1 e).1 h2 with ⟨g1, g2⟩ | ⟨g1, g2⟩
    · exact .inl ⟨⟨x, hx, h1, g1⟩, g2⟩
    · exact .inr ⟨g1, x, hx, h1, g2⟩
  · rintro (⟨⟨x, hx, h1, g1⟩, g2⟩ | ⟨g1, x, hx, h1, g2⟩)
    · exact ⟨f x, List.mem_map_of_mem hx, (hf x).trans h1, (h x hx h1 e).2 (.inl ⟨g1, g2⟩)⟩
    · exact ⟨f x, List.mem_map_of_mem hx, (hf x).trans h1, (h x hx h1 e).2 (.inr ⟨g1, g2⟩)⟩

theorem join_rel {α : Type} {ix : α → Int} {F : α → List Int} {f : α → α} {l : List α} {new : Int} {extra : List Int} (hf : ∀ x, ix (f x) = ix x)
    (h1 : ∀ x, ix x = new → F (f x) = F x ++ extra) (h2 : ∀ x, ix x ≠ new → F (f x) = F x) (hn : ∃ x ∈ l, ix x = new) (a b : Int) :
    (∃ y ∈ l.map f, ix y = a ∧ b ∈ F y) ↔ (∃ x ∈ l, ix x = a ∧ b ∈ F x) ∨ (a = new ∧ b ∈ extra) := by
  constructor
  · rintro ⟨y, hy, g1, g2⟩
    obtain ⟨x, hx, rfl⟩ := List.mem_map.1 hy
    rw [hf] at g1
    by_cases hx' : ix x = new
    · rw [h1 x hx', List.mem_append] at g2
      rcases g2 with g2 | g2
      · exact .inl ⟨x, hx, g1, g2⟩
      · exact .inr ⟨g1.symm.trans hx', g2⟩
    · rw [h2 x hx'] at g2
      exact .inl ⟨x, hx, g1, g2⟩
  · rintro (⟨x, hx, g1, g2⟩ | ⟨rfl, g2⟩)
    · refine ⟨f x, List.mem_map_of_mem hx, (hf x).trans g1, ?_⟩
      by_cases hx' : ix x = new
      · rw [h1 x hx']; exact List.mem_append_left _ g2
      · rwa [h2 x hx']
    · obtain ⟨x, hx, hi⟩ := hn
      exact ⟨f x, List.mem_map_of_mem hx, (hf x).trans hi, by rw [h1 x hi]; exact List.mem_append_right _ g2⟩

theorem same_rel {α : Type} {ix : α → Int} {F : α → List Int} {f : α → α} {l : List α} (hf : ∀ x, ix (f x) = ix x) (hF : ∀ x, F (f x) = F x) (a b : Int) :
    (∃ y ∈ l.map f, ix y = a ∧ b ∈ F y) ↔ ∃ x ∈ l, ix x = a ∧ b ∈ F x := by
  constructor
  · rintro ⟨y, hy, g1, g2⟩
    obtain ⟨x, hx, rfl⟩ := List.mem_map.1 hy
    exact ⟨x, hx, hf x ▸ g1, hF x ▸ g2⟩
  · rintro ⟨x, hx, g1, g2⟩
    exact ⟨f x, List.mem_map_of_mem hx, (hf x).trans g1, (hF x).symm ▸ g2⟩

/-- A list in which the replacement is made when the holder is listed, if the others do not hold the index. -/
theorem mem_swapped {l : List Int} {old new : Int} {P : Prop} [Decidable P] (h : old ∈ l → P) (e : Int) :
    e ∈ (if P then replaceAll old new l else l) ↔ (e ∈ l ∧ e ≠ old) ∨ (e = new ∧ old ∈ l) := by
  by_cases hP : P
  · rw [if_pos hP, mem_replaceAll]
  · rw [if_neg hP]
    have hn : old ∉ l := fun h' => hP (h h')
    constructor
    · intro he; exact .inl ⟨he, fun h' => hn (h' ▸ he)⟩
    · rintro (⟨he, _⟩ | ⟨_, he⟩)
      · exact he
      · exact absurd he hn

theorem unique_of_idx {m r : Mesh} (h : EndPass.SameIdx m r) (hu : UniqueIndices m) : UniqueIndices r :=
  ⟨by rw [h.verts]; exact hu.verts, by rw [h.edges]; exact hu.edges, by rw [h.surfs]; exact hu.surfs, by rw [h.volus]; exact hu.volus⟩

theorem pos_of_same {m r : Mesh} (h : SameElements m r) (hp : PosIndices m) : PosIndices r :=
  ⟨fun i hi => hp.verts i ((h.verts i).1 hi), fun i hi => hp.edges i ((h.edges i).1 hi), fun i hi => hp.surfs i ((h.surfs i).1 hi),
    fun i hi => hp.volus i ((h.volus i).1 hi)⟩

theorem unique_without {m : Mesh} {d : Removals} (hu : UniqueIndices m) : UniqueIndices (without m d) :=
  ⟨hu.verts.sublist (List.filter_sublist.map _), hu.edges.sublist (List.filter_sublist.map _),
    hu.surfs.sublist (List.filter_sublist.map _), hu.volus.sublist (List.filter_sublist.map _)⟩

theorem pos_without {m : Mesh} {d : Removals} (hp : PosIndices m) : PosIndices (without m d) :=
  ⟨fun i hi => hp.verts i (hasVert_without.1 hi).1, fun i hi => hp.edges i (hasEdge_without.1 hi).1, fun i hi => hp.surfs i (hasSurf_without.1 hi).1,
    fun i hi => hp.volus i (hasVolu_without.1 hi).1⟩

/-- The elements not in `d` list each other. -/
theorem rest_ve {m : Mesh} {d : Removals} (hd : SoundWithout m d) (v e : Int) :
    (VertEdge m v e ∧ v ∉ d.verts) ↔ (EdgeVert m e v ∧ e ∉ d.edges) :=
  (vertEdge_without v e).symm.trans ((sound_ve hd.rest v e).trans (edgeVert_without e v))

theorem rest_es {m : Mesh} {d : Removals} (hd : SoundWithout m d) (e s : Int) :
    (SurfEdge m s e ∧ s ∉ d.surfs) ↔ (EdgeSurf m e s ∧ e ∉ d.edges) ∧ s ≠ 0 :=
  (surfEdge_without s e).symm.trans ((sound_es hd.rest e s).trans (and_congr (edgeSurf_without e s) Iff.rfl))

theorem rest_sc {m : Mesh} {d : Removals} (hd : SoundWithout m d) (s c : Int) :
    (VoluSurf m c s ∧ c ∉ d.volus) ↔ (SurfVolu m s c ∧ s ∉ d.surfs) ∧ c ≠ 0 :=
  (voluSurf_without c s).symm.trans ((sound_sc hd.rest s c).trans (and_congr (surfVolu_without s c) Iff.rfl))

theorem soundWithout_mk {m : Mesh} {d : Removals} (hu : UniqueIndices m) (hp : PosIndices m)
    (hv : ∀ v ∈ d.verts, HasVert m v) (he : ∀ e ∈ d.edges, HasEdge m e) (hs : ∀ s ∈ d.surfs, HasSurf m s) (hc : ∀ c ∈ d.volus, HasVolu m c)
    (h1 : ∀ v e, (VertEdge m v e ∧ v ∉ d.verts) ↔ (EdgeVert m e v ∧ e ∉ d.edges))
    (h2 : ∀ e s, (SurfEdge m s e ∧ s ∉ d.surfs) ↔ (EdgeSurf m e s ∧ e ∉ d.edges) ∧ s ≠ 0)
    (h3 : ∀ s c, (VoluSurf m c s ∧ c ∉ d.volus) ↔ (SurfVolu m s c ∧ s ∉ d.surfs) ∧ c ≠ 0) : SoundWithout m d where
  unique := hu
  pos := hp
  verts := hv
  edges := he
  surfs := hs
  volus := hc
  rest := sound_mk (m := without m d) (unique_without hu) (pos_without hp)
    (fun v e => (vertEdge_without v e).trans ((h1 v e).trans (edgeVert_without e v).symm))
    (fun e s => (surfEdge_without s e).trans ((h2 e s).trans (and_congr (edgeSurf_without e s).symm Iff.rfl)))
    (fun s c => (voluSurf_without c s).trans ((h3 s c).trans (and_congr (surfVolu_without s c).symm Iff.rfl)))

theorem edge_ok {m : Mesh} {d : Removals} {old new : Int} (hd : SoundWithout m d) (hne : old ≠ new) (ho : HasEdge m old) (hod : old ∉ d.edges)
    (hn : HasEdge m new) (hnd : new ∉ d.edges) (h0 : EdgeSurf m old 0 → m.volus = []) :
    ∃ m', m.switchEdge old new = .ok m' ∧ EdgeMerged m m' d old new ∧
      (SoundWithout m' { d with edges := old :: d.edges } ↔ ∀ v, EdgeVert m old v → EdgeVert m new v) ∧ EndPass.SameIdx m m' ∧
      m'.edges.map Edge.vertind = m.edges.map Edge.vertind ∧ m'.volus = m.volus ∧
      (∃ g : Surf → Surf, m'.surfs = m.surfs.map g ∧ ∀ x, (g x).index = x.index ∧ (g x).edgeind.length = x.edgeind.length ∧ (g x).voluind = x.voluind) ∧
      m'.verts.map Vert.coord = m.verts.map Vert.coord := by
  obtain ⟨oe, hoe, hoi⟩ := ho
  have hmem : ∀ {x : Edge}, x ∈ m.edges → x.index = old → x = oe := fun hx hi => inj_of_nodup hd.unique.edges hx hoe (hi.trans hoi.symm)
  have hov : ∀ v, v ∈ oe.vertind ↔ EdgeVert m old v := fun v =>
    ⟨fun h => ⟨oe, hoe, hoi, h⟩, fun ⟨x, hx, hi, h⟩ => hmem hx hi ▸ h⟩
  have hos : ∀ s, s ∈ oe.surfind ↔ EdgeSurf m old s := fun s =>
    ⟨fun h => ⟨oe, hoe, hoi, h⟩, fun ⟨x, hx, hi, h⟩ => hmem hx hi ▸ h⟩
  obtain ⟨extra, h1, h2⟩ := edge_run hd.unique hne hoe hoi hn
    (fun k hk => by
      obtain ⟨x, hx, hi, -⟩ := ((rest_ve hd k old).2 ⟨(hov k).1 hk, hod⟩).1
      exact ⟨x, hx, hi⟩)
    (fun k hk => by
      by_cases hk0 : k = 0
      · exact .inr (h0 ((hos 0).1 (hk0 ▸ hk)))
      · obtain ⟨x, hx, hi, -⟩ := ((rest_es hd old k).2 ⟨⟨(hos k).1 hk, hod⟩, hk0⟩).1
        exact .inl ⟨x, hx, hi⟩)
  have h2' : ∀ s, s ∈ extra ↔ s ≠ 0 ∧ EdgeSurf m old s := fun s => by
    rw [h2, hos]
    constructor
    · rintro ⟨g1, b, hb, hbi, -⟩
      have := hd.pos.surfs s ⟨b, hb, hbi⟩
      exact ⟨by omega, g1⟩
    · rintro ⟨g1, g2⟩
      exact ⟨g2, ((rest_es hd old s).2 ⟨⟨g2, hod⟩, g1⟩).1⟩
  have hidx : EndPass.SameIdx m { m with
      verts := m.verts.map fun v => if v.index ∈ oe.vertind then { v with edgeind := replaceAll old new v.edgeind } else v
      edges := m.edges.map fun e => if e.index = new then { e with surfind := e.surfind ++ extra } else e
      surfs := m.surfs.map fun x => if x.index ∈ oe.surfind then swapIn old new x else x } :=
    ⟨map_idx (by intro a; split <;> rfl), map_idx (by intro a; split <;> rfl), map_idx (by intro a; split; exact swapIn_index _ _ _; rfl), rfl⟩
  have hM : EdgeMerged m { m with
      verts := m.verts.map fun v => if v.index ∈ oe.vertind then { v with edgeind := replaceAll old new v.edgeind } else v
      edges := m.edges.map fun e => if e.index = new then { e with surfind := e.surfind ++ extra } else e
      surfs := m.surfs.map fun x => if x.index ∈ oe.surfind then swapIn old new x else x } d old new :=
    { same := hidx.same
      vertEdge := fun v e hv => swap_rel (ix := Vert.index) (F := Vert.edgeind) (by intro a; split <;> rfl) (by
        intro x hx hi e
        rw [show (if x.index ∈ oe.vertind then { x with edgeind := replaceAll old new x.edgeind } else x).edgeind =
          if x.index ∈ oe.vertind then replaceAll old new x.edgeind else x.edgeind by split <;> rfl]
        apply mem_swapped
        intro h
        rw [hov]
        exact ((rest_ve hd x.index old).1 ⟨⟨x, hx, rfl, h⟩, hi ▸ hv⟩).1) e
      surfEdge := fun s e hs => swap_rel (ix := Surf.index) (F := Surf.edgeind) (by intro a; split; exact swapIn_index _ _ _; rfl) (by
        intro x hx hi e
        have : old ∈ x.edgeind → x.index ∈ oe.surfind := fun h => by
          rw [hos]
          exact ((rest_es hd old x.index).1 ⟨⟨x, hx, rfl, h⟩, hi ▸ hs⟩).1.1
        rw [show (if x.index ∈ oe.surfind then swapIn old new x else x).edgeind =
          if old ∈ x.edgeind then replaceAll old new x.edgeind else x.edgeind by
            by_cases h : old ∈ x.edgeind
            · rw [if_pos (this h), if_pos h]
              unfold swapIn
              rw [if_pos h]
            · rw [if_neg h]
              unfold swapIn
              rw [if_neg h]
              split <;> rfl]
        exact mem_swapped id e) e
      edgeVert := fun e v => same_rel (ix := Edge.index) (F := Edge.vertind) (by intro a; split <;> rfl) (by intro a; split <;> rfl) e v
      edgeSurf := fun e s he => (join_rel (ix := Edge.index) (F := Edge.surfind) (extra := extra) (new := new) (by intro a; split <;> rfl)
        (by intro x hx; rw [if_pos hx]) (by intro x hx; rw [if_neg hx]) hn e s).trans (by rw [h2']; rfl)
      surfVolu := fun s c => same_rel (ix := Surf.index) (F := Surf.voluind) (by intro a; split; exact swapIn_index _ _ _; rfl)
        (by intro a; split; (unfold swapIn; split <;> rfl); rfl) s c
      voluSurf := fun c s => Iff.rfl }
  refine ⟨_, h1, hM, ⟨fun hS v hv => ?_, fun hends => ?_⟩, hidx, ?_, rfl, ⟨_, rfl, fun x => ⟨?_, ?_, ?_⟩⟩, ?_⟩
  · have g := (rest_ve hd v old).2 ⟨hv, hod⟩
    have g2 := ((hM.vertEdge v new g.2).2 (.inr ⟨rfl, g.1⟩))
    exact (hM.edgeVert new v).1 ((rest_ve hS v new).1 ⟨g2, g.2⟩).1
  · refine soundWithout_mk (unique_of_idx hidx hd.unique) (pos_of_same hM.same hd.pos) (fun v hv => (hM.same.verts v).2 (hd.verts v hv)) ?_
      (fun v hv => (hM.same.surfs v).2 (hd.surfs v hv)) (fun v hv => (hM.same.volus v).2 (hd.volus v hv)) ?_ ?_ ?_
    · intro e he
      refine (hM.same.edges e).2 ?_
      rcases List.mem_cons.1 he with rfl | he
      · exact ⟨oe, hoe, hoi⟩
      · exact hd.edges e he
    · intro v e
      rw [hM.edgeVert]
      simp only [List.mem_cons, not_or]
      constructor
      · rintro ⟨gg, hv⟩
        rcases (hM.vertEdge v e hv).1 gg with ⟨g1, g2⟩ | ⟨rfl, g1⟩
        · obtain ⟨g3, g4⟩ := (rest_ve hd v e).1 ⟨g1, hv⟩
          exact ⟨g3, g2, g4⟩
        · exact ⟨hends v ((rest_ve hd v old).1 ⟨g1, hv⟩).1, hne.symm, hnd⟩
      · rintro ⟨g1, g2, g3⟩
        obtain ⟨g4, g5⟩ := (rest_ve hd v e).2 ⟨g1, g3⟩
        exact ⟨(hM.vertEdge v e g5).2 (.inl ⟨g4, g2⟩), g5⟩
    · intro e s
      simp only [List.mem_cons, not_or]
      constructor
      · rintro ⟨gg, hs⟩
        rcases (hM.surfEdge s e hs).1 gg with ⟨g1, g2⟩ | ⟨rfl, g1⟩
        · obtain ⟨⟨g3, g4⟩, g5⟩ := (rest_es hd e s).1 ⟨g1, hs⟩
          exact ⟨⟨(hM.edgeSurf e s g4).2 (.inl g3), g2, g4⟩, g5⟩
        · obtain ⟨⟨g3, g4⟩, g5⟩ := (rest_es hd old s).1 ⟨g1, hs⟩
          exact ⟨⟨(hM.edgeSurf e s hnd).2 (.inr ⟨rfl, g5, g3⟩), hne.symm, hnd⟩, g5⟩
      · rintro ⟨⟨gg, g1, g2⟩, g3⟩
        rcases (hM.edgeSurf e s g2).1 gg with g | ⟨rfl, -, g⟩
        · obtain ⟨g4, g5⟩ := (rest_es hd e s).2 ⟨⟨g, g2⟩, g3⟩
          exact ⟨(hM.surfEdge s e g5).2 (.inl ⟨g4, g1⟩), g5⟩
        · obtain ⟨g4, g5⟩ := (rest_es hd old s).2 ⟨⟨g, hod⟩, g3⟩
          exact ⟨(hM.surfEdge s e g5).2 (.inr ⟨rfl, g4⟩), g5⟩
    · intro s c
      rw [hM.voluSurf, hM.surfVolu]
      exact rest_sc hd s c
  · rw [List.map_map]
    apply List.map_congr_left
    intro a _
    simp only [Function.comp]
    split <;> rfl
  · split
    · exact swapIn_index _ _ _
    · rfl
  · split
    · unfold swapIn
      split
      · exact replaceAll_length _ _ _
      · rfl
    · rfl
  · split
    · unfold swapIn; split <;> rfl
    · rfl
  · rw [List.map_map]
    apply List.map_congr_left
    intro a _
    simp only [Function.comp]
    split <;> rfl

theorem volu_ok {m : Mesh} {d : Removals} {old new : Int} (hd : SoundWithout m d) (hne : old ≠ new) (ho : HasVolu m old) (hod : old ∉ d.volus)
    (hn : HasVolu m new) (hnd : new ∉ d.volus) :
    ∃ m', m.switchVolu old new = .ok m' ∧ VoluMerged m m' d old new ∧ SoundWithout m' { d with volus := old :: d.volus } := by
  obtain ⟨ov, hov, hoi⟩ := ho
  have hos : ∀ s, s ∈ ov.surfind ↔ VoluSurf m old s := fun s =>
    ⟨fun h => ⟨ov, hov, hoi, h⟩, fun ⟨x, hx, hi, h⟩ => inj_of_nodup hd.unique.volus hx hov (hi.trans hoi.symm) ▸ h⟩
  obtain ⟨extra, h1, h2⟩ := volu_run hd.unique hov hoi hn
    (fun k hk => by
      obtain ⟨x, hx, hi, -⟩ := ((rest_sc hd k old).1 ⟨(hos k).1 hk, hod⟩).1.1
      exact ⟨x, hx, hi⟩)
  have h2' : ∀ s, s ∈ extra ↔ VoluSurf m old s := fun s => by
    rw [h2, hos]
    exact ⟨And.left, fun g => ⟨g, ((rest_sc hd s old).1 ⟨g, hod⟩).1.1⟩⟩
  have hidx : EndPass.SameIdx m { m with
      surfs := m.surfs.map fun s => if s.index ∈ ov.surfind then { s with voluind := replaceAll old new s.voluind } else s
      volus := m.volus.map fun c => if c.index = new then { c with surfind := c.surfind ++ extra } else c } :=
    ⟨rfl, rfl, map_idx (by intro a; split <;> rfl), map_idx (by intro a; split <;> rfl)⟩
  have hM : VoluMerged m { m with
      surfs := m.surfs.map fun s => if s.index ∈ ov.surfind then { s with voluind := replaceAll old new s.voluind } else s
      volus := m.volus.map fun c => if c.index = new then { c with surfind := c.surfind ++ extra } else c } d old new :=
    { same := hidx.same
      vertEdge := fun v e => Iff.rfl
      edgeVert := fun v e => Iff.rfl
      edgeSurf := fun v e => Iff.rfl
      surfEdge := fun s e => same_rel (ix := Surf.index) (F := Surf.edgeind) (by intro a; split <;> rfl) (by intro a; split <;> rfl) s e
      surfVolu := fun s c hs => swap_rel (ix := Surf.index) (F := Surf.voluind) (by intro a; split <;> rfl) (by
        intro x hx hi e
        rw [show (if x.index ∈ ov.surfind then { x with voluind := replaceAll old new x.voluind } else x).voluind =
          if x.index ∈ ov.surfind then replaceAll old new x.voluind else x.voluind by split <;> rfl]
        apply mem_swapped
        intro h
        rw [hos]
        have := hd.pos.volus old ⟨ov, hov, hoi⟩
        exact ((rest_sc hd x.index old).2 ⟨⟨⟨x, hx, rfl, h⟩, hi ▸ hs⟩, by omega⟩).1) c
      voluSurf := fun c s hc => (join_rel (ix := Volu.index) (F := Volu.surfind) (extra := extra) (new := new) (by intro a; split <;> rfl)
        (by intro x hx; rw [if_pos hx]) (by intro x hx; rw [if_neg hx]) hn c s).trans (by rw [h2']; rfl) }
  refine ⟨_, h1, hM, ?_⟩
  have hp0 : old ≠ 0 := by have := hd.pos.volus old ⟨ov, hov, hoi⟩; omega
  have hp1 : new ≠ 0 := by have := hd.pos.volus new hn; omega
  refine soundWithout_mk (unique_of_idx hidx hd.unique) (pos_of_same hM.same hd.pos) (fun v hv => (hM.same.verts v).2 (hd.verts v hv))
    (fun v hv => (hM.same.edges v).2 (hd.edges v hv)) (fun v hv => (hM.same.surfs v).2 (hd.surfs v hv)) ?_ ?_ ?_ ?_
  · intro e he
    refine (hM.same.volus e).2 ?_
    rcases List.mem_cons.1 he with rfl | he
    · exact ⟨ov, hov, hoi⟩
    · exact hd.volus e he
  · intro v e
    rw [hM.vertEdge, hM.edgeVert]
    exact rest_ve hd v e
  · intro e s
    rw [hM.surfEdge, hM.edgeSurf]
    exact rest_es hd e s
  · intro s c
    simp only [List.mem_cons, not_or]
    constructor
    · rintro ⟨gg, gc, hc⟩
      rcases (hM.voluSurf c s hc).1 gg with g | ⟨rfl, g⟩
      · obtain ⟨⟨g3, g4⟩, g5⟩ := (rest_sc hd s c).1 ⟨g, hc⟩
        exact ⟨⟨(hM.surfVolu s c g4).2 (.inl ⟨g3, gc⟩), g4⟩, g5⟩
      · obtain ⟨⟨g3, g4⟩, g5⟩ := (rest_sc hd s old).1 ⟨g, hod⟩
        exact ⟨⟨(hM.surfVolu s c g4).2 (.inr ⟨rfl, g3⟩), g4⟩, hp1⟩
    · rintro ⟨⟨gg, g1⟩, g2⟩
      rcases (hM.surfVolu s c g1).1 gg with ⟨g, gc⟩ | ⟨rfl, g⟩
      · obtain ⟨g4, g5⟩ := (rest_sc hd s c).2 ⟨⟨g, g1⟩, g2⟩
        exact ⟨(hM.voluSurf c s g5).2 (.inl g4), gc, g5⟩
      · obtain ⟨g4, g5⟩ := (rest_sc hd s old).2 ⟨⟨g, g1⟩, hp0⟩
        exact ⟨(hM.voluSurf c s hnd).2 (.inr ⟨rfl, g4⟩), hne.symm, hnd⟩

theorem surf_ok {m : Mesh} {d : Removals} {old new : Int} (hd : SoundWithout m d) (hne : old ≠ new) (ho : HasSurf m old) (hod : old ∉ d.surfs)
    (hn : HasSurf m new) (hnd : new ∉ d.surfs) :
    ∃ m', m.switchSurf old new = .ok m' ∧ SurfMerged m m' d old new ∧ SoundWithout m' { d with surfs := old :: d.surfs } ∧ EndPass.SameIdx m m' ∧
      m'.verts = m.verts ∧ m'.edges.map Edge.vertind = m.edges.map Edge.vertind ∧
      (∃ g : Surf → Surf, m'.surfs = m.surfs.map g ∧ ∀ x, (g x).index = x.index ∧ x.edgeind.length ≤ (g x).edgeind.length) ∧
      (∃ g : Volu → Volu, m'.volus = m.volus.map g ∧ ∀ x, (g x).index = x.index ∧ (g x).surfind.length = x.surfind.length) := by
  obtain ⟨os, hos, hoi⟩ := ho
  have hp0 : old ≠ 0 := by have := hd.pos.surfs old ⟨os, hos, hoi⟩; omega
  have hp1 : new ≠ 0 := by have := hd.pos.surfs new hn; omega
  have hoe : ∀ s, s ∈ os.edgeind ↔ SurfEdge m old s := fun s =>
    ⟨fun h => ⟨os, hos, hoi, h⟩, fun ⟨x, hx, hi, h⟩ => inj_of_nodup hd.unique.surfs hx hos (hi.trans hoi.symm) ▸ h⟩
  have hoc : ∀ s, s ∈ os.voluind ↔ SurfVolu m old s := fun s =>
    ⟨fun h => ⟨os, hos, hoi, h⟩, fun ⟨x, hx, hi, h⟩ => inj_of_nodup hd.unique.surfs hx hos (hi.trans hoi.symm) ▸ h⟩
  obtain ⟨extra, extra', h1, h2, h3⟩ := surf_switch hd.unique hne hos hoi hn
    (fun k hk => by
      obtain ⟨x, hx, hi, -⟩ := ((rest_es hd k old).1 ⟨(hoe k).1 hk, hod⟩).1.1
      exact ⟨x, hx, hi⟩)
  have h2' : ∀ s, s ∈ extra ↔ SurfEdge m old s := fun s => by
    rw [h2, hoe]
    exact ⟨And.left, fun g => ⟨g, ((rest_es hd s old).1 ⟨g, hod⟩).1.1⟩⟩
  have h3' : ∀ c, c ∈ extra' ↔ c ≠ 0 ∧ SurfVolu m old c := fun c => by
    rw [h3, hoc]
    constructor
    · rintro ⟨g1, b, hb, hbi, -⟩
      have := hd.pos.volus c ⟨b, hb, hbi⟩
      exact ⟨by omega, g1⟩
    · rintro ⟨g1, g2⟩
      exact ⟨g2, ((rest_sc hd old c).2 ⟨⟨g2, hod⟩, g1⟩).1⟩
  have hidx : EndPass.SameIdx m { m with
      edges := m.edges.map fun e => if e.index ∈ os.edgeind then { e with surfind := replaceAll old new e.surfind } else e
      surfs := m.surfs.map fun s => if s.index = new then { s with edgeind := s.edgeind ++ extra, voluind := s.voluind ++ extra', isordered := false } else s
      volus := m.volus.map fun c => if c.index ∈ os.voluind then { c with surfind := replaceAll old new c.surfind } else c } :=
    ⟨rfl, map_idx (by intro a; split <;> rfl), map_idx (by intro a; split <;> rfl), map_idx (by intro a; split <;> rfl)⟩
  have hM : SurfMerged m { m with
      edges := m.edges.map fun e => if e.index ∈ os.edgeind then { e with surfind := replaceAll old new e.surfind } else e
      surfs := m.surfs.map fun s => if s.index = new then { s with edgeind := s.edgeind ++ extra, voluind := s.voluind ++ extra', isordered := false } else s
      volus := m.volus.map fun c => if c.index ∈ os.voluind then { c with surfind := replaceAll old new c.surfind } else c } d old new :=
    { same := hidx.same
      vertEdge := fun v e => Iff.rfl
      edgeVert := fun e v => same_rel (ix := Edge.index) (F := Edge.vertind) (by intro a; split <;> rfl) (by intro a; split <;> rfl) e v
      edgeSurf := fun e s he => swap_rel (ix := Edge.index) (F := Edge.surfind) (by intro a; split <;> rfl) (by
        intro x hx hi e
        rw [show (if x.index ∈ os.edgeind then { x with surfind := replaceAll old new x.surfind } else x).surfind =
          if x.index ∈ os.edgeind then replaceAll old new x.surfind else x.surfind by split <;> rfl]
        apply mem_swapped
        intro h
        rw [hoe]
        exact ((rest_es hd x.index old).2 ⟨⟨⟨x, hx, rfl, h⟩, hi ▸ he⟩, hp0⟩).1) s
      voluSurf := fun c s hc => swap_rel (ix := Volu.index) (F := Volu.surfind) (by intro a; split <;> rfl) (by
        intro x hx hi e
        rw [show (if x.index ∈ os.voluind then { x with surfind := replaceAll old new x.surfind } else x).surfind =
          if x.index ∈ os.voluind then replaceAll old new x.surfind else x.surfind by split <;> rfl]
        apply mem_swapped
        intro h
        rw [hoc]
        exact ((rest_sc hd old x.index).1 ⟨⟨x, hx, rfl, h⟩, hi ▸ hc⟩).1.1) s
      surfEdge := fun s e hs => (join_rel (ix := Surf.index) (F := Surf.edgeind) (extra := extra) (new := new) (by intro a; split <;> rfl)
        (by intro x hx; rw [if_pos hx]) (by intro x hx; rw [if_neg hx]) hn s e).trans (by rw [h2']; rfl)
      surfVolu := fun s c hs => (join_rel (ix := Surf.index) (F := Surf.voluind) (extra := extra') (new := new) (by intro a; split <;> rfl)
        (by intro x hx; rw [if_pos hx]) (by intro x hx; rw [if_neg hx]) hn s c).trans (by rw [h3']; rfl) }
  refine ⟨_, h1, hM, ?_, hidx, rfl, ?_, ⟨_, rfl, fun x => ⟨?_, ?_⟩⟩, ⟨_, rfl, fun x => ⟨?_, ?_⟩⟩⟩
  rotate_left
  · rw [List.map_map]
    apply List.map_congr_left
    intro a _
    simp only [Function.comp]
    split <;> rfl
  · split <;> rfl
  · split
    · simp
    · exact le_refl _
  · split <;> rfl
  · split
    · exact replaceAll_length _ _ _
    · rfl
  refine soundWithout_mk (unique_of_idx hidx hd.unique) (pos_of_same hM.same hd.pos) (fun v hv => (hM.same.verts v).2 (hd.verts v hv))
    (fun v hv => (hM.same.edges v).2 (hd.edges v hv)) ?_ (fun v hv => (hM.same.volus v).2 (hd.volus v hv)) ?_ ?_ ?_
  · intro e he
    refine (hM.same.surfs e).2 ?_
    rcases List.mem_cons.1 he with rfl | he
    · exact ⟨os, hos, hoi⟩
    · exact hd.surfs e he
  · intro v e
    rw [hM.vertEdge, hM.edgeVert]
    exact rest_ve hd v e
  · intro e s
    simp only [List.mem_cons, not_or]
    constructor
    · rintro ⟨gg, gs, hs⟩
      rcases (hM.surfEdge s e hs).1 gg with g | ⟨rfl, g⟩
      · obtain ⟨⟨g3, g4⟩, g5⟩ := (rest_es hd e s).1 ⟨g, hs⟩
        exact ⟨⟨(hM.edgeSurf e s g4).2 (.inl ⟨g3, gs⟩), g4⟩, g5⟩
      · obtain ⟨⟨g3, g4⟩, g5⟩ := (rest_es hd e old).1 ⟨g, hod⟩
        exact ⟨⟨(hM.edgeSurf e s g4).2 (.inr ⟨rfl, g3⟩), g4⟩, hp1⟩
    · rintro ⟨⟨gg, g1⟩, g2⟩
      rcases (hM.edgeSurf e s g1).1 gg with ⟨g, gc⟩ | ⟨rfl, g⟩
      · obtain ⟨g4, g5⟩ := (rest_es hd e s).2 ⟨⟨g, g1⟩, g2⟩
        exact ⟨(hM.surfEdge s e g5).2 (.inl g4), gc, g5⟩
      · obtain ⟨g4, g5⟩ := (rest_es hd e old).2 ⟨⟨g, g1⟩, hp0⟩
        exact ⟨(hM.surfEdge s e hnd).2 (.inr ⟨rfl, g4⟩), hne.symm, hnd⟩
  · intro s c
    simp only [List.mem_cons, not_or]
    constructor
    · rintro ⟨gg, hc⟩
      rcases (hM.voluSurf c s hc).1 gg with ⟨g, gs⟩ | ⟨rfl, g⟩
      · obtain ⟨⟨g3, g4⟩, g5⟩ := (rest_sc hd s c).1 ⟨g, hc⟩
        exact ⟨⟨(hM.surfVolu s c g4).2 (.inl g3), gs, g4⟩, g5⟩
      · obtain ⟨⟨g3, g4⟩, g5⟩ := (rest_sc hd old c).1 ⟨g, hc⟩
        exact ⟨⟨(hM.surfVolu s c hnd).2 (.inr ⟨rfl, g5, g3⟩), hne.symm, hnd⟩, g5⟩
    · rintro ⟨⟨gg, g1, g2⟩, g3⟩
      rcases (hM.surfVolu s c g2).1 gg with g | ⟨rfl, -, g⟩
      · obtain ⟨g4, g5⟩ := (rest_sc hd s c).2 ⟨⟨g, g2⟩, g3⟩
        exact ⟨(hM.voluSurf c s g5).2 (.inl ⟨g4, g1⟩), g5⟩
      · obtain ⟨g4, g5⟩ := (rest_sc hd old c).2 ⟨⟨g, hod⟩, g3⟩
        exact ⟨(hM.voluSurf c s g5).2 (.inr ⟨rfl, g4⟩), g5⟩

end RSVS.Switch
