import Verif.Lemmas.FloodMesh
import Verif.Lemmas.FaceFanMesh
import Verif.Lemmas.MeshOrder
import Verif.Model.ForceClose
import Verif.Spec.ForceClose

/-!
# Lemmas for the new containers of a mesh
-/

namespace RSVS.ForceClose

open RSVS RSVS.Mesh RSVS.Spec

theorem rawMod_map {α : Type} {ix : α → Int} {l : List α} (hn : (l.map ix).Nodup) {k : Int} (h : ∃ a ∈ l, ix a = k) (f : α → α) :
    rawMod l (posOf ix l k) f = .ok (l.map fun a => if ix a = k then f a else a) := by
  obtain ⟨p, h1, hp, h2⟩ := posOf_mem h
  unfold rawMod
  rw [h1, if_pos ⟨by omega, by simpa using hp⟩]
  congr 1
  refine List.ext_getElem (by simp) fun i g1 g2 => ?_
  simp only [Int.toNat_natCast, List.getElem_modify, List.getElem_map]
  have hi : i < l.length := by simpa using g1
  by_cases hpi : p = i
  · subst hpi
    simp [h2]
  · rw [if_neg hpi, if_neg]
    intro h3
    apply hpi
    exact (List.Nodup.getElem_inj_iff hn (i := p) (j := i) (hi := by simpa using hp) (hj := by simpa using hi)).1 (by simp [h2, h3])

variable {α β : Type} {ixA : α → Int} {ixB : β → Int} {setA : Int → α → α} {pushB : Int → β → β} {listB : β → List Int}
  {Q : β → Prop}

/-- What the writes must satisfy. -/
structure Good (ixA : α → Int) (ixB : β → Int) (setA : Int → α → α) (pushB : Int → β → β) (listB : β → List Int)
    (Q : β → Prop) : Prop where
  indA : ∀ c a, ixA (setA c a) = ixA a
  again : ∀ c a, setA c (setA c a) = setA c a
  indB : ∀ s b, ixB (pushB s b) = ixB b
  list : ∀ s b, listB (pushB s b) = listB b ++ [s]
  keep : ∀ s b, Q b → Q (pushB s b)

/-- The state after the pairs `P` of container and element; `lab` is the container of an element. -/
structure Inv (ixA : α → Int) (ixB : β → Int) (setA : Int → α → α) (listB : β → List Int) (Q : β → Prop) (as : List α) (idx : List Int)
    (lab : Int → Int) (P : List (Int × Int)) (st : List α × List β) : Prop where
  elems : st.1 = as.map fun a => if ixA a ∈ P.map Prod.snd then setA (lab (ixA a)) a else a
  inds : st.2.map ixB = idx
  lists : ∀ b ∈ st.2, ∀ s, s ∈ listB b ↔ (ixB b, s) ∈ P
  rest : ∀ b ∈ st.2, Q b

theorem step_ok (hg : Good ixA ixB setA pushB listB Q) {as : List α} {idx : List Int} {lab : Int → Int} {P : List (Int × Int)}
    {st : List α × List β} (hi : Inv ixA ixB setA listB Q as idx lab P st) (hA : (as.map ixA).Nodup) (hB : idx.Nodup) {c s : Int}
    (hs : s ∈ as.map ixA) (hc : c ∈ idx) (hl : c = lab s) :
    ∃ st', closePair ixA ixB setA pushB c st s = .ok st' ∧ Inv ixA ixB setA listB Q as idx lab (P ++ [(c, s)]) st' := by
  have hA' : st.1.map ixA = as.map ixA := by
    rw [hi.elems, List.map_map]
    refine List.map_congr_left fun a _ => ?_
    simp only [Function.comp]
    split
    · exact hg.indA _ _
    · rfl
  unfold closePair
  rw [rawMod_map (ix := ixB) (by rw [hi.inds]; exact hB) (by
    rw [← hi.inds, List.mem_map] at hc
    exact hc), rawMod_map (ix := ixA) (by rw [hA']; exact hA) (by
    rw [← hA', List.mem_map] at hs
    exact hs)]
  refine ⟨_, rfl, ⟨?_, ?_, ?_, ?_⟩⟩
  · simp only [hi.elems, List.map_map]
    refine List.map_congr_left fun a _ => ?_
    simp only [Function.comp, List.map_append, List.map_cons, List.map_nil, List.mem_append, List.mem_cons, List.not_mem_nil, or_false]
    by_cases h1 : ixA a ∈ P.map Prod.snd
    · rw [if_pos h1, hg.indA, if_pos (Or.inl h1)]
      by_cases h2 : ixA a = s
      · rw [if_pos h2, h2, hl, hg.again]
      · rw [if_neg h2]
    · rw [if_neg h1]
      by_cases h2 : ixA a = s
      · rw [if_pos h2, if_pos (Or.inr h2), h2, hl]
      · rw [if_neg h2, if_neg (by tauto)]
  · simp only [List.map_map]
    rw [← hi.inds]
    refine List.map_congr_left fun b _ => ?_
    simp only [Function.comp]
    split
    · exact hg.indB _ _
    · rfl
  · intro b hb t
    simp only [List.mem_map] at hb
    obtain ⟨b0, hb0, rfl⟩ := hb
    have h0 := hi.lists b0 hb0 t
    by_cases h : ixB b0 = c
    · rw [if_pos h, hg.indB, hg.list, List.mem_append, List.mem_append, h0, h]
      simp
    · rw [if_neg h, h0, List.mem_append]
      constructor
      · exact Or.inl
      · rintro (h1 | h1)
        · exact h1
        · simp only [List.mem_cons, List.not_mem_nil, or_false, Prod.mk.injEq] at h1
          exact absurd h1.1 h
  · intro b hb
    simp only [List.mem_map] at hb
    obtain ⟨b0, hb0, rfl⟩ := hb
    split
    · exact hg.keep _ _ (hi.rest b0 hb0)
    · exact hi.rest b0 hb0

theorem fold_ok (hg : Good ixA ixB setA pushB listB Q) {as : List α} {idx : List Int} {lab : Int → Int} (hA : (as.map ixA).Nodup)
    (hB : idx.Nodup) {c : Int} (hc : c ∈ idx) : ∀ (l : List Int) {P : List (Int × Int)} {st : List α × List β},
    Inv ixA ixB setA listB Q as idx lab P st → (∀ s ∈ l, s ∈ as.map ixA ∧ c = lab s) →
    ∃ st', l.foldlM (m := Except Fault) (closePair ixA ixB setA pushB c) st = .ok st' ∧
      Inv ixA ixB setA listB Q as idx lab (P ++ l.map fun s => (c, s)) st'
  | [], P, st, hi, _ => ⟨st, rfl, by simpa using hi⟩
  | s :: l, P, st, hi, h => by
    obtain ⟨st1, e1, i1⟩ := step_ok hg hi hA hB (h s (by simp)).1 hc (h s (by simp)).2
    obtain ⟨st2, e2, i2⟩ := fold_ok hg hA hB hc l i1 fun t ht => h t (by simp [ht])
    refine ⟨st2, ?_, ?_⟩
    · rw [List.foldlM_cons, e1]
      exact e2
    · simpa using i2

/-- A loop which extends the pairs by `g a` for each element. -/
theorem loop_ok {γ : Type} {as : List α} {idx : List Int} {lab : Int → Int} {f : List α × List β → γ → Res (List α × List β)}
    {g : γ → List (Int × Int)} : ∀ (l : List γ) {P : List (Int × Int)} {st : List α × List β},
    (∀ a ∈ l, ∀ P st, Inv ixA ixB setA listB Q as idx lab P st →
      ∃ st', f st a = .ok st' ∧ Inv ixA ixB setA listB Q as idx lab (P ++ g a) st') →
    Inv ixA ixB setA listB Q as idx lab P st →
    ∃ st', l.foldlM (m := Except Fault) f st = .ok st' ∧ Inv ixA ixB setA listB Q as idx lab (P ++ l.flatMap g) st'
  | [], P, st, _, hi => ⟨st, rfl, by simpa using hi⟩
  | a :: l, P, st, h, hi => by
    obtain ⟨st1, e1, i1⟩ := h a (by simp) P st hi
    obtain ⟨st2, e2, i2⟩ := loop_ok l (fun b hb => h b (by simp [hb])) i1
    refine ⟨st2, ?_, ?_⟩
    · rw [List.foldlM_cons, e1]
      exact e2
    · simpa using i2

theorem good_volu : Good Surf.index Volu.index setVolu pushSurf Volu.surfind (fun _ => True) :=
  ⟨fun _ _ => rfl, fun _ _ => rfl, fun _ _ => rfl, fun _ _ => rfl, fun _ _ _ => trivial⟩

theorem good_surf : Good Edge.index Surf.index setSurf pushEdge Surf.edgeind (fun f => f.voluind = []) :=
  ⟨fun _ _ => rfl, fun _ _ => rfl, fun _ _ => rfl, fun _ _ => rfl, fun _ _ h => h⟩

theorem newInds (n : Int) : ((List.range n.toNat).map fun i : Nat => (i : Int) + 1).Nodup ∧
    ∀ c, c ∈ (List.range n.toNat).map (fun i : Nat => (i : Int) + 1) ↔ 1 ≤ c ∧ c ≤ n := by
  refine ⟨?_, fun c => ?_⟩
  · refine List.Nodup.map (fun a b h => ?_) List.nodup_range
    have h' : (a : Int) + 1 = (b : Int) + 1 := h
    omega
  · rw [List.mem_map]
    constructor
    · rintro ⟨i, hi, rfl⟩
      rw [List.mem_range] at hi
      omega
    · rintro ⟨h1, h2⟩
      exact ⟨(c - 1).toNat, by rw [List.mem_range]; omega, by omega⟩

/-- The labels as a function of the index. -/
theorem labels_fun {m : Mesh} (hm : Sound m) (h2 : TwoVerts m) :
    ∃ labels n lab, m.connectedVertex [] = .ok (labels, n) ∧ labels.length = m.verts.length ∧
      (∀ p ∈ List.zip m.verts labels, p.2 = lab p.1.index) ∧ Parts m (fun c => 1 ≤ c ∧ c ≤ n) lab := by
  obtain ⟨labels, n, h1, hlen, _, _, h3, h4, h5⟩ := connectedVertex_spec hm h2 (block := []) (Or.inl rfl)
  have hfree : FreeVert m [] = HasVert m := by
    funext v
    apply propext
    constructor
    · rintro ⟨k, x, hx, hxi, _⟩
      exact ⟨x, List.mem_of_getElem? hx, hxi⟩
    · rintro ⟨x, hx, hxi⟩
      obtain ⟨k, hk, rfl⟩ := List.getElem_of_mem hx
      exact ⟨k, _, List.getElem?_eq_getElem hk, hxi, Or.inl rfl⟩
  rw [hfree] at h3 h4 h5
  have h3' : ∀ v, ∃ l, HasVert m v → VertLabel m labels v l ∧ 1 ≤ l ∧ l ≤ n := fun v => by
    by_cases hv : HasVert m v
    · obtain ⟨l, hl⟩ := h3 v hv
      exact ⟨l, fun _ => hl⟩
    · exact ⟨0, fun h => absurd h hv⟩
  choose lab hlab using h3'
  have huni : ∀ v l, HasVert m v → VertLabel m labels v l → l = lab v := fun v l hv hl =>
    (h4 v v l (lab v) hv hv hl (hlab v hv).1).2 Relation.ReflTransGen.refl
  refine ⟨labels, n, lab, h1, hlen, fun p hp => ?_, fun v hv => (hlab v hv).2, fun c hc => ?_, fun v w hv hw =>
    h4 v w _ _ hv hw (hlab v hv).1 (hlab w hw).1⟩
  · obtain ⟨k, hk⟩ := List.getElem?_of_mem hp
    rw [List.getElem?_zip_eq_some] at hk
    exact huni _ _ ⟨p.1, List.mem_of_getElem? hk.1, rfl⟩ ⟨k, p.1, hk.1, rfl, hk.2⟩
  · obtain ⟨v, hv, hl⟩ := h5 c hc.1 hc.2
    exact ⟨v, hv, (huni v c hv hl).symm⟩

theorem zip_mem {m : Mesh} {labels : List Int} (hlen : labels.length = m.verts.length) {v : Vert} (hv : v ∈ m.verts) :
    ∃ c, (v, c) ∈ List.zip m.verts labels := by
  obtain ⟨k, hk, rfl⟩ := List.getElem_of_mem hv
  exact ⟨labels[k], List.mem_of_getElem? (i := k) (by rw [List.getElem?_zip_eq_some]; simp [hk])⟩

theorem edge_ends {m : Mesh} (hm : Sound m) (h2 : TwoVerts m) {x : Edge} (hx : x ∈ m.edges) :
    ∃ a b, x.vertind = [a, b] ∧ HasVert m a ∧ HasVert m b := by
  have hl := h2 x hx
  match hxv : x.vertind, hl with
  | [a, b], _ =>
    have h : ∀ c ∈ x.vertind, HasVert m c := fun c hc =>
      hm.noDangling.edgeVert x.index c ⟨x, hx, rfl, hc⟩ fun h0 => hm.zeroOutside.edgeVert x.index ⟨x, hx, rfl, h0 ▸ hc⟩
    rw [hxv] at h
    exact ⟨a, b, rfl, h a (by simp), h b (by simp)⟩

theorem joined_ends {m : Mesh} {x : Edge} (hx : x ∈ m.edges) {a b : Int} (ha : HasVert m a) (hb : HasVert m b) (h1 : a ∈ x.vertind)
    (h2 : b ∈ x.vertind) : VertJoined m (fun _ => True) (HasVert m) a b :=
  Relation.ReflTransGen.single ⟨ha, hb, x.index, trivial, ⟨x, hx, rfl, h1⟩, ⟨x, hx, rfl, h2⟩⟩

theorem label_get {m : Mesh} {labels : List Int} (hlen : labels.length = m.verts.length) {v : Int} (hv : HasVert m v) :
    ∃ l, vecGet labels (posOf Vert.index m.verts v) = .ok l := by
  obtain ⟨p, h1, hp, -⟩ := posOf_mem (ix := Vert.index) (l := m.verts) hv
  rw [h1]
  unfold vecGet
  have : labels[p]? = some labels[p] := List.getElem?_eq_getElem (by omega)
  rw [if_neg (by omega)]
  exact ⟨labels[p], by simp [this]⟩

end RSVS.ForceClose
