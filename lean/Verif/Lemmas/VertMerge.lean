import Verif.Lemmas.VertPass

/-!
# Lemmas for the joining of snaxels on the same edge: the vertices are joined
-/

namespace RSVS.VertPass

open RSVS.Spec RSVS.Mesh RSVS.SpawnRemove

variable {m n : Mesh} {snaxs : List (Int × Int)} {snaxedges live : List Int} {M : List (Int × Int)}

/-- The name after the pairs have been joined. -/
def nameOf (M : List (Int × Int)) (v : Int) : Int :=
  match M.find? (fun p => p.2 == v) with
  | some p => p.1
  | none => v

/-- No pair of the list has a snaxel in common with `p`. -/
def ApartFrom (p : Int × Int) (M : List (Int × Int)) : Prop := ∀ q ∈ M, ¬ SharesEnd q p

theorem sharesEnd_symm {p q : Int × Int} (h : SharesEnd p q) : SharesEnd q p := by
  rcases h with h | h | h | h
  · exact Or.inl h.symm
  · exact Or.inr (Or.inr (Or.inl h.symm))
  · exact Or.inr (Or.inl h.symm)
  · exact Or.inr (Or.inr (Or.inr h.symm))

theorem apart_all (ha : M.Pairwise fun p q => ¬ SharesEnd p q) {p q : Int × Int} (hp : p ∈ M) (hq : q ∈ M) (hne : p ≠ q) : ¬ SharesEnd p q := by
  haveI : Std.Symm fun p q : Int × Int => ¬ SharesEnd p q := ⟨fun _ _ h h' => h (sharesEnd_symm h')⟩
  exact ha.forall hp hq hne

theorem nameOf_cases (M : List (Int × Int)) (v : Int) : (∃ p ∈ M, p.2 = v ∧ nameOf M v = p.1) ∨ ((∀ p ∈ M, p.2 ≠ v) ∧ nameOf M v = v) := by
  unfold nameOf
  cases h : M.find? (fun p => p.2 == v) with
  | some p =>
    left
    refine ⟨p, List.mem_of_find?_eq_some h, ?_, rfl⟩
    simpa using List.find?_some h
  | none =>
    right
    refine ⟨?_, rfl⟩
    intro p hp
    simpa using List.find?_eq_none.mp h p hp

theorem nameOf_snoc {p : Int × Int} (hp : ApartFrom p M) (v : Int) : nameOf (M ++ [p]) v = if v = p.2 then p.1 else nameOf M v := by
  have hno : M.find? (fun q => q.2 == p.2) = none := by
    rw [List.find?_eq_none]
    intro q hq
    have := hp q hq
    simp only [beq_iff_eq]
    intro h
    exact this (Or.inr (Or.inr (Or.inr h)))
  unfold nameOf
  rw [List.find?_append]
  by_cases hv : v = p.2
  · rw [if_pos hv, hv, hno]
    simp
  · rw [if_neg hv]
    have : [p].find? (fun q => q.2 == v) = none := by
      rw [List.find?_eq_none]
      intro q hq
      obtain rfl := List.mem_singleton.mp hq
      simpa using fun h => hv h.symm
    rw [this]
    simp

theorem nameOf_hit {p : Int × Int} (hp : ApartFrom p M) {v : Int} (h : nameOf M v = p.2) : v = p.2 := by
  rcases nameOf_cases M v with ⟨q, hq, _, h2⟩ | ⟨_, h2⟩
  · exact absurd (Or.inr (Or.inl (h2.symm.trans h))) (hp q hq)
  · exact h2.symm.trans h

theorem nameOf_pair (ha : M.Pairwise fun p q => ¬ SharesEnd p q) {p : Int × Int} (hp : p ∈ M) : nameOf M p.2 = p.1 := by
  rcases nameOf_cases M p.2 with ⟨q, hq, h1, h2⟩ | ⟨h1, _⟩
  · by_cases e : q = p
    · rw [h2, e]
    · exfalso
      exact apart_all ha hq hp e (Or.inr (Or.inr (Or.inr h1)))
  · exact absurd rfl (h1 p hp)

/-- The vertices are merged under weaker conditions than in a sound mesh. -/
theorem switchVert_weak (hu : UniqueIndices n) {old new : Int} (hne : old ≠ new) (hnew : HasVert n new) {ov : Vert} (hov : ov ∈ n.verts)
    (hi : ov.index = old) (hnd : ov.edgeind.Nodup) (hk : ∀ k ∈ ov.edgeind, ∃ e ∈ n.edges, e.index = k ∧ e.vertind.length = 2) :
    n.switchVert old new = .ok { n with
      verts := (mergedVerts n old new ov.edgeind).map (fun v =>
        if v.index = new then { v with edgeind := sortUnique v.edgeind } else v)
      edges := mergedEdges n old new ov.edgeind } := by
  have hold : HasVert n old := ⟨ov, hov, hi⟩
  obtain ⟨a, ha, ham, hai⟩ := elemAt_posOf_ok (ix := Vert.index) hold
  have : a = ov := inj_of_nodup hu.verts ham hov (hai.trans hi.symm)
  subst this
  unfold switchVert
  simp only [ha]
  show (List.foldlM (m := Except Fault) _ _ _ >>= fun s => _) = _
  rw [switch_fold hu hne hold hnew a.edgeind hnd hk]
  show (modAt _ _ _ >>= fun verts => _) = _
  have hm2 := mergedVerts_index n old new a.edgeind
  rw [posOf_congr hm2.symm new, modAt_posOf (by rw [hm2]; exact hu.verts)
    (mem_of_index_eq hm2 hnew)]
  rfl

/-- One vertex of the merged mesh. -/
def mergedVert (old new : Int) (ks : List Int) (v : Vert) : Vert :=
  if v.index = new then { v with edgeind := sortUnique (v.edgeind ++ ks) }
  else if v.index = old then { v with edgeind := v.edgeind.filter (fun x => x ∉ ks) }
  else v

theorem mergedVerts_map (old new : Int) (ks : List Int) : (mergedVerts n old new ks).map (fun v =>
    if v.index = new then { v with edgeind := sortUnique v.edgeind } else v) = n.verts.map (mergedVert old new ks) := by
  unfold mergedVerts
  rw [List.map_map]
  refine List.map_congr_left ?_
  intro v _
  simp only [Function.comp_apply, mergedVert]
  by_cases h1 : v.index = new
  · simp [h1]
  · by_cases h2 : v.index = old
    · simp only [h2, if_true]
      by_cases h3 : old = new
      · exact absurd (h2.trans h3) h1
      · simp [h3]
    · simp [h1, h2]

theorem mergedVert_index (old new : Int) (ks : List Int) (v : Vert) : (mergedVert old new ks v).index = v.index := by
  unfold mergedVert
  split
  · rfl
  · split <;> rfl

theorem vertEdge_merged {old new : Int} (hne : old ≠ new) (hnew : HasVert n new) (hu : (n.verts.map Vert.index).Nodup) {ov : Vert} (hov : ov ∈ n.verts) (hi : ov.index = old)
    (es : List Edge) {w e : Int} :
    VertEdge { n with verts := n.verts.map (mergedVert old new ov.edgeind), edges := es } w e ↔
      (w = new ∧ (VertEdge n new e ∨ VertEdge n old e)) ∨ (w ≠ new ∧ w ≠ old ∧ VertEdge n w e) := by
  constructor
  · rintro ⟨x, hx, rfl, he⟩
    obtain ⟨v, hv, rfl⟩ := List.mem_map.mp hx
    rw [mergedVert_index]
    unfold mergedVert at he
    split at he
    · rename_i h1
      refine Or.inl ⟨h1, ?_⟩
      rcases List.mem_append.mp (mem_sortUnique.mp he) with he | he
      · exact Or.inl ⟨v, hv, h1, he⟩
      · exact Or.inr ⟨ov, hov, hi, he⟩
    · rename_i h1
      split at he
      · rename_i h2
        exfalso
        obtain rfl := inj_of_nodup hu hv hov (h2.trans hi.symm)
        simp at he
      · rename_i h2
        exact Or.inr ⟨h1, h2, v, hv, rfl, he⟩
  · rintro (⟨rfl, h⟩ | ⟨h1, h2, v, hv, rfl, he⟩)
    · obtain ⟨v, hv, hvi⟩ := hnew
      refine ⟨_, List.mem_map_of_mem hv, (mergedVert_index _ _ _ _).trans hvi, ?_⟩
      unfold mergedVert
      rw [if_pos hvi]
      refine mem_sortUnique.mpr (List.mem_append.mpr ?_)
      rcases h with ⟨x, hx, hxi, he⟩ | ⟨x, hx, hxi, he⟩
      · rw [inj_of_nodup hu hx hv (hxi.trans hvi.symm)] at he
        exact Or.inl he
      · rw [inj_of_nodup hu hx hov (hxi.trans hi.symm)] at he
        exact Or.inr he
    · refine ⟨_, List.mem_map_of_mem hv, mergedVert_index _ _ _ _, ?_⟩
      unfold mergedVert
      rw [if_neg h1, if_neg h2]
      exact he

/-- The end which is replaced. -/
def setEnd (old new : Int) (l : List Int) : List Int := l.set (if l[1]? = some old then 1 else 0) new

theorem setEnd_mem {old new : Int} {l : List Int} (hl : l.length = 2) (ho : old ∈ l) :
    new ∈ setEnd old new l ∧ (∀ w ∈ l, w ≠ old → w ∈ setEnd old new l) ∧ ∀ w ∈ setEnd old new l, w = new ∨ w ∈ l := by
  match l, hl with
  | [a, b], _ =>
    unfold setEnd
    by_cases h : b = old
    · subst h
      simp
    · have : a = old := by
        simp only [List.mem_cons, List.not_mem_nil, or_false] at ho
        rcases ho with h' | h'
        · exact h'.symm
        · exact absurd h'.symm h
      subst this
      simp [h]

/-- What holds while vertices are joined, after the pairs `M`. -/
structure Inv (m : Mesh) (snaxs : List (Int × Int)) (n : Mesh) (M : List (Int × Int)) : Prop where
  verts : (n.verts.map fun v => { v with edgeind := [] }) = m.verts.map fun v => { v with edgeind := [] }
  edges : ∃ φ : Edge → List Int, n.edges = m.edges.map (fun e => { e with vertind := φ e }) ∧
    ∀ e ∈ m.edges, (¬ Loop e → φ e = e.vertind.map (nameOf M)) ∧ (Loop e → (φ e).length = 2)
  surfs : n.surfs = m.surfs
  volus : n.volus = m.volus
  dim : n.meshDim = m.meshDim
  once : ∀ v ∈ n.verts, v.edgeind.Nodup
  listed : ∀ v e, VertEdge n v e → EdgeVert n e v
  back : ∀ e ∈ m.edges, ¬ Loop e → ∀ v, EdgeVert n e.index v → VertEdge n v e.index
  ends : ∀ e v, EdgeVert n e v → HasVert m v
  touching : ∀ p ∈ M, Touching m snaxs p
  apart : M.Pairwise fun p q => ¬ SharesEnd p q
  done : ∀ p ∈ M, ∀ e, ¬ VertEdge n p.2 e

theorem vertIdx {n m : Mesh} (h : (n.verts.map fun v => { v with edgeind := [] }) = m.verts.map fun v => { v with edgeind := [] }) :
    n.verts.map Vert.index = m.verts.map Vert.index := by
  have := congrArg (List.map Vert.index) h
  simpa [List.map_map, Function.comp_def] using this

theorem edgeIdx {φ : Edge → List Int} (h : n.edges = m.edges.map (fun e => { e with vertind := φ e })) : n.edges.map Edge.index = m.edges.map Edge.index := by
  rw [h, List.map_map]
  rfl

theorem edgeVert_phi {φ : Edge → List Int} (hn : (m.edges.map Edge.index).Nodup) (h : n.edges = m.edges.map (fun e => { e with vertind := φ e })) {e : Edge} (he : e ∈ m.edges) {v : Int} :
    EdgeVert n e.index v ↔ v ∈ φ e := by
  constructor
  · rintro ⟨x, hx, hxi, hv⟩
    rw [h] at hx
    obtain ⟨y, hy, rfl⟩ := List.mem_map.mp hx
    obtain rfl := inj_of_nodup hn hy he hxi
    exact hv
  · intro hv
    refine ⟨{ e with vertind := φ e }, ?_, rfl, hv⟩
    rw [h]
    exact List.mem_map_of_mem he

theorem edgeVert_has {φ : Edge → List Int} (h : n.edges = m.edges.map (fun e => { e with vertind := φ e })) {k v : Int} (hv : EdgeVert n k v) :
    ∃ e ∈ m.edges, e.index = k ∧ v ∈ φ e := by
  obtain ⟨x, hx, hxi, hv⟩ := hv
  rw [h] at hx
  obtain ⟨y, hy, rfl⟩ := List.mem_map.mp hx
  exact ⟨y, hy, hxi, hv⟩

theorem phi_two (hr : SnakeReady m snaxs snaxedges live) {φ : Edge → List Int}
    (hφ : ∀ e ∈ m.edges, (¬ Loop e → φ e = e.vertind.map (nameOf M)) ∧ (Loop e → (φ e).length = 2)) {e : Edge} (he : e ∈ m.edges) {v : Int} (hv : v ∈ φ e) :
    (φ e).length = 2 := by
  by_cases hl : Loop e
  · exact (hφ e he).2 hl
  · have h1 := (hφ e he).1 hl
    rw [h1, List.length_map]
    rcases hr.ends e he with h | h
    · rw [h1, h] at hv
      cases hv
    · exact h

/-- The mesh after a pair has been joined. -/
theorem switch_pair (hr : SnakeReady m snaxs snaxedges live) (h : Inv m snaxs n M) {p : Int × Int} (ht : Touching m snaxs p) (hp : p ∈ M ∨ ApartFrom p M) :
    ∃ n', n.switchVert p.2 p.1 = .ok n' ∧ Inv m snaxs n' (if p ∈ M then M else M ++ [p]) := by
  obtain ⟨hne, hone, e0, he0, hv0⟩ := ht
  obtain ⟨φ, hφ, hφ'⟩ := h.edges
  have hvi := vertIdx h.verts
  have hei := edgeIdx hφ
  have hun : UniqueIndices n := ⟨by rw [hvi]; exact hr.unique.verts, by rw [hei]; exact hr.unique.edges, by rw [h.surfs]; exact hr.unique.surfs, by rw [h.volus]; exact hr.unique.volus⟩
  have hm1 : HasVert m p.1 := hr.verts e0.index _ ⟨e0, he0, rfl, by rw [hv0]; simp⟩
  have hm2 : HasVert m p.2 := hr.verts e0.index _ ⟨e0, he0, rfl, by rw [hv0]; simp⟩
  have hn1 : HasVert n p.1 := mem_of_index_eq hvi hm1
  obtain ⟨ov, hov, hoi⟩ : HasVert n p.2 := mem_of_index_eq hvi hm2
  have hks : ∀ k, k ∈ ov.edgeind ↔ VertEdge n p.2 k := by
    intro k
    constructor
    · intro hk; exact ⟨ov, hov, hoi, hk⟩
    · rintro ⟨x, hx, hxi, hk⟩
      rwa [inj_of_nodup hun.verts hx hov (hxi.trans hoi.symm)] at hk
  have hkp : ∀ e ∈ m.edges, e.index ∈ ov.edgeind → p.2 ∈ φ e := by
    intro e he hk
    exact (edgeVert_phi hr.unique.edges hφ he).mp (h.listed _ _ ((hks _).mp hk))
  have hsw := switchVert_weak hun (Ne.symm hne) hn1 hov hoi (h.once ov hov) (by
    intro k hk
    obtain ⟨e, he, rfl, hv⟩ := edgeVert_has hφ (h.listed _ _ ((hks k).mp hk))
    refine ⟨{ e with vertind := φ e }, ?_, rfl, phi_two hr hφ' he hv⟩
    rw [hφ]
    exact List.mem_map_of_mem he)
  rw [mergedVerts_map] at hsw
  -- the edges
  have hedges : mergedEdges n p.2 p.1 ov.edgeind = m.edges.map fun e => { e with vertind := if e.index ∈ ov.edgeind then setEnd p.2 p.1 (φ e) else φ e } := by
    unfold mergedEdges
    rw [hφ, List.map_map]
    refine List.map_congr_left ?_
    intro e _
    simp only [Function.comp_apply]
    split <;> rfl
  refine ⟨_, hsw, ?_⟩
  have hve : ∀ w e, VertEdge { n with verts := n.verts.map (mergedVert p.2 p.1 ov.edgeind), edges := mergedEdges n p.2 p.1 ov.edgeind } w e ↔
      (w = p.1 ∧ (VertEdge n p.1 e ∨ VertEdge n p.2 e)) ∨ (w ≠ p.1 ∧ w ≠ p.2 ∧ VertEdge n w e) :=
    fun w e => vertEdge_merged (Ne.symm hne) hn1 hun.verts hov hoi _
  have hvstrip : ((n.verts.map (mergedVert p.2 p.1 ov.edgeind)).map fun v => { v with edgeind := [] }) = m.verts.map fun v => { v with edgeind := [] } := by
    rw [← h.verts, List.map_map]
    refine List.map_congr_left ?_
    intro v _
    simp only [Function.comp_apply, mergedVert]
    split
    · rfl
    · split <;> rfl
  have honce : ∀ v ∈ n.verts.map (mergedVert p.2 p.1 ov.edgeind), v.edgeind.Nodup := by
    intro v hv
    obtain ⟨x, hx, rfl⟩ := List.mem_map.mp hv
    unfold mergedVert
    split
    · exact (sortUnique_strict _).imp (fun hlt => ne_of_lt hlt)
    · split
      · exact (h.once x hx).filter _
      · exact h.once x hx
  have hlisted : ∀ v e, VertEdge { n with verts := n.verts.map (mergedVert p.2 p.1 ov.edgeind), edges := mergedEdges n p.2 p.1 ov.edgeind } v e →
      EdgeVert { n with verts := n.verts.map (mergedVert p.2 p.1 ov.edgeind), edges := mergedEdges n p.2 p.1 ov.edgeind } e v := by
    intro w e hw
    have key : ∀ x ∈ m.edges, ∀ w, w ∈ (if x.index ∈ ov.edgeind then setEnd p.2 p.1 (φ x) else φ x) →
        EdgeVert { n with verts := n.verts.map (mergedVert p.2 p.1 ov.edgeind), edges := mergedEdges n p.2 p.1 ov.edgeind } x.index w := by
      intro x hx w hw
      refine ⟨{ x with vertind := if x.index ∈ ov.edgeind then setEnd p.2 p.1 (φ x) else φ x }, ?_, rfl, hw⟩
      show _ ∈ mergedEdges n p.2 p.1 ov.edgeind
      rw [hedges]
      exact List.mem_map_of_mem hx
    have keep : ∀ w, w ≠ p.2 → VertEdge n w e → EdgeVert { n with verts := n.verts.map (mergedVert p.2 p.1 ov.edgeind), edges := mergedEdges n p.2 p.1 ov.edgeind } e w := by
      intro w hwn hw
      obtain ⟨x, hx, rfl, hv⟩ := edgeVert_has hφ (h.listed _ _ hw)
      refine key x hx w ?_
      split
      · rename_i hk
        exact (setEnd_mem (phi_two hr hφ' hx hv) (hkp x hx hk)).2.1 w hv hwn
      · exact hv
    rcases (hve w e).mp hw with ⟨rfl, hw | hw⟩ | ⟨_, h2, hw⟩
    · exact keep _ hne hw
    · obtain ⟨x, hx, rfl, hv⟩ := edgeVert_has hφ (h.listed _ _ hw)
      refine key x hx _ ?_
      rw [if_pos ((hks _).mpr hw)]
      exact (setEnd_mem (phi_two hr hφ' hx hv) hv).1
    · exact keep w h2 hw
  have hends : ∀ e v, EdgeVert { n with verts := n.verts.map (mergedVert p.2 p.1 ov.edgeind), edges := mergedEdges n p.2 p.1 ov.edgeind } e v → HasVert m v := by
    rintro e v ⟨x, hx, rfl, hv⟩
    replace hx : x ∈ mergedEdges n p.2 p.1 ov.edgeind := hx
    rw [hedges] at hx
    obtain ⟨y, hy, rfl⟩ := List.mem_map.mp hx
    have hold : ∀ w ∈ φ y, HasVert m w := fun w hw => h.ends y.index w ((edgeVert_phi hr.unique.edges hφ hy).mpr hw)
    replace hv : v ∈ (if y.index ∈ ov.edgeind then setEnd p.2 p.1 (φ y) else φ y) := hv
    split at hv
    · rename_i hk
      have ho := hkp y hy hk
      rcases (setEnd_mem (phi_two hr hφ' hy ho) ho).2.2 v hv with rfl | hv
      · exact hm1
      · exact hold v hv
    · exact hold v hv
  by_cases hpM : p ∈ M
  · -- a pair which has been joined already
    rw [if_pos hpM]
    have hempty : ov.edgeind = [] := by
      rw [List.eq_nil_iff_forall_not_mem]
      intro k hk
      exact h.done p hpM k ((hks k).mp hk)
    have hed : mergedEdges n p.2 p.1 ov.edgeind = n.edges := by
      rw [hempty]
      simp [mergedEdges]
    have hve' : ∀ w e, VertEdge { n with verts := n.verts.map (mergedVert p.2 p.1 ov.edgeind), edges := mergedEdges n p.2 p.1 ov.edgeind } w e ↔ VertEdge n w e := by
      intro w e
      rw [hve]
      constructor
      · rintro (⟨rfl, hw | hw⟩ | ⟨_, _, hw⟩)
        · exact hw
        · exact absurd hw (h.done p hpM e)
        · exact hw
      · intro hw
        by_cases h1 : w = p.1
        · exact Or.inl ⟨h1, Or.inl (h1 ▸ hw)⟩
        · refine Or.inr ⟨h1, ?_, hw⟩
          rintro rfl
          exact h.done p hpM e hw
    refine ⟨hvstrip, ⟨φ, ?_, hφ'⟩, h.surfs, h.volus, h.dim, honce, hlisted, ?_, hends, h.touching, h.apart, ?_⟩
    · exact hed.trans hφ
    · intro e he hl v hv
      rw [hve']
      refine h.back e he hl v ?_
      obtain ⟨x, hx, hxi, hv⟩ := hv
      replace hx : x ∈ mergedEdges n p.2 p.1 ov.edgeind := hx
      rw [hed] at hx
      exact ⟨x, hx, hxi, hv⟩
    · intro q hq e
      rw [hve']
      exact h.done q hq e
  · rw [if_neg hpM]
    have hap : ApartFrom p M := hp.resolve_left hpM
    -- the new names
    have hphi : ∀ e ∈ m.edges, ¬ Loop e → (if e.index ∈ ov.edgeind then setEnd p.2 p.1 (φ e) else φ e) = e.vertind.map (nameOf (M ++ [p])) := by
      intro e he hl
      have h1 := (hφ' e he).1 hl
      have hiff : e.index ∈ ov.edgeind ↔ p.2 ∈ φ e := ⟨hkp e he, fun hv => (hks _).mpr (h.back e he hl _ ((edgeVert_phi hr.unique.edges hφ he).mpr hv))⟩
      rcases hr.ends e he with h0 | h2
      · rw [h0] at h1 ⊢
        rw [if_neg (by rw [hiff, h1]; simp), h1]
        rfl
      · match hv : e.vertind, h2 with
        | [a, b], _ =>
          have hab : a ≠ b := by
            rintro rfl
            exact hl ⟨a, hv⟩
          rw [hv] at h1
          simp only [List.map_cons, List.map_nil] at h1 ⊢
          rw [nameOf_snoc hap, nameOf_snoc hap]
          have hA : nameOf M a = p.2 ↔ a = p.2 := ⟨nameOf_hit hap, fun e => by
            rcases nameOf_cases M a with ⟨q, hq, g1, _⟩ | ⟨_, g2⟩
            · exact absurd (Or.inr (Or.inr (Or.inr (g1.trans e)))) (hap q hq)
            · exact g2.trans e⟩
          have hB : nameOf M b = p.2 ↔ b = p.2 := ⟨nameOf_hit hap, fun e => by
            rcases nameOf_cases M b with ⟨q, hq, g1, _⟩ | ⟨_, g2⟩
            · exact absurd (Or.inr (Or.inr (Or.inr (g1.trans e)))) (hap q hq)
            · exact g2.trans e⟩
          by_cases hb : b = p.2
          · have ha : a ≠ p.2 := fun h' => hab (h'.trans hb.symm)
            rw [if_pos (hiff.mpr (by rw [h1, hB.mpr hb]; simp)), h1, if_neg ha, if_pos hb]
            unfold setEnd
            simp [hB.mpr hb]
          · by_cases ha : a = p.2
            · rw [if_pos (hiff.mpr (by rw [h1, hA.mpr ha]; simp)), h1, if_pos ha, if_neg hb]
              unfold setEnd
              simp [hB, hb]
            · rw [if_neg, h1, if_neg ha, if_neg hb]
              rw [hiff, h1]
              simp only [List.mem_cons, List.not_mem_nil, or_false, not_or]
              exact ⟨fun h' => ha (hA.mp h'.symm), fun h' => hb (hB.mp h'.symm)⟩
    refine ⟨hvstrip, ⟨fun e => if e.index ∈ ov.edgeind then setEnd p.2 p.1 (φ e) else φ e, hedges, ?_⟩, h.surfs, h.volus, h.dim, honce, hlisted, ?_, hends, ?_, ?_, ?_⟩
    · intro e he
      refine ⟨hphi e he, ?_⟩
      intro hl
      show (if e.index ∈ ov.edgeind then setEnd p.2 p.1 (φ e) else φ e).length = 2
      split
      · unfold setEnd
        rw [List.length_set]
        exact (hφ' e he).2 hl
      · exact (hφ' e he).2 hl
    · intro e he hl v hv
      obtain ⟨x, hx, hxi, hv⟩ := hv
      replace hx : x ∈ mergedEdges n p.2 p.1 ov.edgeind := hx
      rw [hedges] at hx
      obtain ⟨y, hy, rfl⟩ := List.mem_map.mp hx
      obtain rfl := inj_of_nodup hr.unique.edges hy he hxi
      have hv2 : v ≠ p.2 := by
        replace hv : v ∈ (if y.index ∈ ov.edgeind then setEnd p.2 p.1 (φ y) else φ y) := hv
        rw [hphi y hy hl] at hv
        obtain ⟨u, _, rfl⟩ := List.mem_map.mp hv
        rw [nameOf_snoc hap]
        split
        · exact hne
        · rename_i hu
          exact fun h' => hu (nameOf_hit hap h')
      rw [hve]
      have hold : ∀ w ∈ φ y, VertEdge n w y.index := fun w hw => h.back y hy hl w ((edgeVert_phi hr.unique.edges hφ hy).mpr hw)
      replace hv : v ∈ (if y.index ∈ ov.edgeind then setEnd p.2 p.1 (φ y) else φ y) := hv
      have hcase : v = p.1 ∧ y.index ∈ ov.edgeind ∨ v ∈ φ y := by
        split at hv
        · rename_i hk
          have ho := hkp y hy hk
          rcases (setEnd_mem (phi_two hr hφ' hy ho) ho).2.2 v hv with rfl | hv
          · exact Or.inl ⟨rfl, hk⟩
          · exact Or.inr hv
        · exact Or.inr hv
      rcases hcase with ⟨h1, hk⟩ | hv
      · exact Or.inl ⟨h1, Or.inr ((hks _).mp hk)⟩
      · by_cases h1 : v = p.1
        · exact Or.inl ⟨h1, Or.inl (h1 ▸ hold v hv)⟩
        · exact Or.inr ⟨h1, hv2, hold v hv⟩
    · intro q hq
      rcases List.mem_append.mp hq with hq | hq
      · exact h.touching q hq
      · obtain rfl := List.mem_singleton.mp hq
        exact ⟨hne, hone, e0, he0, hv0⟩
    · rw [List.pairwise_append]
      refine ⟨h.apart, by simp, ?_⟩
      intro a ha b hb
      obtain rfl := List.mem_singleton.mp hb
      exact hap a ha
    · intro q hq e
      rw [hve]
      rintro (⟨h1, _⟩ | ⟨h1, h2, h3⟩)
      · rcases List.mem_append.mp hq with hq | hq
        · exact hap q hq (Or.inr (Or.inr (Or.inl h1)))
        · obtain rfl := List.mem_singleton.mp hq
          exact hne h1.symm
      · rcases List.mem_append.mp hq with hq | hq
        · exact h.done q hq e h3
        · obtain rfl := List.mem_singleton.mp hq
          exact h2 rfl

/-- How an edit changes in the pass. -/
structure Changed (M : List (Int × Int)) (f f' : Found) : Prop where
  none : f.pair = none → f' = f
  some : ∀ p, f.pair = some p → ∃ q, f'.pair = some q ∧ SharesEnd p q ∧ (p ∈ M → q = p)
  rmv : f'.edgeRmv = f.edgeRmv ∨ f'.edgeRmv = -1

theorem sharesEnd_refl (p : Int × Int) : SharesEnd p p := Or.inl rfl

theorem overwrite_cases (p : Int × Int) (k : Int) (h : Found) (hq : ∀ q, h.pair = some q → q.1 ≠ q.2) :
    (overwrite p k h = h ∧ ∀ q, h.pair = some q → ¬ SharesEnd q p) ∨
      (∃ q, h.pair = some q ∧ SharesEnd q p ∧ overwrite p k h = ⟨some p, k, -1⟩) := by
  unfold overwrite
  cases hp : h.pair with
  | none => exact Or.inl ⟨rfl, by simp⟩
  | some q =>
    dsimp only
    have h1 := hq q hp
    by_cases hs : SharesEnd q p
    · right
      refine ⟨q, rfl, hs, ?_⟩
      rw [if_pos ⟨h1, by unfold SharesEnd at hs; tauto⟩]
    · left
      refine ⟨?_, ?_⟩
      · rw [if_neg]
        rintro ⟨_, h2⟩
        apply hs
        unfold SharesEnd
        tauto
      · intro q' hq'
        cases hq'
        exact hs

theorem Prov.pairNe {g : Found} (h : Prov m snaxs g) {q : Int × Int} (hq : g.pair = some q) : Touching m snaxs q := by
  obtain ⟨e, he, _, h2⟩ := h.edge
  rw [hq] at h2
  exact ⟨h2.2.1, h2.2.2, e, he, h2.1⟩

theorem forall2_comp {α β : Type} {R : α → α → Prop} {S T : α → β → Prop} {f : α → α} (hRS : ∀ a b, R a (f a) → S (f a) b → T a b) :
    ∀ {l : List α} {l' : List β}, (∀ a ∈ l, R a (f a)) → List.Forall₂ S (l.map f) l' → List.Forall₂ T l l'
  | [], _, _, h => by cases h; exact .nil
  | a :: l, _, hR, h => by
    cases h with
    | cons h1 h2 => exact .cons (hRS a _ (hR a (by simp)) h1) (forall2_comp hRS (fun x hx => hR x (by simp [hx])) h2)

theorem forall2_weak {α β : Type} {S T : α → β → Prop} {l : List α} {l' : List β} (h : ∀ a b, S a b → T a b) (hl : List.Forall₂ S l l') : List.Forall₂ T l l' := by
  induction hl with
  | nil => exact .nil
  | cons h1 _ ih => exact .cons (h _ _ h1) ih

/-- All the vertices are joined. -/
theorem merge_all (hr : SnakeReady m snaxs snaxedges live) : ∀ (c : Nat) (G : List Found) (n : Mesh) (M : List (Int × Int)), G.length ≤ c → Inv m snaxs n M →
    (∀ g ∈ G, Prov m snaxs g ∧ ∀ p, g.pair = some p → p ∈ M ∨ ApartFrom p M) →
    ∃ n' G' M', mergeGo c n G = .ok (n', G') ∧ Inv m snaxs n' M' ∧ (∀ p ∈ M, p ∈ M') ∧ (∀ g ∈ G', Prov m snaxs g ∧ ∀ p, g.pair = some p → p ∈ M') ∧
      (∀ p ∈ M', p ∈ M ∨ ∃ g ∈ G', g.pair = some p) ∧ List.Forall₂ (Changed M) G G' := by
  intro c
  induction c with
  | zero =>
    intro G n M hc h _
    obtain rfl : G = [] := List.length_eq_zero_iff.mp (by omega)
    exact ⟨n, [], M, rfl, h, fun _ hp => hp, by simp, fun p hp => Or.inl hp, .nil⟩
  | succ c ih =>
    intro G n M hc h hG
    match G, hc, hG with
    | [], _, _ => exact ⟨n, [], M, rfl, h, fun _ hp => hp, by simp, fun p hp => Or.inl hp, .nil⟩
    | g :: rest, hc, hG =>
      rw [mergeGo]
      cases hg : g.pair with
      | none =>
        obtain ⟨n', G', M', h1, h2, h3, h4, h5, h6⟩ := ih rest n M (by simpa using hc) h (fun x hx => hG x (by simp [hx]))
        refine ⟨n', g :: G', M', ?_, h2, h3, ?_, ?_, .cons ⟨fun _ => rfl, by rw [hg]; simp, Or.inl rfl⟩ h6⟩
        · dsimp only
          rw [h1]
          rfl
        · intro x hx
          rcases List.mem_cons.mp hx with rfl | hx
          · exact ⟨(hG x (by simp)).1, by rw [hg]; simp⟩
          · exact h4 x hx
        · intro p hp
          rcases h5 p hp with h' | ⟨x, hx, h'⟩
          · exact Or.inl h'
          · exact Or.inr ⟨x, by simp [hx], h'⟩
      | some p =>
        obtain ⟨hpv, hpM⟩ := hG g (by simp)
        obtain ⟨n1, g1, g2⟩ := switch_pair hr h (hpv.pairNe hg) (hpM p hg)
        -- the pairs joined now
        have hsub : ∀ q ∈ M, q ∈ (if p ∈ M then M else M ++ [p]) := by
          intro q hq
          split
          · exact hq
          · exact List.mem_append.mpr (Or.inl hq)
        have hpin : p ∈ (if p ∈ M then M else M ++ [p]) := by
          split
          · assumption
          · simp
        have hfrom : ∀ q ∈ (if p ∈ M then M else M ++ [p]), q ∈ M ∨ q = p := by
          intro q hq
          split at hq
          · exact Or.inl hq
          · simpa using hq
        have happ : ∀ {q : Int × Int}, q ∈ M → SharesEnd q p → q = p := by
          intro q hq hs
          rcases hpM p hg with h' | h'
          · by_contra hne
            exact apart_all h.apart hq h' hne hs
          · exact absurd hs (h' q hq)
        have hrest : ∀ x ∈ rest, Prov m snaxs (overwrite p g.edgeKeep x) ∧
            (∀ q, (overwrite p g.edgeKeep x).pair = some q → q ∈ (if p ∈ M then M else M ++ [p]) ∨ ApartFrom q (if p ∈ M then M else M ++ [p])) ∧
            Changed M x (overwrite p g.edgeKeep x) := by
          intro x hx
          obtain ⟨hxv, hxM⟩ := hG x (by simp [hx])
          rcases overwrite_cases p g.edgeKeep x (fun q hq => (hxv.pairNe hq).1) with ⟨e1, e2⟩ | ⟨q, hq, hs, e1⟩
          · rw [e1]
            refine ⟨hxv, ?_, ⟨fun _ => rfl, fun q hq => ⟨q, hq, sharesEnd_refl q, fun _ => rfl⟩, Or.inl rfl⟩⟩
            intro q hq
            rcases hxM q hq with h' | h'
            · exact Or.inl (hsub q h')
            · right
              intro r hr'
              rcases hfrom r hr' with h'' | rfl
              · exact h' r h''
              · exact fun hs => e2 q hq (sharesEnd_symm hs)
          · rw [e1]
            refine ⟨⟨?_, Or.inr rfl⟩, ?_, ⟨by rw [hq]; simp, ?_, Or.inr rfl⟩⟩
            · have := hpv.edge
              rwa [hg] at this
            · intro r hr'
              cases hr'
              exact Or.inl hpin
            · intro r hr'
              rw [hq] at hr'
              cases hr'
              exact ⟨p, rfl, hs, fun hqM => (happ hqM hs).symm⟩
        obtain ⟨n', G', M', h1, h2, h3, h4, h5, h6⟩ := ih (rest.map (overwrite p g.edgeKeep)) n1 _ (by simpa using hc) g2 (by
          intro x hx
          obtain ⟨y, hy, rfl⟩ := List.mem_map.mp hx
          exact ⟨(hrest y hy).1, (hrest y hy).2.1⟩)
        refine ⟨n', g :: G', M', ?_, h2, fun q hq => h3 q (hsub q hq), ?_, ?_, .cons ⟨fun _ => rfl, fun q hq => ⟨q, hq, sharesEnd_refl q, fun _ => rfl⟩, Or.inl rfl⟩ ?_⟩
        · dsimp only
          rw [g1, ok_bind, h1]
          rfl
        · intro x hx
          rcases List.mem_cons.mp hx with rfl | hx
          · refine ⟨hpv, ?_⟩
            intro q hq
            rw [hg] at hq
            cases hq
            exact h3 p hpin
          · exact h4 x hx
        · intro q hq
          rcases h5 q hq with h' | ⟨x, hx, h'⟩
          · rcases hfrom q h' with h' | rfl
            · exact Or.inl h'
            · exact Or.inr ⟨g, by simp, hg⟩
          · exact Or.inr ⟨x, by simp [hx], h'⟩
        · refine forall2_comp (R := fun x y => Changed M x y ∧ (overwrite p g.edgeKeep x = y) ∧ x ∈ rest) ?_ (fun x hx => ⟨(hrest x hx).2.2, rfl, hx⟩) h6
          rintro x y ⟨hc1, _, hx⟩ hc2
          refine ⟨?_, ?_, ?_⟩
          · intro hn
            have e1 := hc1.none hn
            rw [e1] at hc2
            exact hc2.none hn
          · intro q hq
            obtain ⟨r, hr1, hr2, hr3⟩ := hc1.some q hq
            obtain ⟨t, ht1, ht2, ht3⟩ := hc2.some r hr1
            by_cases hrM : r ∈ (if p ∈ M then M else M ++ [p])
            · rw [ht3 hrM] at ht1
              exact ⟨r, ht1, hr2, hr3⟩
            · -- not overwritten
              rcases overwrite_cases p g.edgeKeep x (fun q hq => ((hG x (by simp [hx])).1.pairNe hq).1) with ⟨e1, _⟩ | ⟨q', hq', _, e1⟩
              · rw [e1, hq] at hr1
                cases hr1
                refine ⟨t, ht1, ht2, fun hqM => absurd (hsub _ hqM) hrM⟩
              · rw [e1] at hr1
                cases hr1
                exact absurd hpin hrM
          · rcases hc2.rmv with e1 | e1
            · rw [e1]
              exact hc1.rmv
            · exact Or.inr e1

end RSVS.VertPass
