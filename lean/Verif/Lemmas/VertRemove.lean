import Verif.Lemmas.VertMerge

/-!
# Lemmas for the joining of snaxels on the same edge: the edges are removed
-/

namespace RSVS.VertPass

open RSVS.Spec RSVS.Mesh RSVS.SpawnRemove

variable {m n k : Mesh} {snaxs : List (Int × Int)} {snaxedges live live0 R : List Int} {M : List (Int × Int)}

/-- The mesh without an edge. -/
def without (k : Mesh) (a : Edge) : Mesh :=
  { k with
    verts := k.verts.map (fun v => if v.index ∈ a.vertind then { v with edgeind := eraseAll a.index v.edgeind } else v)
    edges := k.edges.map (fun e => if e.index = a.index then { e with vertind := [], surfind := [] } else e)
    surfs := k.surfs.map (fun s => if s.index ∈ a.surfind then { s with edgeind := eraseAll a.index s.edgeind, isordered := s.isordered && !s.edgeind.contains a.index } else s) }

/-- What holds after the edges `R` have been removed. -/
structure Rem (n : Mesh) (live0 : List Int) (R : List Int) (k : Mesh) (live : List Int) : Prop where
  edges : k.edges = n.edges.map fun e => if e.index ∈ R then { e with vertind := [], surfind := [] } else e
  verts : (k.verts.map fun v => { v with edgeind := [] }) = n.verts.map fun v => { v with edgeind := [] }
  listed : ∀ v e, VertEdge k v e ↔ VertEdge n v e ∧ e ∉ R
  surfs : (k.surfs.map fun s => { s with edgeind := [], isordered := false }) = n.surfs.map fun s => { s with edgeind := [], isordered := false }
  surfEdge : ∀ s e, SurfEdge k s e ↔ SurfEdge n s e ∧ ¬ (e ∈ R ∧ EdgeSurf n e s)
  volus : k.volus = n.volus
  dim : k.meshDim = n.meshDim
  live : live.Nodup ∧ ∀ e, e ∈ live ↔ e ∈ live0 ∧ e ∉ R

/-- The mesh before edges are removed. -/
structure RemReady (n : Mesh) : Prop where
  unique : UniqueIndices n
  listed : ∀ v e, VertEdge n v e → EdgeVert n e v
  ends : ∀ e v, EdgeVert n e v → HasVert n v

theorem surfIdx {n m : Mesh} (h : (n.surfs.map fun s => { s with edgeind := [], isordered := false }) = m.surfs.map fun s => { s with edgeind := [], isordered := false }) :
    n.surfs.map Surf.index = m.surfs.map Surf.index := by
  have := congrArg (List.map Surf.index) h
  simpa [List.map_map, Function.comp_def] using this

theorem Rem.edgeIdx (h : Rem n live0 R k live) : k.edges.map Edge.index = n.edges.map Edge.index := by
  rw [h.edges, List.map_map]
  refine List.map_congr_left ?_
  intro e _
  simp only [Function.comp_apply]
  split <;> rfl

theorem rem_one (hn : RemReady n) (h : Rem n live0 R k live) {e : Edge} (he : e ∈ n.edges) (hR : e.index ∉ R) (hl : e.index ∈ live0) :
    ∃ k' live', removeOne (k, live) e.index = .ok (k', live') ∧ Rem n live0 (R ++ [e.index]) k' live' := by
  have hvi := vertIdx h.verts
  have hsi := surfIdx h.surfs
  have hke : e ∈ k.edges := by
    rw [h.edges]
    refine List.mem_map.mpr ⟨e, he, ?_⟩
    rw [if_neg hR]
  have hue : (k.edges.map Edge.index).Nodup := by rw [h.edgeIdx]; exact hn.unique.edges
  have hhas : ∃ a ∈ k.edges, a.index = e.index := ⟨e, hke, rfl⟩
  obtain ⟨a, ha, ham, hai⟩ := elemAt_posOf_ok (ix := Edge.index) hhas
  obtain rfl := inj_of_nodup hue ham hke hai
  have hrm : k.removeEdge a.index = .ok (without k a) := by
    unfold removeEdge
    simp only [ha]
    show (visit _ _ _ >>= fun verts => _) = _
    rw [visit_eq (ix := Vert.index) (by intro a; rfl) (by intro a; simp [eraseAll_eraseAll])
      a.vertind k.verts (by rw [hvi]; exact hn.unique.verts) rfl (by
        intro v hv
        exact mem_of_index_eq hvi (hn.ends a.index v ⟨a, he, rfl, hv⟩))]
    show (visitKnown _ _ _ >>= fun surfs => _) = _
    rw [visitKnown_eq (ix := Surf.index) (by intro a; rfl) (by
        intro a; simp [eraseAll_eraseAll, mem_eraseAll])
      a.surfind k.surfs (by rw [hsi]; exact hn.unique.surfs) rfl]
    show (modAt _ _ _ >>= fun edges => _) = _
    rw [modAt_posOf hue hhas]
    rfl
  have hdh : dehash live a.index = .ok (live.erase a.index) := by
    unfold dehash
    rw [if_pos ((h.live.2 _).mpr ⟨hl, hR⟩)]
  refine ⟨without k a, live.erase a.index, ?_, ⟨?_, ?_, ?_, ?_, ?_, h.volus, h.dim, ?_, ?_⟩⟩
  · unfold removeOne
    dsimp only
    rw [hrm, ok_bind, hdh]
    rfl
  · show k.edges.map _ = _
    rw [h.edges, List.map_map]
    refine List.map_congr_left ?_
    intro e _
    simp only [Function.comp_apply, List.mem_append, List.mem_singleton]
    by_cases h1 : e.index ∈ R
    · simp [h1]
    · by_cases h2 : e.index = a.index
      · rw [if_neg h1, if_pos h2, if_pos (Or.inr h2)]
      · simp [h1, h2]
  · show (k.verts.map _).map _ = _
    rw [← h.verts, List.map_map]
    refine List.map_congr_left ?_
    intro v _
    simp only [Function.comp_apply]
    split <;> rfl
  · intro v x
    have step : VertEdge (without k a) v x ↔
        VertEdge k v x ∧ x ≠ a.index := by
      constructor
      · rintro ⟨y, hy, rfl, hx⟩
        obtain ⟨w, hw, rfl⟩ := List.mem_map.mp hy
        split at hx
        · rename_i hc
          obtain ⟨h1, h2⟩ := mem_eraseAll.mp hx
          rw [if_pos hc]
          exact ⟨⟨w, hw, rfl, h1⟩, h2⟩
        · rename_i hc
          rw [if_neg hc]
          refine ⟨⟨w, hw, rfl, hx⟩, ?_⟩
          rintro rfl
          obtain ⟨b, hb, hbi, hbv⟩ := hn.listed _ _ ((h.listed w.index a.index).mp ⟨w, hw, rfl, hx⟩).1
          rw [inj_of_nodup hn.unique.edges hb he hbi] at hbv
          exact hc hbv
      · rintro ⟨⟨w, hw, rfl, hx⟩, hne⟩
        refine ⟨_, List.mem_map_of_mem hw, ?_, ?_⟩
        · split <;> rfl
        · split
          · exact mem_eraseAll.mpr ⟨hx, hne⟩
          · exact hx
    rw [step, h.listed v x, List.mem_append, List.mem_singleton]
    tauto
  · show (k.surfs.map _).map _ = _
    rw [← h.surfs, List.map_map]
    refine List.map_congr_left ?_
    intro v _
    simp only [Function.comp_apply]
    split <;> rfl
  · intro s x
    have step : SurfEdge (without k a) s x ↔
        SurfEdge k s x ∧ ¬ (x = a.index ∧ s ∈ a.surfind) := by
      constructor
      · rintro ⟨y, hy, rfl, hx⟩
        obtain ⟨w, hw, rfl⟩ := List.mem_map.mp hy
        split at hx
        · rename_i hc
          obtain ⟨h1, h2⟩ := mem_eraseAll.mp hx
          rw [if_pos hc]
          exact ⟨⟨w, hw, rfl, h1⟩, fun h' => h2 h'.1⟩
        · rename_i hc
          rw [if_neg hc]
          exact ⟨⟨w, hw, rfl, hx⟩, fun h' => hc h'.2⟩
      · rintro ⟨⟨w, hw, rfl, hx⟩, hne⟩
        refine ⟨_, List.mem_map_of_mem hw, ?_, ?_⟩
        · split <;> rfl
        · split
          · rename_i hc
            exact mem_eraseAll.mpr ⟨hx, fun h' => hne ⟨h', hc⟩⟩
          · exact hx
    have hes : ∀ s, EdgeSurf n a.index s ↔ s ∈ a.surfind := by
      intro s
      constructor
      · rintro ⟨b, hb, hbi, hs⟩
        rwa [inj_of_nodup hn.unique.edges hb he hbi] at hs
      · intro hs; exact ⟨a, he, rfl, hs⟩
    rw [step, h.surfEdge s x, List.mem_append, List.mem_singleton]
    constructor
    · rintro ⟨⟨h1, h2⟩, h3⟩
      refine ⟨h1, ?_⟩
      rintro ⟨h4 | h4, h5⟩
      · exact h2 ⟨h4, h5⟩
      · rw [h4] at h5
        exact h3 ⟨h4, (hes s).mp h5⟩
    · rintro ⟨h1, h2⟩
      refine ⟨⟨h1, fun h' => h2 ⟨Or.inl h'.1, h'.2⟩⟩, ?_⟩
      rintro ⟨rfl, h5⟩
      exact h2 ⟨Or.inr rfl, (hes s).mpr h5⟩
  · exact h.live.1.erase _
  · intro x
    rw [h.live.1.mem_erase_iff, h.live.2, List.mem_append, List.mem_singleton]
    tauto

/-- An edit after the removal. -/
def settled (g : Found) : Found := if g.edgeRmv > 0 then g else { g with edgeRmv := g.edgeKeep }

/-- The edges removed by the edits. -/
def positives (F : List Found) : List Int := (F.map Found.edgeRmv).filter fun x => decide (x > 0)

theorem remove_all (hn : RemReady n) : ∀ (F : List Found) (R : List Int) (k : Mesh) (live : List Int), Rem n live0 R k live →
    (∀ x ∈ positives F, x ∉ R ∧ x ∈ live0 ∧ ∃ e ∈ n.edges, e.index = x) → (positives F).Nodup →
    ∃ k' live', removePass (k, live) F = .ok ((k', live'), F.map settled) ∧ Rem n live0 (R ++ positives F) k' live'
  | [], R, k, live, h, _, _ => ⟨k, live, rfl, by simpa [positives] using h⟩
  | g :: F, R, k, live, h, hp, hd => by
    by_cases hg : g.edgeRmv > 0
    · have hpos : positives (g :: F) = g.edgeRmv :: positives F := by
        unfold positives
        rw [List.map_cons, List.filter_cons_of_pos (by simpa using hg)]
      rw [hpos] at hp hd ⊢
      obtain ⟨a1, a2, e, he, hei⟩ := hp g.edgeRmv (by simp)
      rw [← hei] at a1 a2
      obtain ⟨k1, l1, h1, h2⟩ := rem_one hn h he a1 a2
      rw [hei] at h1 h2
      obtain ⟨b1, b2⟩ := List.nodup_cons.mp hd
      obtain ⟨k2, l2, h3, h4⟩ := remove_all hn F _ k1 l1 h2 (by
        intro x hx
        obtain ⟨c1, c2, c3⟩ := hp x (by simp [hx])
        refine ⟨?_, c2, c3⟩
        rw [List.mem_append, List.mem_singleton]
        rintro (h' | rfl)
        · exact c1 h'
        · exact b1 hx) b2
      refine ⟨k2, l2, ?_, by simpa using h4⟩
      rw [removePass, if_pos hg, h1, ok_bind, h3]
      simp only [List.map_cons, settled, if_pos hg]
      rfl
    · have hpos : positives (g :: F) = positives F := by
        unfold positives
        rw [List.map_cons, List.filter_cons_of_neg (by simpa using hg)]
      rw [hpos] at hp hd ⊢
      obtain ⟨k2, l2, h3, h4⟩ := remove_all hn F R k live h hp hd
      refine ⟨k2, l2, ?_, h4⟩
      rw [removePass, if_neg hg, h3]
      simp only [List.map_cons, settled, if_neg hg]
      rfl

theorem same_all (hn : RemReady n) (h2 : ∀ e ∈ n.edges, e.vertind = [] ∨ e.vertind.length = 2) (hlive : ∀ e ∈ n.edges, e.vertind ≠ [] → e.index ∈ live0) :
    ∀ (ks : List Nat) (R X : List Int) (k : Mesh) (live : List Int), Rem n live0 R k live → ks.Nodup → (∀ i ∈ ks, i < n.edges.length) →
    ∃ k' live' Y, ks.foldlM (m := Except Fault) sameVertAt ((k, live), X) = .ok ((k', live'), X ++ Y) ∧ Rem n live0 (R ++ Y) k' live' ∧
      ∀ x, (x ∈ R ∨ x ∈ Y) ↔ (x ∈ R ∨ ∃ i ∈ ks, ∃ (h : i < n.edges.length), n.edges[i].index = x ∧ Loop n.edges[i])
  | [], R, X, k, live, h, _, _ => ⟨k, live, [], by simp [pure, Except.pure], by simpa using h, by simp⟩
  | i :: ks, R, X, k, live, h, hd, hi => by
    obtain ⟨d1, d2⟩ := List.nodup_cons.mp hd
    have hil := hi i (by simp)
    have hmem : n.edges[i] ∈ n.edges := List.getElem_mem hil
    have hk : elemAt k.edges (i : Int) = .ok (if n.edges[i].index ∈ R then { n.edges[i] with vertind := [], surfind := [] } else n.edges[i]) := by
      apply elemAt_of
      rw [h.edges, List.getElem?_map, List.getElem?_eq_getElem hil]
      rfl
    have hcase : (∃ a, n.edges[i].vertind = [a, a] ∧ n.edges[i].index ∉ R) ∨ (sameVertAt ((k, live), X) i = .ok ((k, live), X) ∧ (Loop n.edges[i] → n.edges[i].index ∈ R)) := by
      by_cases hR : n.edges[i].index ∈ R
      · right
        refine ⟨?_, fun _ => hR⟩
        unfold sameVertAt
        dsimp only
        rw [hk, ok_bind, if_pos hR]
        rfl
      · rw [if_neg hR] at hk
        rcases h2 _ hmem with h0 | hl
        · right
          refine ⟨?_, ?_⟩
          · unfold sameVertAt
            dsimp only
            rw [hk, ok_bind, h0]
            rfl
          · rintro ⟨a, ha⟩
            rw [h0] at ha
            cases ha
        · obtain ⟨a, b, hab⟩ : ∃ a b, n.edges[i].vertind = [a, b] := by
            match hv : n.edges[i].vertind, hl with
            | [a, b], _ => exact ⟨a, b, rfl⟩
          by_cases e : a = b
          · subst e
            exact Or.inl ⟨a, hab, hR⟩
          · right
            refine ⟨?_, ?_⟩
            · have hv0 : vecGet n.edges[i].vertind 0 = .ok a := by rw [hab]; rfl
              have hv1 : vecGet n.edges[i].vertind 1 = .ok b := by rw [hab]; rfl
              unfold sameVertAt
              dsimp only
              rw [hk, ok_bind, if_pos (by rw [hab]; simp), hv0, ok_bind, hv1, ok_bind, if_neg e]
            · rintro ⟨c, hc⟩
              rw [hab] at hc
              cases hc
              exact absurd rfl e
    rcases hcase with ⟨a, hab, hR⟩ | ⟨hs, hloop⟩
    · obtain ⟨k1, l1, h3, h4⟩ := rem_one hn h hmem hR (hlive _ hmem (by rw [hab]; simp))
      have hst : sameVertAt ((k, live), X) i = .ok ((k1, l1), X ++ [n.edges[i].index]) := by
        have hv0 : vecGet n.edges[i].vertind 0 = .ok a := by rw [hab]; rfl
        have hv1 : vecGet n.edges[i].vertind 1 = .ok a := by rw [hab]; rfl
        unfold sameVertAt
        dsimp only
        rw [hk, ok_bind, if_neg hR, if_pos (by rw [hab]; simp), hv0, ok_bind, hv1, ok_bind, if_pos rfl, h3]
        rfl
      obtain ⟨k2, l2, Y, h5, h6, h7⟩ := same_all hn h2 hlive ks _ (X ++ [n.edges[i].index]) k1 l1 h4 d2 (fun j hj => hi j (by simp [hj]))
      refine ⟨k2, l2, n.edges[i].index :: Y, ?_, by simpa using h6, ?_⟩
      · rw [List.foldlM_cons, hst]
        show List.foldlM (m := Except Fault) _ _ ks = _
        rw [h5]
        simp
      · intro x
        have := h7 x
        simp only [List.mem_append, List.mem_cons, List.not_mem_nil, or_false] at this ⊢
        constructor
        · rintro (h' | rfl | h')
          · exact Or.inl h'
          · exact Or.inr ⟨i, Or.inl rfl, hil, rfl, a, hab⟩
          · rcases this.mp (Or.inr h') with (h' | rfl) | ⟨j, hj, h'⟩
            · exact Or.inl h'
            · exact Or.inr ⟨i, Or.inl rfl, hil, rfl, a, hab⟩
            · exact Or.inr ⟨j, Or.inr hj, h'⟩
        · rintro (h' | ⟨j, rfl | hj, h', e, _⟩)
          · exact Or.inl h'
          · exact Or.inr (Or.inl e.symm)
          · rcases this.mpr (Or.inr ⟨j, hj, h', e, by assumption⟩) with (h' | h') | h'
            · exact Or.inl h'
            · exact Or.inr (Or.inl h')
            · exact Or.inr (Or.inr h')
    · obtain ⟨k2, l2, Y, h5, h6, h7⟩ := same_all hn h2 hlive ks R X k live h d2 (fun j hj => hi j (by simp [hj]))
      refine ⟨k2, l2, Y, ?_, h6, ?_⟩
      · rw [List.foldlM_cons, hs]
        exact h5
      · intro x
        rw [h7 x]
        constructor
        · rintro (h' | ⟨j, hj, h'⟩)
          · exact Or.inl h'
          · exact Or.inr ⟨j, by simp [hj], h'⟩
        · rintro (h' | ⟨j, hj, h', e, hlp⟩)
          · exact Or.inl h'
          · rcases List.mem_cons.mp hj with rfl | hj
            · exact Or.inl (e ▸ hloop hlp)
            · exact Or.inr ⟨j, hj, h', e, hlp⟩

theorem positives_nodup {F0 F1 : List Found} (h : List.Forall₂ (Changed M) F0 F1) (hw : ∀ g ∈ F0, g.edgeRmv = g.edgeKeep) (hd : (F0.map Found.edgeKeep).Nodup) : (positives F1).Nodup := by
  have : List.Sublist (positives F1) (F0.map Found.edgeKeep) := by
    clear hd
    induction h with
    | nil => exact List.Sublist.refl _
    | @cons f f' F F' h1 _ ih =>
      have hi := ih (fun g hg => hw g (by simp [hg]))
      unfold positives at hi ⊢
      rw [List.map_cons, List.map_cons]
      by_cases hp : f'.edgeRmv > 0
      · rw [List.filter_cons_of_pos (by simpa using hp)]
        rcases h1.rmv with e | e
        · rw [e, hw f (by simp)]
          exact hi.cons_cons _
        · omega
      · rw [List.filter_cons_of_neg (by simpa using hp)]
        exact hi.cons _
  exact hd.sublist this

/-- The whole pass. -/
theorem pass_ok (hr : SnakeReady m snaxs snaxedges live) : ∃ r M, vertexPass m snaxs snaxedges live = .ok r ∧ PairsChosen m snaxs M ∧ NamesPairs M (nameOf M) ∧
    SnakeJoined m r.mesh (nameOf M) ∧ EditsRight m M (nameOf M) live r := by
  obtain ⟨F0, d1, d2⟩ := detect_ok hr
  have h0 : Inv m snaxs m [] := by
    refine ⟨rfl, ⟨fun e => e.vertind, ?_, ?_⟩, rfl, rfl, rfl, hr.once, fun v e h => (hr.link v e).mp h, fun e _ _ v hv => (hr.link v e.index).mpr hv, hr.verts, by simp, by simp, by simp⟩
    · simp
    · intro e he
      refine ⟨fun _ => ?_, ?_⟩
      · have : nameOf [] = id := by
          funext v
          rfl
        rw [this, List.map_id]
      · rintro ⟨a, ha⟩
        show e.vertind.length = 2
        rw [ha]
        rfl
  obtain ⟨n, F1, M, g1, g2, _, g3, g4, g5⟩ := merge_all hr F0.length F0 m [] (le_refl _) h0 (fun g hg => ⟨d2.prov g hg, fun p _ => Or.inr (by intro q hq; cases hq)⟩)
  obtain ⟨φ, hφ, hφ'⟩ := g2.edges
  have hvi := vertIdx g2.verts
  have hei := edgeIdx hφ
  have hun : UniqueIndices n := ⟨by rw [hvi]; exact hr.unique.verts, by rw [hei]; exact hr.unique.edges, by rw [g2.surfs]; exact hr.unique.surfs, by rw [g2.volus]; exact hr.unique.volus⟩
  have hrn : RemReady n := ⟨hun, g2.listed, fun e v hv => mem_of_index_eq hvi (g2.ends e v hv)⟩
  have hmn : ∀ e ∈ m.edges, ({ e with vertind := φ e } : Edge) ∈ n.edges := by
    intro e he
    rw [hφ]
    exact List.mem_map_of_mem he
  have hnm : ∀ x ∈ n.edges, ∃ e ∈ m.edges, x = { e with vertind := φ e } := by
    intro x hx
    rw [hφ] at hx
    obtain ⟨e, he, rfl⟩ := List.mem_map.mp hx
    exact ⟨e, he, rfl⟩
  have hnonempty : ∀ e ∈ m.edges, φ e ≠ [] → e.vertind ≠ [] := by
    intro e he hne h
    have hl : ¬ Loop e := by
      rintro ⟨a, ha⟩
      rw [h] at ha
      cases ha
    rw [(hφ' e he).1 hl, h] at hne
    exact hne rfl
  have hpv : ∀ x ∈ positives F1, ∃ f ∈ F1, f.edgeRmv = x ∧ f.edgeKeep = x ∧ 0 < x := by
    intro x hx
    obtain ⟨h1, h2⟩ := List.mem_filter.mp hx
    obtain ⟨f, hf, rfl⟩ := List.mem_map.mp h1
    have hpos : 0 < f.edgeRmv := by simpa using h2
    refine ⟨f, hf, rfl, ?_, hpos⟩
    rcases (g3 f hf).1.rmv with h | h
    · exact h.symm
    · omega
  have hprovE : ∀ f ∈ F1, ∃ e ∈ m.edges, e.index = f.edgeKeep ∧ e.vertind ≠ [] ∧ CollapsedBy (nameOf M) e := by
    intro f hf
    obtain ⟨e, he, hei', hm⟩ := (g3 f hf).1.edge
    refine ⟨e, he, hei', ?_⟩
    cases hp : f.pair with
    | none =>
      rw [hp] at hm
      obtain ⟨a, ha⟩ := hm
      exact ⟨by rw [ha]; simp, a, a, ha, rfl⟩
    | some p =>
      rw [hp] at hm
      obtain ⟨h1, h2, _⟩ := hm
      have hpM := (g3 f hf).2 p hp
      refine ⟨by rw [h1]; simp, p.1, p.2, h1, ?_⟩
      rw [nameOf_pair g2.apart hpM]
      rcases nameOf_cases M p.1 with ⟨q, hq, e1, _⟩ | ⟨_, e2⟩
      · by_cases hqp : q = p
        · rw [hqp] at e1
          exact absurd e1.symm h2
        · exact absurd (Or.inr (Or.inr (Or.inl e1))) (apart_all g2.apart hq hpM hqp)
      · exact e2
  have hR0 : Rem n live [] n live := by
    refine ⟨by simp, rfl, by simp, rfl, by simp, rfl, rfl, hr.live.1, by simp⟩
  obtain ⟨k1, l1, p1, p2⟩ := remove_all hrn F1 [] n live hR0 (by
    intro x hx
    obtain ⟨f, hf, _, hk, _⟩ := hpv x hx
    obtain ⟨e, he, hei', hne, _⟩ := hprovE f hf
    refine ⟨by simp, ?_, _, hmn e he, hei'.trans hk⟩
    rw [← hk, ← hei']
    exact hr.live.2 e he hne) (positives_nodup g5 d2.whole d2.nodup)
  rw [List.nil_append] at p2
  have htwo : ∀ e ∈ n.edges, e.vertind = [] ∨ e.vertind.length = 2 := by
    intro x hx
    obtain ⟨e, he, rfl⟩ := hnm x hx
    show φ e = [] ∨ (φ e).length = 2
    by_cases hc : φ e = []
    · exact Or.inl hc
    · right
      obtain ⟨v, hv⟩ := List.exists_mem_of_ne_nil _ hc
      exact phi_two hr hφ' he hv
  have hlv : ∀ e ∈ n.edges, e.vertind ≠ [] → e.index ∈ live := by
    intro x hx hne
    obtain ⟨e, he, rfl⟩ := hnm x hx
    exact hr.live.2 e he (hnonempty e he hne)
  have hlen : k1.edges.length = n.edges.length := by rw [p2.edges]; simp
  obtain ⟨k2, l2, Y, q1, q2, q3⟩ := same_all hrn htwo hlv (List.range k1.edges.length) _ [] k1 l1 p2 List.nodup_range (fun i hi => by rw [← hlen]; exact List.mem_range.mp hi)
  rw [List.nil_append] at q1
  -- the edges removed
  have hrem : ∀ e ∈ m.edges, (e.index ∈ positives F1 ∨ e.index ∈ Y) ↔ CollapsedBy (nameOf M) e := by
    intro e he
    rw [q3 e.index]
    constructor
    · rintro (h' | ⟨i, _, hi, hie, hlp⟩)
      · obtain ⟨f, hf, _, hk, _⟩ := hpv _ h'
        obtain ⟨e', he', hei', _, hc⟩ := hprovE f hf
        rwa [inj_of_nodup hr.unique.edges he' he (hei'.trans hk)] at hc
      · obtain ⟨e', he', heq⟩ := hnm _ (List.getElem_mem hi)
        rw [heq] at hie hlp
        obtain rfl := inj_of_nodup hr.unique.edges he' he hie
        by_cases hl : Loop e'
        · obtain ⟨a, ha⟩ := hl
          exact ⟨a, a, ha, rfl⟩
        · obtain ⟨a, ha⟩ := hlp
          replace ha : φ e' = [a, a] := ha
          rw [(hφ' e' he').1 hl] at ha
          match hv : e'.vertind with
          | [] => rw [hv] at ha; simp at ha
          | [x] => rw [hv] at ha; simp at ha
          | [x, y] =>
            rw [hv] at ha
            simp only [List.map_cons, List.map_nil, List.cons.injEq, and_true] at ha
            exact ⟨x, y, hv, ha.1.trans ha.2.symm⟩
          | x :: y :: z :: w => rw [hv] at ha; simp at ha
    · intro hc
      by_cases hl : Loop e
      · left
        obtain ⟨g, hg, hgp, hgk⟩ := d2.loops e he hl
        obtain ⟨f, hf, hch⟩ := forall2_left g5 hg
        obtain rfl := hch.none hgp
        refine List.mem_filter.mpr ⟨List.mem_map.mpr ⟨f, hf, (d2.whole f hg).trans hgk⟩, ?_⟩
        simpa using hr.positive e he
      · right
        obtain ⟨i, hi, hie⟩ := List.getElem_of_mem (hmn e he)
        refine ⟨i, List.mem_range.mpr (by omega), hi, by rw [hie], ?_⟩
        rw [hie]
        obtain ⟨a, b, hab, hn⟩ := hc
        refine ⟨nameOf M a, ?_⟩
        show φ e = _
        rw [(hφ' e he).1 hl, hab]
        simp [hn]
  have hmem : ∀ x, x ∈ positives F1 ++ Y → ∃ e ∈ m.edges, e.index = x := by
    intro x hx
    rcases (q3 x).mp (List.mem_append.mp hx) with h' | ⟨i, _, hi, hie, _⟩
    · obtain ⟨f, hf, _, hk, _⟩ := hpv _ h'
      obtain ⟨e', he', hei', _, _⟩ := hprovE f hf
      exact ⟨e', he', hei'.trans hk⟩
    · obtain ⟨e', he', heq⟩ := hnm _ (List.getElem_mem hi)
      rw [heq] at hie
      exact ⟨e', he', hie⟩
  have hcoll : ∀ x, x ∈ positives F1 ++ Y ↔ EdgeCollapses m (nameOf M) x := by
    intro x
    constructor
    · intro hx
      obtain ⟨e, he, rfl⟩ := hmem x hx
      exact ⟨e, he, rfl, (hrem e he).mp (List.mem_append.mp hx)⟩
    · rintro ⟨e, he, rfl, hc⟩
      exact List.mem_append.mpr ((hrem e he).mpr hc)
  have hedges : k2.edges = m.edges.map fun e =>
      if CollapsedBy (nameOf M) e then { e with vertind := [], surfind := [] } else { e with vertind := e.vertind.map (nameOf M) } := by
    rw [q2.edges, hφ, List.map_map]
    refine List.map_congr_left ?_
    intro e he
    simp only [Function.comp_apply]
    by_cases hc : CollapsedBy (nameOf M) e
    · rw [if_pos hc, if_pos (List.mem_append.mpr ((hrem e he).mpr hc))]
    · rw [if_neg hc, if_neg (fun h' => hc ((hrem e he).mp (List.mem_append.mp h')))]
      rw [(hφ' e he).1]
      rintro ⟨a, ha⟩
      exact hc ⟨a, a, ha, rfl⟩
  refine ⟨⟨k2, l2, F1.map settled, Y⟩, M, ?_, ⟨g2.touching, g2.apart, ?_⟩, ⟨fun p hp => nameOf_pair g2.apart hp, ?_⟩, ⟨hedges, q2.verts.trans g2.verts, ?_, ?_, ?_, q2.volus.trans g2.volus, q2.dim.trans g2.dim⟩, ⟨?_, ?_, ?_, ?_⟩⟩
  · unfold vertexPass mergePass
    rw [d1, ok_bind, g1, ok_bind]
    dsimp only
    rw [p1, ok_bind]
    unfold sameVertPass
    dsimp only
    rw [q1]
    rfl
  · intro p hp
    obtain ⟨g, hg, hgp⟩ := d2.pairs p hp
    obtain ⟨f, hf, hch⟩ := forall2_left g5 hg
    obtain ⟨q, h1, h2, _⟩ := hch.some p hgp
    exact ⟨q, (g3 f hf).2 q h1, h2⟩
  · intro v hv
    rcases nameOf_cases M v with ⟨p, hp, e, _⟩ | ⟨_, e⟩
    · exact absurd e (hv p hp)
    · exact e
  · intro v e
    show VertEdge k2 v e ↔ EdgeVert k2 e v
    rw [q2.listed v e]
    constructor
    · rintro ⟨h1, h2⟩
      obtain ⟨x, hx, rfl, hv⟩ := g2.listed v e h1
      refine ⟨x, ?_, rfl, hv⟩
      rw [q2.edges]
      refine List.mem_map.mpr ⟨x, hx, ?_⟩
      rw [if_neg h2]
    · rintro ⟨x, hx, rfl, hv⟩
      rw [q2.edges] at hx
      obtain ⟨y, hy, rfl⟩ := List.mem_map.mp hx
      split at hv
      · cases hv
      · rename_i hc
        rw [if_neg hc]
        refine ⟨?_, hc⟩
        obtain ⟨e', he', rfl⟩ := hnm y hy
        refine g2.back e' he' ?_ v ⟨_, hy, rfl, hv⟩
        rintro ⟨a, ha⟩
        exact hc (List.mem_append.mpr ((hrem e' he').mpr ⟨a, a, ha, rfl⟩))
  · have := q2.surfs
    rwa [g2.surfs] at this
  · intro s e
    show SurfEdge k2 s e ↔ _
    rw [q2.surfEdge s e, hcoll e]
    have h1 : SurfEdge n s e ↔ SurfEdge m s e := by
      unfold SurfEdge
      rw [g2.surfs]
    have h2 : EdgeSurf n e s ↔ EdgeSurf m e s := by
      constructor
      · rintro ⟨x, hx, hxi, hs⟩
        obtain ⟨e', he', rfl⟩ := hnm x hx
        exact ⟨e', he', hxi, hs⟩
      · rintro ⟨x, hx, hxi, hs⟩
        exact ⟨_, hmn x hx, hxi, hs⟩
    rw [h1, h2]
  · intro p
    have hset : ∀ f : Found, (settled f).pair = f.pair := by
      intro f
      unfold settled
      split <;> rfl
    constructor
    · rintro ⟨f, hf, hp⟩
      obtain ⟨g, hg, rfl⟩ := List.mem_map.mp hf
      rw [hset] at hp
      exact (g3 g hg).2 p hp
    · intro hp
      rcases g4 p hp with h' | ⟨g, hg, h'⟩
      · cases h'
      · exact ⟨settled g, List.mem_map_of_mem hg, (hset g).trans h'⟩
  · intro f hf
    obtain ⟨g, hg, rfl⟩ := List.mem_map.mp hf
    unfold settled
    split
    · rcases (g3 g hg).1.rmv with h' | h'
      · exact h'.symm
      · omega
    · rfl
  · intro x
    rw [← hcoll x, List.mem_append]
    have hsub : ∀ x, (∃ f ∈ F1.map settled, f.edgeRmv = x) → EdgeCollapses m (nameOf M) x := by
      rintro x ⟨f, hf, rfl⟩
      obtain ⟨g, hg, rfl⟩ := List.mem_map.mp hf
      obtain ⟨e, he, hei', _, hc⟩ := hprovE g hg
      refine ⟨e, he, ?_, hc⟩
      unfold settled
      split
      · rcases (g3 g hg).1.rmv with h' | h'
        · exact hei'.trans h'.symm
        · omega
      · exact hei'
    constructor
    · rintro (h' | h')
      · exact List.mem_append.mp ((hcoll x).mpr (hsub x h'))
      · exact Or.inr h'
    · rintro (h' | h')
      · left
        obtain ⟨f, hf, hfr, _, hpos⟩ := hpv x h'
        refine ⟨settled f, List.mem_map_of_mem hf, ?_⟩
        unfold settled
        rw [if_pos (by rw [hfr]; exact hpos)]
        exact hfr
      · exact Or.inr h'
  · intro x
    show x ∈ l2 ↔ _
    rw [q2.live.2 x, hcoll x]

end RSVS.VertPass
