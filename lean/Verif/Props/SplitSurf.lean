import Verif.Lemmas.SplitSurfGrow
import Verif.Lemmas.MeshCheck

/-!
# C129: ordering the edges of all surfaces

`mesh::OrderEdges` puts the edges of each surface in the order of a loop; a surface of several loops is split.
-/

namespace RSVS.Props

open RSVS RSVS.Mesh RSVS.Spec RSVS.Order RSVS.SplitSurf

/-- C129: when the edges of each surface make closed loops and the vector of surfaces has room, each surface is split into its loops, in
order; the mesh stays sound, and each reported pair is a surface with a part of it.  Partial: a fixed bound on the room is needed, in three
dimensions each surface needs two volumes, and not all parts are reported. -/
theorem C129_ordered_partial (tab : List Int → Table) (ht : ∀ l, IsTable l (tab l)) (m : Mesh) (hm : Sound m) (h2 : TwoVerts m)
    (hr : ∀ f ∈ m.surfs, f.isordered = false → Rings m f.edgeind) (ho : ∀ f ∈ m.surfs, f.isordered = true → OneLoop m f)
    (hv : 2 < m.meshDim → ∀ f ∈ m.surfs, f.isordered = false → 2 ≤ f.voluind.length) (cap : Nat)
    (hc : m.surfs.length + (m.surfs.map fun f => f.edgeind.length).sum ≤ cap) :
    ∃ r src pairs, orderEdges tab m cap = .ok (r, cap, pairs) ∧ Sound r ∧ SplitBy m r src ∧
      (∀ g ∈ r.surfs, g.isordered = true ∧ OneLoop m g) ∧ ∀ p ∈ pairs, src p.2 = p.1 ∧ HasSurf r p.2 ∧ ¬ HasSurf m p.2 := by
  obtain ⟨r, src, pairs, h1, h3, h4, h5, h6⟩ := order_edges ht ⟨hm, h2, hr, ho, hv⟩ (cap := cap) (by
    have := load_le m
    unfold passBound at this
    omega)
  exact ⟨r, src, pairs, h1, h3, h4, h6, h5⟩

/-- C129 for surfaces of one loop: with any room the edges of each are put in order, and nothing else is changed. -/
theorem C129_one_loop (tab : List Int → Table) (ht : ∀ l, IsTable l (tab l)) (m : Mesh) (hm : Sound m) (h2 : TwoVerts m)
    (hr : ∀ f ∈ m.surfs, f.isordered = false → f.edgeind = [] ∨ ∃ l, l.Nodup ∧ (∀ e, e ∈ l ↔ e ∈ f.edgeind) ∧ IsLoop (EdgeJoins m) l)
    (ho : ∀ f ∈ m.surfs, f.isordered = true → OneLoop m f) (cap : Nat) :
    ∃ r, orderEdges tab m cap = .ok (r, cap, []) ∧ Sound r ∧ SplitBy m r id ∧ r.surfs.map Surf.index = m.surfs.map Surf.index ∧
      ∀ g ∈ r.surfs, g.isordered = true ∧ OneLoop m g := by
  refine order_single ht cap ⟨hm, h2, rfl, fun f hf hff => ?_, ho⟩
  rcases hr f hf hff with h | ⟨l, h1, h3, h4⟩
  · exact Or.inl h
  · exact Or.inr ⟨l, (List.perm_ext_iff_of_nodup h1 (nodup_sortUnique _)).2 fun e => by rw [h3, mem_sortUnique], h4⟩

/-- C129 for surfaces of at most two loops: they are split however little room there is (but for one surface), as the vector grows and the pass
is repeated.  Partial: in three dimensions each surface needs two volumes. -/
theorem C129_two_loops_partial (tab : List Int → Table) (ht : ∀ l, IsTable l (tab l)) (m : Mesh) (hm : Sound m) (h2 : TwoVerts m)
    (hr : ∀ f ∈ m.surfs, f.isordered = false → Rings m f.edgeind ∧ AtMost m f.edgeind 2)
    (ho : ∀ f ∈ m.surfs, f.isordered = true → OneLoop m f)
    (hv : 2 < m.meshDim → ∀ f ∈ m.surfs, f.isordered = false → 2 ≤ f.voluind.length) (cap : Nat) (hc : m.surfs.length ≤ cap) (hc2 : 2 ≤ cap) :
    ∃ r cap' src pairs, orderEdges tab m cap = .ok (r, cap', pairs) ∧ Sound r ∧ SplitBy m r src ∧
      (∀ g ∈ r.surfs, g.isordered = true ∧ OneLoop m g) ∧ ∀ p ∈ pairs, src p.2 = p.1 ∧ HasSurf r p.2 ∧ ¬ HasSurf m p.2 := by
  obtain ⟨r, cap', src, pairs, h1, h3, h4, h5, h6⟩ := order_two ht ⟨hm, h2, fun f hf h => (hr f hf h).1, ho, hv⟩ (fun f hf h => (hr f hf h).2) hc hc2
  exact ⟨r, cap', src, pairs, h1, h3, h4, h6, h5⟩

/-- `k` triangles which are the edges of one surface. -/
def loopsApart (k : Nat) : Mesh :=
  { verts := (List.range k).flatMap fun (j : Nat) =>
      [⟨3*j+1, [3*j+1, 3*j+3], [], false⟩, ⟨3*j+2, [3*j+1, 3*j+2], [], false⟩, ⟨3*j+3, [3*j+2, 3*j+3], [], false⟩]
    edges := (List.range k).flatMap fun (j : Nat) =>
      [⟨3*j+1, [3*j+1, 3*j+2], [1, 0], false⟩, ⟨3*j+2, [3*j+2, 3*j+3], [1, 0], false⟩, ⟨3*j+3, [3*j+3, 3*j+1], [1, 0], false⟩]
    surfs := [{ index := 1, edgeind := (List.range (3*k)).map fun (j : Nat) => (j : Int) + 1, voluind := [1, 0] }]
    volus := [{ index := 1, surfind := [1] }]
    meshDim := 3 }

theorem apart_sound2 : Sound (loopsApart 2) := sound_of_checked (by decide +kernel)

theorem apart_sound3 : Sound (loopsApart 3) := sound_of_checked (by decide +kernel)

theorem apart_two2 : TwoVerts (loopsApart 2) := by unfold TwoVerts; decide +kernel

theorem apart_two3 : TwoVerts (loopsApart 3) := by unfold TwoVerts; decide +kernel

theorem rings_all {m : Mesh} (h : (m.edges.map Edge.index).Nodup ∧ TwoRegular (m.edges.flatMap Edge.vertind)) {l : List Int}
    (hl : ∀ e, e ∈ m.edges.map Edge.index ↔ e ∈ l) : Rings m l := by
  refine ⟨m.edges.map Edge.index, m.edges, h.1, hl, ?_, h.2⟩
  have key : ∀ es : List Edge, (∀ x ∈ es, x ∈ m.edges) →
      List.Forall₂ (fun (e : Int) (x : Edge) => x ∈ m.edges ∧ x.index = e) (es.map Edge.index) es := by
    intro es
    induction es with
    | nil => intro _; exact .nil
    | cons x es ih => intro h; exact .cons ⟨h x (by simp), rfl⟩ (ih fun y hy => h y (by simp [hy]))
  exact key _ fun _ h => h

theorem apart_rings2 : Rings (loopsApart 2) [1, 2, 3, 4, 5, 6] :=
  rings_all ⟨by decide +kernel, fun v hv => by revert v; decide +kernel⟩ fun e => by
    rw [show (loopsApart 2).edges.map Edge.index = [1, 2, 3, 4, 5, 6] from by decide +kernel]

theorem apart_rings3 : Rings (loopsApart 3) [1, 2, 3, 4, 5, 6, 7, 8, 9] :=
  rings_all ⟨by decide +kernel, fun v hv => by revert v; decide +kernel⟩ fun e => by
    rw [show (loopsApart 3).edges.map Edge.index = [1, 2, 3, 4, 5, 6, 7, 8, 9] from by decide +kernel]

/-- A surface of three triangles meets the hypotheses of `C129_ordered_partial`. -/
example : ∃ r src pairs, orderEdges sortTab (loopsApart 3) 10 = .ok (r, 10, pairs) ∧ Sound r ∧ SplitBy (loopsApart 3) r src ∧
      (∀ g ∈ r.surfs, g.isordered = true ∧ OneLoop (loopsApart 3) g) ∧ ∀ p ∈ pairs, src p.2 = p.1 ∧ HasSurf r p.2 ∧ ¬ HasSurf (loopsApart 3) p.2 := by
  refine C129_ordered_partial sortTab sortTab_isTable _ apart_sound3 apart_two3 (fun f hf _ => ?_) (fun f hf ho => ?_)
    (by decide +kernel) 10 (by decide +kernel)
  · have : f.edgeind = [1, 2, 3, 4, 5, 6, 7, 8, 9] := by revert f; decide +kernel
    rw [this]
    exact apart_rings3
  · have : f.isordered = false := by clear ho; revert f; decide +kernel
    simp [this] at ho

/-- What it does to it. -/
example : (orderEdges sortTab (loopsApart 3) 10).map (fun s => (s.1.surfs.map fun f => (f.index, f.edgeind), s.1.volus.map Volu.surfind, s.2.2)) =
    .ok ([(1, [1, 3, 2]), (2, [4, 6, 5]), (3, [7, 9, 8])], [[1, 2, 3, 3, 2]], [(1, 2)]) := by decide +kernel

/-- One triangle meets the hypotheses of `C129_one_loop`, and there is no room for another surface. -/
example : ∃ r, orderEdges sortTab (loopsApart 1) 1 = .ok (r, 1, []) ∧ Sound r ∧ SplitBy (loopsApart 1) r id ∧
    r.surfs.map Surf.index = (loopsApart 1).surfs.map Surf.index ∧ ∀ g ∈ r.surfs, g.isordered = true ∧ OneLoop (loopsApart 1) g := by
  refine C129_one_loop sortTab sortTab_isTable _ (sound_of_checked (by decide +kernel)) (by unfold TwoVerts; decide +kernel)
    (fun f hf _ => Or.inr ⟨[1, 2, 3], by decide, ?_, fun k => ((k % 3 : Nat) : Int) + 1, ?_, by decide, ?_⟩) (fun f hf ho => ?_) 1
  · have : f.edgeind = [1, 2, 3] := by revert f; decide +kernel
    simp [this]
  · intro k e h
    match k, h with
    | 0, h => exact ⟨(loopsApart 1).edges[0], List.getElem_mem _, Option.some.inj h, Or.inl rfl⟩
    | 1, h => exact ⟨(loopsApart 1).edges[1], List.getElem_mem _, Option.some.inj h, Or.inl rfl⟩
    | 2, h => exact ⟨(loopsApart 1).edges[2], List.getElem_mem _, Option.some.inj h, Or.inl rfl⟩
    | k + 3, h => simp at h
  · intro i j hi hj h
    simp only [List.length_cons, List.length_nil] at hi hj h
    omega
  · have : f.isordered = false := by clear ho; revert f; decide +kernel
    simp [this] at ho

/-- A loop of a mesh in which an edge has two different ends and no two edges have the same has three edges or more. -/
theorem three_of_simple {m : Mesh} (h1 : ∀ x ∈ m.edges, ∀ v, x.vertind ≠ [v, v])
    (h2 : ∀ x ∈ m.edges, ∀ y ∈ m.edges, (y.vertind = x.vertind ∨ y.vertind = x.vertind.reverse) → y.index = x.index) {a : List Int}
    (hne : a ≠ []) (hn : a.Nodup) (ha : IsLoop (EdgeJoins m) a) : 3 ≤ a.length := by
  obtain ⟨w, w1, w2, w3⟩ := ha
  match a, hne, hn, w1, w2 with
  | [e], _, _, w1, w2 =>
    obtain ⟨x, hx, -, hv⟩ := w1 0 e rfl
    simp only [List.length_cons, List.length_nil] at w2
    simp only [w2] at hv
    exact absurd (hv.elim id id) (h1 x hx _)
  | [e, f], _, hn, w1, w2 =>
    obtain ⟨x, hx, hxi, hxv⟩ := w1 0 e rfl
    obtain ⟨y, hy, hyi, hyv⟩ := w1 1 f rfl
    simp only [List.length_cons, List.length_nil] at w2
    simp only [Nat.reduceAdd, Nat.zero_add] at w2 hxv hyv
    rw [w2] at hyv
    have : y.index = x.index := h2 x hx y hy (by
      rcases hxv with h | h <;> rcases hyv with h' | h' <;> rw [h, h'] <;> simp)
    rw [hxi, hyi] at this
    simp [this] at hn
  | e :: f :: g :: l, _, _, _, _ => simp

theorem atMost_of_simple {m : Mesh} (h1 : ∀ x ∈ m.edges, ∀ v, x.vertind ≠ [v, v])
    (h2 : ∀ x ∈ m.edges, ∀ y ∈ m.edges, (y.vertind = x.vertind ∨ y.vertind = x.vertind.reverse) → y.index = x.index) {l : List Int} {k : Nat}
    (hk : l.length < 3 * (k + 1)) : AtMost m l k := by
  intro L hn hL
  have h3 : 3 * L.length ≤ L.flatten.length := by
    induction L with
    | nil => simp
    | cons a L ih =>
      rw [List.flatten_cons] at hn
      have h4 := ih (List.nodup_append'.1 hn).2.1 fun b hb => hL b (by simp [hb])
      have h5 := three_of_simple h1 h2 (hL a (by simp)).1 (List.nodup_append'.1 hn).1 (hL a (by simp)).2.1
      simp only [List.length_cons, List.flatten_cons, List.length_append]
      omega
  have h4 := (hn.subperm (l₂ := l) fun e he => by
    obtain ⟨a, ha, hea⟩ := List.mem_flatten.1 he
    exact (hL a ha).2.2 e hea).length_le
  omega

/-- Three triangles, two of them the edges of surface 1. -/
def loopsFull : Mesh :=
  { loopsApart 3 with
    edges := (List.range 3).flatMap fun (j : Nat) =>
      [⟨3*j+1, [3*j+1, 3*j+2], [if j < 2 then 1 else 2, 0], false⟩, ⟨3*j+2, [3*j+2, 3*j+3], [if j < 2 then 1 else 2, 0], false⟩,
        ⟨3*j+3, [3*j+3, 3*j+1], [if j < 2 then 1 else 2, 0], false⟩]
    surfs := [{ index := 1, edgeind := [1, 2, 3, 4, 5, 6], voluind := [1, 0] }, { index := 2, edgeind := [7, 8, 9], voluind := [1, 0] }]
    volus := [{ index := 1, surfind := [1, 2] }] }

theorem rings_some {m : Mesh} (es : List Edge) (hes : ∀ x ∈ es, x ∈ m.edges) {l : List Int}
    (h : (es.map Edge.index).Nodup ∧ (∀ v ∈ es.flatMap Edge.vertind, (es.flatMap Edge.vertind).count v = 2) ∧ es.map Edge.index = l) :
    Rings m l := by
  refine ⟨es.map Edge.index, es, h.1, fun e => by rw [h.2.2], ?_, h.2.1⟩
  clear h
  induction es with
  | nil => exact .nil
  | cons x es ih => exact .cons ⟨hes x (by simp), rfl⟩ (ih fun y hy => hes y (by simp [hy]))

/-- It meets the hypotheses of `C129_two_loops_partial` with a full vector. -/
example : ∃ r cap' src pairs, orderEdges sortTab loopsFull 2 = .ok (r, cap', pairs) ∧ Sound r ∧ SplitBy loopsFull r src ∧
      (∀ g ∈ r.surfs, g.isordered = true ∧ OneLoop loopsFull g) ∧ ∀ p ∈ pairs, src p.2 = p.1 ∧ HasSurf r p.2 ∧ ¬ HasSurf loopsFull p.2 := by
  have hne : ∀ x ∈ loopsFull.edges, x.vertind[0]? ≠ x.vertind[1]? := by decide +kernel
  refine C129_two_loops_partial sortTab sortTab_isTable _ (sound_of_checked (by decide +kernel)) (by unfold TwoVerts; decide +kernel)
    (fun f hf _ => ⟨?_, atMost_of_simple (fun x hx v h => hne x hx (by rw [h]; rfl)) (by decide +kernel) (k := 2) ?_⟩) (fun f hf ho => ?_)
    (by decide +kernel) 2 (by decide) (by decide)
  · rcases List.mem_cons.1 hf with rfl | hf
    · exact rings_some (loopsFull.edges.take 6) (fun x hx => List.mem_of_mem_take hx) (by decide +kernel)
    · obtain rfl := List.mem_singleton.1 hf
      exact rings_some (loopsFull.edges.drop 6) (fun x hx => List.mem_of_mem_drop hx) (by decide +kernel)
  · revert f; decide +kernel
  · have : f.isordered = false := by clear ho; revert f; decide +kernel
    simp [this] at ho

/-- What it does to it. -/
example : (orderEdges sortTab loopsFull 2).map (fun s => (s.1.surfs.map fun f => (f.index, f.edgeind), s.2)) =
    .ok ([(1, [1, 3, 2]), (2, [7, 9, 8]), (3, [4, 6, 5])], 3, [(1, 3)]) := by decide +kernel

/-- C129, room: with a vector which cannot grow to half as much again as one element the pass is not repeated and the call throws: a surface
of two loops alone in its mesh is never split. -/
theorem C129_capacity_violated : ∃ m, Sound m ∧ TwoVerts m ∧ (∀ f ∈ m.surfs, Rings m f.edgeind ∧ f.voluind.length = 2) ∧
    orderEdges sortTab m m.surfs.length = .error .throws := by
  refine ⟨loopsApart 2, apart_sound2, apart_two2, fun f hf => ?_, by decide +kernel⟩
  have : f.edgeind = [1, 2, 3, 4, 5, 6] ∧ f.voluind.length = 2 := by revert f; decide +kernel
  rw [this.1]
  exact ⟨apart_rings2, this.2⟩

/-- C129, room: the vector of surfaces moves while a surface of three loops is split, and the split goes on with the old place. -/
theorem C129_moved_violated : ∃ m cap, Sound m ∧ TwoVerts m ∧ (∀ f ∈ m.surfs, Rings m f.edgeind ∧ f.voluind.length = 2) ∧
    m.surfs.length < cap ∧ orderEdges sortTab m cap = .error .ub := by
  refine ⟨loopsApart 3, 2, apart_sound3, apart_two3, fun f hf => ?_, by decide +kernel, by decide +kernel⟩
  have : f.edgeind = [1, 2, 3, 4, 5, 6, 7, 8, 9] ∧ f.voluind.length = 2 := by revert f; decide +kernel
  rw [this.1]
  exact ⟨apart_rings3, this.2⟩

/-- C129, pairs: the third part of a surface is not reported, so `snake::OrderEdges` makes no snaking surface for it. -/
theorem C129_pairs_violated : ∃ m cap r pairs, Sound m ∧ TwoVerts m ∧ (∀ f ∈ m.surfs, Rings m f.edgeind ∧ f.voluind.length = 2) ∧
    orderEdges sortTab m cap = .ok (r, cap, pairs) ∧ ∃ s, HasSurf r s ∧ ¬ HasSurf m s ∧ ∀ p ∈ pairs, p.2 ≠ s := by
  have hrun : ∃ r, orderEdges sortTab (loopsApart 3) 3 = .ok (r, 3, [(1, 2)]) ∧ r.surfs.map Surf.index = [1, 2, 3] := by
    rcases h : orderEdges sortTab (loopsApart 3) 3 with e | ⟨r, c, p⟩
    · have : (orderEdges sortTab (loopsApart 3) 3).map (fun _ => ()) = .ok () := by decide +kernel
      rw [h] at this
      cases this
    · have h1 : (orderEdges sortTab (loopsApart 3) 3).map (fun s => (s.1.surfs.map Surf.index, s.2)) = .ok ([1, 2, 3], 3, [(1, 2)]) := by
        decide +kernel
      rw [h] at h1
      simp only [Except.map, Except.ok.injEq, Prod.mk.injEq] at h1
      obtain ⟨h2, rfl, rfl⟩ := h1
      exact ⟨r, rfl, h2⟩
  obtain ⟨r, h1, h2⟩ := hrun
  refine ⟨loopsApart 3, 3, r, _, apart_sound3, apart_two3, fun f hf => ?_, h1, 3, ?_, ?_, by simp⟩
  · have : f.edgeind = [1, 2, 3, 4, 5, 6, 7, 8, 9] ∧ f.voluind.length = 2 := by revert f; decide +kernel
    rw [this.1]
    exact ⟨apart_rings3, this.2⟩
  · have : (3 : Int) ∈ r.surfs.map Surf.index := by rw [h2]; simp
    obtain ⟨g, hg, hgi⟩ := List.mem_map.1 this
    exact ⟨g, hg, hgi⟩
  · rintro ⟨g, hg, hgi⟩
    have : (3 : Int) ∈ (loopsApart 3).surfs.map Surf.index := List.mem_map.2 ⟨g, hg, hgi⟩
    revert this
    decide +kernel

/-- C129, lists: a part is listed twice by its volume, as both `SwitchIndex` and `SplitSurface` add it. -/
theorem C129_twice_violated : ∃ m cap r pairs, Sound m ∧ TwoVerts m ∧ (∀ f ∈ m.surfs, Rings m f.edgeind ∧ f.voluind.length = 2) ∧
    (∀ c ∈ m.volus, c.surfind.Nodup) ∧ orderEdges sortTab m cap = .ok (r, cap, pairs) ∧ ∃ c ∈ r.volus, c.surfind = [1, 2, 2] := by
  have hrun : ∃ r, orderEdges sortTab (loopsApart 2) 7 = .ok (r, 7, [(1, 2)]) ∧ r.volus.map Volu.surfind = [[1, 2, 2]] := by
    rcases h : orderEdges sortTab (loopsApart 2) 7 with e | ⟨r, c, p⟩
    · have : (orderEdges sortTab (loopsApart 2) 7).map (fun _ => ()) = .ok () := by decide +kernel
      rw [h] at this
      cases this
    · have h1 : (orderEdges sortTab (loopsApart 2) 7).map (fun s => (s.1.volus.map Volu.surfind, s.2)) = .ok ([[1, 2, 2]], 7, [(1, 2)]) := by
        decide +kernel
      rw [h] at h1
      simp only [Except.map, Except.ok.injEq, Prod.mk.injEq] at h1
      obtain ⟨h2, rfl, rfl⟩ := h1
      exact ⟨r, rfl, h2⟩
  obtain ⟨r, h1, h2⟩ := hrun
  refine ⟨loopsApart 2, 7, r, _, apart_sound2, apart_two2, fun f hf => ?_, by decide +kernel, h1, ?_⟩
  · have : f.edgeind = [1, 2, 3, 4, 5, 6] ∧ f.voluind.length = 2 := by revert f; decide +kernel
    rw [this.1]
    exact ⟨apart_rings2, this.2⟩
  · have : [1, 2, 2] ∈ r.volus.map Volu.surfind := by rw [h2]; simp
    exact List.mem_map.1 this

end RSVS.Props
