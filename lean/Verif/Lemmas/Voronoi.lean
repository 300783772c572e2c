import Verif.Lemmas.OrderMesh
import Verif.Lemmas.TetMesh
import Verif.Spec.Voronoi

/-!
# Lemmas about the mesh of a Voronoi diagram
-/

namespace RSVS.Voronoi

open RSVS.Spec RSVS.TetMesh RSVS.Mesh

variable (t : VoroOut)

abbrev nv : Nat := t.numberofvpoints
abbrev ne : Nat := t.vedges.length
abbrev nf : Nat := t.vfacets.length
abbrev nc : Nat := t.numberofvcells

def rayB (e : Nat) : Bool := (vedge t e).v2 = -1
/-- The rays in the order of the diagram. -/
def rayL : List Nat := (List.range (ne t)).filter (rayB t)
def openB (f : Nat) : Bool := (vEdges t f).any (rayB t)
/-- The open facets. -/
def openL : List Nat := (List.range (nf t)).filter (openB t)
/-- The facet once for each side where the cell is. -/
def sideOf (c f : Nat) : List Nat := (if vSide1 t f = c then [f] else []) ++ if vSide2 t f = c then [f] else []
def cellB (c : Nat) : Bool := (openL t).any fun f => c = vSide1 t f ∨ c = vSide2 t f
/-- The open cells. -/
def cellL : List Nat := (List.range (nc t)).filter (cellB t)

def tipOf (e : Nat) : Nat := nv t + (rayL t).idxOf e
def linkOf (f : Nat) : Nat := ne t + (openL t).idxOf f
def lidOf (c : Nat) : Nat := nf t + (cellL t).idxOf c

/-- Positions to indices. -/
abbrev up (l : List Nat) : List Int := l.map fun (k : Nat) => (k : Int) + 1

def crd (pts : List ℚ) (k : Nat) : List ℚ := [pts.getD (k * 3 + 0) 0, pts.getD (k * 3 + 1) 0, pts.getD (k * 3 + 2) 0]

/-- The edges of the list with the vertex. -/
def endsOf (es : List Nat) (k : Nat) : List Nat :=
  es.flatMap fun e => (if vFrom t e = k then [e] else []) ++ if rayB t e = false ∧ vTo t e = k then [e] else []

def vert0 (pts : List ℚ) (es : List Nat) (k : Nat) : Vert := { index := (k : Int) + 1, edgeind := up (endsOf t es k), coord := crd pts k }

def edge0 (es fs : List Nat) (k : Nat) : Edge where
  index := (k : Int) + 1
  vertind := if k ∈ es then [(vFrom t k : Int) + 1, (vedge t k).v2 + incr t.firstnumber] else []
  surfind := up (fs.flatMap fun f => ((vEdges t f).filter fun e => e = k).map fun _ => f)

def surf0 (fs : List Nat) (k : Nat) : Surf where
  index := (k : Int) + 1
  edgeind := if k ∈ fs then up (vEdges t k) else []
  voluind := if k ∈ fs then up [vSide1 t k, vSide2 t k] else [0, 0]

def volu0 (fs : List Nat) (k : Nat) : Volu := { index := (k : Int) + 1, surfind := up (fs.flatMap (sideOf t k)) }

/-- The mesh after some edges and facets. -/
def mesh0 (pts : List ℚ) (es fs : List Nat) : Mesh where
  verts := (List.range (nv t)).map (vert0 t pts es)
  edges := (List.range (ne t)).map (edge0 t es fs)
  surfs := (List.range (nf t)).map (surf0 t fs)
  volus := (List.range (nc t)).map (volu0 t fs)

variable {t} {pts : List ℚ}

theorem dec_eq (h : VoroValid t pts) {n : Nat} {x : Int} (hx : VIn t n x) : x + deincr t.firstnumber = (x - t.firstnumber).toNat ∧
    x + incr t.firstnumber = ((x - t.firstnumber).toNat : Int) + 1 ∧ (x - t.firstnumber).toNat < n := by
  unfold deincr incr
  obtain ⟨h1, h2⟩ := hx
  rcases h.first with e | e <;> rw [e] at h1 h2 ⊢ <;> simp <;> omega

theorem start_ok (h : VoroValid t pts) : start t pts = .ok (mesh0 t pts [] []) := by
  unfold start
  have : (List.range t.numberofvpoints).mapM (m := Except Fault) (fun (i : Nat) =>
    (vecGet pts ((i * 3 + 0 : Nat) : Int)).bind fun x => (vecGet pts ((i * 3 + 1 : Nat) : Int)).bind fun y =>
    (vecGet pts ((i * 3 + 2 : Nat) : Int)).map fun z => ({ index := (i : Int) + 1, edgeind := [], coord := [x, y, z] } : Vert)) =
      .ok ((List.range t.numberofvpoints).map (vert0 t pts [])) := by
    have key : ∀ l : List Nat, (∀ i ∈ l, i < t.numberofvpoints) → l.mapM (m := Except Fault) (fun (i : Nat) =>
      (vecGet pts ((i * 3 + 0 : Nat) : Int)).bind fun x => (vecGet pts ((i * 3 + 1 : Nat) : Int)).bind fun y =>
      (vecGet pts ((i * 3 + 2 : Nat) : Int)).map fun z => ({ index := (i : Int) + 1, edgeind := [], coord := [x, y, z] } : Vert)) =
        .ok (l.map (vert0 t pts [])) := by
      intro l
      induction l with
      | nil => intro _; rfl
      | cons a l ih =>
        intro hl
        have ha := hl a (by simp)
        have := h.pts.2
        rw [List.mapM_cons, ih fun i hi => hl i (by simp [hi]), vecGet_getD 0 (by omega : a * 3 + 0 < pts.length),
          vecGet_getD 0 (by omega : a * 3 + 1 < pts.length), vecGet_getD 0 (by omega : a * 3 + 2 < pts.length)]
        rfl
    exact key _ fun i hi => List.mem_range.mp hi
  rw [this]
  rfl

theorem vecGet_edge {e : Nat} (he : e < ne t) : vecGet t.vedges (e : Int) = .ok (vedge t e) := vecGet_getD _ he

theorem vecGet_facet {f : Nat} (hf : f < nf t) : vecGet t.vfacets (f : Int) = .ok (vfacet t f) := vecGet_getD _ hf

theorem edge_ok (h : VoroValid t pts) (p : List Nat) {e : Nat} (he : e < ne t) :
    edgeStep t (mesh0 t pts p [], up (p.filter (rayB t))) e = .ok (mesh0 t pts (p ++ [e]) [], up ((p ++ [e]).filter (rayB t))) := by
  obtain ⟨a1, a2, a3⟩ := dec_eq h (h.v1 e he)
  unfold edgeStep
  rw [vecGet_edge he]
  simp only [Except.bind, mesh0]
  rw [modAt_range rfl he]
  simp only
  rw [modAt_range a1 a3]
  simp only
  have hE : (List.range (ne t)).map (fun k => if k = e then { edge0 t p [] k with vertind := [(vedge t e).v1 + incr t.firstnumber, (vedge t e).v2 + incr t.firstnumber] }
      else edge0 t p [] k) = (List.range (ne t)).map (edge0 t (p ++ [e]) []) := by
    apply List.map_congr_left
    intro k _
    by_cases e1 : k = e
    · subst e1
      rw [if_pos rfl, a2]
      simp [edge0, vFrom]
    · rw [if_neg e1]
      simp [edge0, e1]
  rw [hE]
  by_cases hr : (vedge t e).v2 = -1
  · rw [if_neg (by omega)]
    have hB : rayB t e = true := by simp [rayB, hr]
    congr 2
    · congr 1
      apply List.map_congr_left
      intro k _
      by_cases e1 : k = ((vedge t e).v1 - t.firstnumber).toNat
      · rw [if_pos e1]
        have : vFrom t e = k := e1.symm
        simp [vert0, endsOf, this, hB]
      · rw [if_neg e1]
        have : ¬ vFrom t e = k := fun q => e1 q.symm
        simp [vert0, endsOf, this, hB]
    · simp [List.filter_append, hB]
  · have hB : rayB t e = false := by simp [rayB, hr]
    obtain ⟨b1, b2, b3⟩ := dec_eq h ((h.v2 e he).resolve_left hr)
    have hpos : (vedge t e).v2 > -1 := by
      have := ((h.v2 e he).resolve_left hr).1
      rcases h.first with q | q <;> omega
    rw [if_pos hpos, modAt_range b1 b3]
    simp only [Except.map]
    congr 2
    · congr 1
      apply List.map_congr_left
      intro k _
      by_cases e1 : k = ((vedge t e).v1 - t.firstnumber).toNat <;> by_cases e2 : k = ((vedge t e).v2 - t.firstnumber).toNat
      · have f1 : vFrom t e = k := e1.symm
        have f2 : vTo t e = k := e2.symm
        rw [if_pos e2, if_pos e1]
        simp [vert0, endsOf, f1, f2, hB]
      · have f1 : vFrom t e = k := e1.symm
        have f2 : ¬ vTo t e = k := fun q => e2 q.symm
        rw [if_neg e2, if_pos e1]
        simp [vert0, endsOf, f1, f2, hB]
      · have f1 : ¬ vFrom t e = k := fun q => e1 q.symm
        have f2 : vTo t e = k := e2.symm
        rw [if_pos e2, if_neg e1]
        simp [vert0, endsOf, f1, f2, hB]
      · have f1 : ¬ vFrom t e = k := fun q => e1 q.symm
        have f2 : ¬ vTo t e = k := fun q => e2 q.symm
        rw [if_neg e2, if_neg e1]
        simp [vert0, endsOf, f1, f2, hB]
    · simp [List.filter_append, hB]

/-- The named edges of a list. -/
def named (t : VoroOut) (l : List Int) : List Nat := (l.filter fun x => x ≠ -1).map fun x => (x - t.firstnumber).toNat

theorem list_ok (h : VoroValid t pts) {i : Nat} (hi : i < nf t) : ∀ (l : List Int), (∀ x ∈ l, x = -1 ∨ VIn t (ne t) x) → ∀ (m : Mesh) (S : Nat → Surf) (E : Nat → Edge),
    m.surfs = (List.range (nf t)).map S → m.edges = (List.range (ne t)).map E → l.foldlM (m := Except Fault) (listStep t i) m = .ok { m with
      surfs := (List.range (nf t)).map fun k => if k = i then { S k with edgeind := (S k).edgeind ++ up (named t l) } else S k,
      edges := (List.range (ne t)).map fun k => { E k with surfind := (E k).surfind ++ up (((named t l).filter fun e => e = k).map fun _ => i) } }
  | [], _, m, S, E, hS, hE => by
    simp only [List.foldlM_nil, named, List.filter_nil, List.map_nil, List.append_nil, ite_self, pure, Except.pure]
    rw [← hS, ← hE]
  | x :: l, hl, m, S, E, hS, hE => by
    rw [List.foldlM_cons]
    rcases hl x (by simp) with hx | hx
    · subst hx
      have hstep : listStep t i m (-1) = .ok m := by unfold listStep; rw [if_neg (by omega)]
      rw [hstep]
      simp only [bind, Except.bind]
      rw [list_ok h hi l (fun y hy => hl y (by simp [hy])) m S E hS hE]
      simp [named]
    · obtain ⟨a1, a2, a3⟩ := dec_eq h hx
      have hne : x > -1 := by
        have := hx.1
        rcases h.first with q | q <;> omega
      have hstep : listStep t i m x = .ok { m with
          surfs := (List.range (nf t)).map fun k => if k = i then { S k with edgeind := (S k).edgeind ++ [x + incr t.firstnumber] } else S k,
          edges := (List.range (ne t)).map fun k => if k = (x - t.firstnumber).toNat then { E k with surfind := (E k).surfind ++ [(i : Int) + 1] } else E k } := by
        unfold listStep
        rw [if_pos hne, hS, modAt_range rfl hi]
        simp only [Except.bind]
        rw [hE, modAt_range a1 a3]
        rfl
      rw [hstep]
      simp only [bind, Except.bind]
      rw [list_ok h hi l (fun y hy => hl y (by simp [hy])) _ _ _ rfl rfl]
      have hx1 : x ≠ -1 := by omega
      congr 2
      · apply List.map_congr_left
        intro k _
        by_cases e1 : k = (x - t.firstnumber).toNat
        · have e2 : (x - t.firstnumber).toNat = k := e1.symm
          simp [named, hx1, e2]
        · have e2 : ¬ (x - t.firstnumber).toNat = k := fun q => e1 q.symm
          simp [named, hx1, e2, e1]
      · apply List.map_congr_left
        intro k _
        split_ifs
        · simp [named, hx1, a2]
        · rfl

theorem facet_ok (h : VoroValid t pts) (p : List Nat) {f : Nat} (hf : f < nf t) (hp : f ∉ p) :
    facetStep t (mesh0 t pts (List.range (ne t)) p) f = .ok (mesh0 t pts (List.range (ne t)) (p ++ [f])) := by
  obtain ⟨a1, a2, a3⟩ := dec_eq h (h.c1 f hf)
  obtain ⟨b1, b2, b3⟩ := dec_eq h (h.c2 f hf)
  unfold facetStep
  rw [vecGet_facet hf]
  simp only [Except.bind]
  rw [list_ok h hf _ (h.list f hf) _ (surf0 t p) (edge0 t (List.range (ne t)) p) rfl rfl]
  simp only
  unfold sideStep
  rw [modAt_range rfl hf]
  simp only [Except.bind]
  rw [if_neg (h.sides f hf)]
  simp only [List.foldlM_cons, List.foldlM_nil, mesh0]
  rw [modAt_range (q := vSide1 t f) (by rw [a2]; simp [vSide1]) a3]
  simp only [bind, Except.bind]
  rw [modAt_range (q := vSide2 t f) (by rw [b2]; simp [vSide2]) b3]
  simp only [pure, Except.pure, Except.map]
  have hn : named t (vfacet t f).elist = vEdges t f := rfl
  congr 2
  · apply List.map_congr_left
    intro k _
    simp [edge0, hn]
  · apply List.map_congr_left
    intro k _
    by_cases e1 : k = f
    · subst e1
      simp [surf0, hp, hn, a2, b2, vSide1, vSide2]
    · simp [surf0, e1]
  · apply List.map_congr_left
    intro k _
    by_cases e1 : k = vSide1 t f <;> by_cases e2 : k = vSide2 t f
    · rw [if_pos e2, if_pos e1]
      simp [volu0, sideOf, e1.symm, e2.symm]
    · have e2' : ¬ vSide2 t f = k := fun q => e2 q.symm
      rw [if_neg e2, if_pos e1]
      simp [volu0, sideOf, e1.symm, e2']
    · have e1' : ¬ vSide1 t f = k := fun q => e1 q.symm
      rw [if_pos e2, if_neg e1]
      simp [volu0, sideOf, e2.symm, e1']
    · have e1' : ¬ vSide1 t f = k := fun q => e1 q.symm
      have e2' : ¬ vSide2 t f = k := fun q => e2 q.symm
      rw [if_neg e2, if_neg e1]
      simp [volu0, sideOf, e2', e1']

theorem edges_loop (h : VoroValid t pts) : (List.range (ne t)).foldlM (m := Except Fault) (edgeStep t) (mesh0 t pts [] [], []) =
    .ok (mesh0 t pts (List.range (ne t)) [], up (rayL t)) :=
  foldlM_mem (edgeStep t) (fun p => (mesh0 t pts p [], up (p.filter (rayB t)))) _ fun p _ he => edge_ok h p (List.mem_range.mp he)

theorem prefix_notMem {l p q : List Nat} {b : Nat} (hl : l.Nodup) (e : l = p ++ b :: q) : b ∉ p := by
  subst e
  rw [List.nodup_append] at hl
  exact fun hb => hl.2.2 b hb b (by simp) rfl

theorem facets_loop (h : VoroValid t pts) : (List.range (nf t)).foldlM (m := Except Fault) (facetStep t) (mesh0 t pts (List.range (ne t)) []) =
    .ok (mesh0 t pts (List.range (ne t)) (List.range (nf t))) := by
  refine foldlM_state (facetStep t) (fun p => mesh0 t pts (List.range (ne t)) p) _ [] fun p b q e => ?_
  rw [List.nil_append] at e
  exact facet_ok h p (List.mem_range.mp (by show b ∈ List.range (nf t); rw [e]; simp)) (prefix_notMem List.nodup_range e)


/-! ### Positions -/

theorem up_nodup {L : List Nat} (h : L.Nodup) : (up L).Nodup := List.Nodup.map (fun a b e => by simpa using e) h

theorem mem_up {L : List Nat} {k : Nat} : (k : Int) + 1 ∈ up L ↔ k ∈ L := by simp [up]

theorem posOf_up {L : List Nat} (h : L.Nodup) (k : Nat) : posOf id (up L) ((k : Int) + 1) = if k ∈ L then ((L.idxOf k : Nat) : Int) else -1 := by
  split_ifs with hk
  · have hi := List.idxOf_lt_length_of_mem hk
    have := posOf_getElem (ix := id) (l := up L) (by rw [List.map_id]; exact up_nodup h) (L.idxOf k) (by simpa using hi)
    simpa using this
  · rcases posOf_cases (ix := id) (up L) ((k : Int) + 1) with ⟨h1, _⟩ | ⟨p, h1, hp, h2⟩
    · exact h1
    · exfalso
      apply hk
      rw [← mem_up]
      have := List.getElem_mem hp
      rw [id] at h2
      rwa [h2] at this

theorem pair_up {L : List Nat} (h : L.Nodup) (l : List Nat) : ((up l).map fun e => posOf id (up L) e).filter (fun a => a ≠ -1) =
    (l.filter fun k => k ∈ L).map fun k => ((L.idxOf k : Nat) : Int) := by
  induction l with
  | nil => rfl
  | cons a l ih =>
    simp only [up, List.map_cons] at ih ⊢
    rw [posOf_up h, List.filter_cons, ih, List.filter_cons]
    by_cases ha : a ∈ L
    · have : ((L.idxOf a : Nat) : Int) ≠ -1 := by omega
      simp [ha, this]
    · simp [ha]

theorem vecGet_up {L : List Nat} {k : Nat} (hk : k ∈ L) : vecGet (up L) ((L.idxOf k : Nat) : Int) = .ok ((k : Int) + 1) := by
  have hi := List.idxOf_lt_length_of_mem hk
  rw [vecGet_getD 0 (by simpa using hi)]
  simp [List.getD_eq_getElem?_getD, List.getElem?_eq_getElem hi]

theorem elemAt_range {α : Type} {n : Nat} {g : Nat → α} {p : Int} {q : Nat} (hp : p = q) (hq : q < n) : elemAt ((List.range n).map g) p = .ok (g q) := by
  subst hp
  rw [elemAt_nat _ q (by simpa using hq)]
  simp

theorem posOf_range {α : Type} {ix : α → Int} {n : Nat} {g : Nat → α} (hg : ∀ k, ix (g k) = (k : Int) + 1) {k : Nat} (hk : k < n) :
    posOf ix ((List.range n).map g) ((k : Int) + 1) = k := by
  have hn : (((List.range n).map g).map ix).Nodup := by
    rw [List.map_map]
    have : ix ∘ g = fun k : Nat => (k : Int) + 1 := funext hg
    rw [this]
    exact up_nodup List.nodup_range
  have := posOf_getElem hn k (by simpa using hk)
  simp only [List.getElem_map, List.getElem_range, hg] at this
  exact this

theorem concat_range {α : Type} {ix : α → Int} {n : Nat} {g : Nat → α} (hg : ∀ k, ix (g k) = (k : Int) + 1) (field : α → List Int) {L : List Nat}
    (hL : ∀ k ∈ L, k < n) : concatField ((List.range n).map g) field (posList ix ((List.range n).map g) (up L)) = .ok (L.flatMap fun k => field (g k)) := by
  have hp : posList ix ((List.range n).map g) (up L) = L.map fun k : Nat => (k : Int) := by
    unfold posList up
    rw [List.map_map]
    apply List.map_congr_left
    intro k hk
    exact posOf_range hg (hL k hk)
  rw [hp]
  unfold concatField
  have key : ∀ (l : List Nat) (acc : List Int), (∀ k ∈ l, k < n) → (l.map fun k : Nat => (k : Int)).foldlM (m := Except Fault) (fun acc p => do
      let a ← elemAt ((List.range n).map g) p
      pure (acc ++ field a)) acc = .ok (acc ++ l.flatMap fun k => field (g k)) := by
    intro l
    induction l with
    | nil => intro acc _; simp [pure, Except.pure]
    | cons a l ih =>
      intro acc hl
      rw [List.map_cons, List.foldlM_cons, elemAt_range rfl (hl a (by simp))]
      simp only [bind, Except.bind, pure, Except.pure] at ih ⊢
      rw [ih _ fun k hk => hl k (by simp [hk])]
      simp
  have := key L [] hL
  rw [List.nil_append] at this
  exact this

theorem sortUnique_up {l : List Int} {L : List Nat} (hL : L.Pairwise (· < ·)) (h : ∀ x, x ∈ l ↔ x ∈ up L) : sortUnique l = up L := by
  have hu : (up L).Pairwise (· < ·) := List.pairwise_map.mpr (hL.imp fun h => by omega)
  have s := sortUnique_strict l
  have hn1 : (sortUnique l).Nodup := s.imp fun h => ne_of_lt h
  have hn2 : (up L).Nodup := hu.imp fun h => ne_of_lt h
  refine List.Perm.eq_of_pairwise (le := (· < ·)) (fun a b _ _ h1 h2 => absurd h1 (by omega)) s hu ?_
  exact (List.perm_ext_iff_of_nodup hn1 hn2).mpr fun x => by rw [mem_sortUnique, h]

theorem rayL_nodup : (rayL t).Nodup := List.nodup_range.filter _
theorem openL_nodup : (openL t).Nodup := List.nodup_range.filter _
theorem cellL_nodup : (cellL t).Nodup := List.nodup_range.filter _
theorem mem_rayL {e : Nat} : e ∈ rayL t ↔ e < ne t ∧ IsRay t e := by simp [rayL, rayB, IsRay]
theorem mem_openL {f : Nat} : f ∈ openL t ↔ VOpen t f := by simp [openL, openB, VOpen, rayB, IsRay]
theorem mem_cellL {c : Nat} : c ∈ cellL t ↔ c < nc t ∧ ∃ f, VOpen t f ∧ VSide t f c := by
  simp [cellL, cellB, mem_openL, VSide]

theorem idx_at {L p q : List Nat} {b : Nat} (hL : L.Nodup) (e : L = p ++ b :: q) : L.idxOf b = p.length ∧ L.getD p.length 0 = b ∧ b ∈ L := by
  have hp := prefix_notMem hL e
  subst e
  refine ⟨?_, ?_, by simp⟩
  · rw [List.idxOf_append_of_notMem hp, List.idxOf_cons_self]; rfl
  · simp

/-! ### The ends of the rays -/

variable (t pts)

def vert1 (ending : List ℚ → List ℚ → List ℚ) (k : Nat) : Vert :=
  if k < nv t then vert0 t pts (List.range (ne t)) k
  else { index := (k : Int) + 1, edgeind := [((rayL t).getD (k - nv t) 0 : Int) + 1],
         coord := ending (vedge t ((rayL t).getD (k - nv t) 0)).vnormal (crd pts (vFrom t ((rayL t).getD (k - nv t) 0))) }

def edge1 (p : List Nat) (k : Nat) : Edge :=
  if k ∈ p then { edge0 t (List.range (ne t)) (List.range (nf t)) k with vertind := [(vFrom t k : Int) + 1, (tipOf t k : Int) + 1] }
  else edge0 t (List.range (ne t)) (List.range (nf t)) k

/-- The mesh after the ends of some rays. -/
def mesh1 (ending : List ℚ → List ℚ → List ℚ) (p : List Nat) : Mesh :=
  { mesh0 t pts (List.range (ne t)) (List.range (nf t)) with
    verts := (List.range (nv t + p.length)).map (vert1 t pts ending), edges := (List.range (ne t)).map (edge1 t p) }

variable {t pts}

theorem ray_ok (h : VoroValid t pts) (ending : List ℚ → List ℚ → List ℚ) {p q : List Nat} {b : Nat} (e : rayL t = p ++ b :: q) :
    rayStep t ending (mesh1 t pts ending p) ((b : Int) + 1) = .ok (mesh1 t pts ending (p ++ [b])) := by
  obtain ⟨i1, i2, i3⟩ := idx_at rayL_nodup e
  have hp := prefix_notMem rayL_nodup e
  have hb := (mem_rayL.mp i3).1
  obtain ⟨a1, a2, a3⟩ := dec_eq h (h.v1 b hb)
  have hlen : (mesh1 t pts ending p).verts.length = nv t + p.length := by simp [mesh1]
  unfold rayStep
  simp only
  rw [hlen]
  have e1 : (mesh1 t pts ending p).edges = (List.range (ne t)).map (edge1 t p) := rfl
  have e2 : (mesh1 t pts ending p).verts = (List.range (nv t + p.length)).map (vert1 t pts ending) := rfl
  rw [e1, modAt_range (q := b) (by omega) hb]
  simp only [Except.bind]
  rw [show (b : Int) + 1 - 1 = b by omega, vecGet_edge hb]
  simp only
  rw [e2, elemAt_range a1 (Nat.lt_of_lt_of_le a3 (Nat.le_add_right _ _))]
  simp only [Except.map, mesh1]
  have e3 : (p ++ [b]).length = p.length + 1 := by simp
  rw [e3, ← Nat.add_assoc, List.range_succ, List.map_append]
  congr 2
  · congr 1
    simp only [List.map_cons, List.map_nil, List.cons.injEq, and_true]
    conv_rhs => rw [vert1, if_neg (by omega), show nv t + p.length - nv t = p.length by omega, i2]
    conv_lhs => rw [vert1, if_pos (by simpa using a3)]
    simp [vert0, vFrom]
  · apply List.map_congr_left
    intro k hk
    by_cases e4 : k = b
    · subst e4
      rw [if_pos rfl]
      conv_rhs => rw [edge1, if_pos (by simp)]
      conv_lhs => rw [edge1, if_neg hp]
      simp [edge0, List.mem_range.mp hk, tipOf, i1]
    · rw [if_neg e4]
      simp [edge1, e4]

theorem rays_loop (h : VoroValid t pts) (ending : List ℚ → List ℚ → List ℚ) :
    (up (rayL t)).foldlM (m := Except Fault) (rayStep t ending) (mesh0 t pts (List.range (ne t)) (List.range (nf t))) =
      .ok (mesh1 t pts ending (rayL t)) := by
  have h0 : mesh0 t pts (List.range (ne t)) (List.range (nf t)) = mesh1 t pts ending [] := by
    unfold mesh1
    have : (List.range (nv t + ([] : List Nat).length)).map (vert1 t pts ending) = (List.range (nv t)).map (vert0 t pts (List.range (ne t))) := by
      apply List.map_congr_left
      intro k hk
      rw [vert1, if_pos (by simpa using hk)]
    rw [this]
    have : (List.range (ne t)).map (edge1 t []) = (List.range (ne t)).map (edge0 t (List.range (ne t)) (List.range (nf t))) := by
      apply List.map_congr_left
      intro k _
      simp [edge1]
    rw [this]
    rfl
  rw [h0, up, List.foldlM_map]
  refine foldlM_state _ (fun p => mesh1 t pts ending p) (rayL t) [] fun p b q e => ?_
  exact ray_ok h ending e

theorem openL_sorted : (openL t).Pairwise (· < ·) := List.pairwise_lt_range.filter _
theorem cellL_sorted : (cellL t).Pairwise (· < ·) := List.pairwise_lt_range.filter _

theorem edges_bound (h : VoroValid t pts) {f e : Nat} (hf : f < nf t) (he : e ∈ vEdges t f) : e < ne t := by
  simp only [vEdges, List.mem_map, List.mem_filter] at he
  obtain ⟨x, ⟨hx, h1⟩, rfl⟩ := he
  exact (dec_eq h ((h.list f hf x hx).resolve_left (by simpa using h1))).2.2

theorem open_faces (h : VoroValid t pts) : sortUnique ((rayL t).flatMap fun k => (edge1 t (rayL t) k).surfind) = up (openL t) := by
  apply sortUnique_up openL_sorted
  intro x
  simp only [List.mem_flatMap, up, List.mem_map]
  constructor
  · rintro ⟨e, he, hx⟩
    rw [edge1, if_pos he] at hx
    simp only [edge0, up, List.mem_map, List.mem_flatMap, List.mem_range, List.mem_filter] at hx
    obtain ⟨f, ⟨f', hf, e', ⟨h1, h2⟩, h3⟩, rfl⟩ := hx
    subst h3
    refine ⟨f', mem_openL.mpr ⟨hf, e', h1, ?_⟩, rfl⟩
    have := of_decide_eq_true h2
    subst this
    exact (mem_rayL.mp he).2
  · rintro ⟨f, hf, rfl⟩
    obtain ⟨hf, e, he, hr⟩ := mem_openL.mp hf
    have hm : e ∈ rayL t := mem_rayL.mpr ⟨edges_bound h hf he, hr⟩
    refine ⟨e, hm, ?_⟩
    rw [edge1, if_pos hm]
    simp only [edge0, up, List.mem_map, List.mem_flatMap, List.mem_range, List.mem_filter]
    exact ⟨f, ⟨f, hf, e, ⟨he, by simp⟩, rfl⟩, rfl⟩


/-! ### The edges that close the facets -/

variable (t pts)

/-- The rays of a facet. -/
def raysOf (f : Nat) : List Nat := (vEdges t f).filter fun e => e ∈ rayL t

/-- The end with this position belongs to a ray of the facet. -/
def tipIn (k f : Nat) : Bool := nv t ≤ k ∧ (rayL t).getD (k - nv t) 0 ∈ raysOf t f

def vert2 (ending : List ℚ → List ℚ → List ℚ) (p : List Nat) (k : Nat) : Vert :=
  { vert1 t pts ending k with
    edgeind := (vert1 t pts ending k).edgeind ++ up ((p.filter (tipIn t k)).map (linkOf t)) }

def edge2 (k : Nat) : Edge :=
  if k < ne t then edge1 t (rayL t) k
  else { index := (k : Int) + 1, vertind := up ((raysOf t ((openL t).getD (k - ne t) 0)).map (tipOf t)),
         surfind := up [(openL t).getD (k - ne t) 0] }

def surf2 (p : List Nat) (k : Nat) : Surf :=
  { surf0 t (List.range (nf t)) k with
    edgeind := (surf0 t (List.range (nf t)) k).edgeind ++ if k ∈ p then [(linkOf t k : Int) + 1] else [] }

/-- The mesh after the closing of some facets. -/
def mesh2 (ending : List ℚ → List ℚ → List ℚ) (p : List Nat) : Mesh :=
  { mesh1 t pts ending (rayL t) with
    verts := (List.range (nv t + (rayL t).length)).map (vert2 t pts ending p)
    edges := (List.range (ne t + p.length)).map (edge2 t)
    surfs := (List.range (nf t)).map (surf2 t p) }

variable {t pts}

theorem tip_lt {r : Nat} (hr : r ∈ rayL t) : tipOf t r < nv t + (rayL t).length := by
  have := List.idxOf_lt_length_of_mem hr
  unfold tipOf
  omega

theorem getD_idx {L : List Nat} {r : Nat} (hr : r ∈ L) : L.getD (L.idxOf r) 0 = r := by
  have := List.idxOf_lt_length_of_mem hr
  simp [List.getD_eq_getElem?_getD, List.getElem?_eq_getElem this]

theorem idx_getD {L : List Nat} (hL : L.Nodup) {k : Nat} (hk : k < L.length) : L.idxOf (L.getD k 0) = k := by
  rw [List.getD_eq_getElem?_getD, List.getElem?_eq_getElem hk, Option.getD_some]
  exact hL.idxOf_getElem k hk

theorem filter_idx {L l : List Nat} (hL : L.Nodup) (hl : l.Nodup) (hlL : ∀ r ∈ l, r ∈ L) {n k : Nat} (hk : k < n + L.length) :
    l.filter (fun r => n + L.idxOf r = k) = if n ≤ k ∧ L.getD (k - n) 0 ∈ l then [L.getD (k - n) 0] else [] := by
  split_ifs with hc
  · have hi : n + L.idxOf (L.getD (k - n) 0) = k := by
      rw [idx_getD hL (by omega)]
      omega
    have : l.filter (fun r => n + L.idxOf r = k) = l.filter (fun r => r = L.getD (k - n) 0) := by
      apply List.filter_congr
      intro r hr
      simp only [decide_eq_decide]
      constructor
      · intro q
        rw [← q, show n + L.idxOf r - n = L.idxOf r by omega, getD_idx (hlL r hr)]
      · intro q; rw [q]; exact hi
    rw [this]
    have hc2 := hc.2
    generalize L.getD (k - n) 0 = r at hc2
    clear * - hl hc2
    induction l with
    | nil => simp at hc2
    | cons a l ih =>
      have hn' := List.nodup_cons.mp hl
      rw [List.filter_cons]
      by_cases ea : a = r
      · subst ea
        rw [if_pos (by simp), List.filter_eq_nil_iff.mpr]
        intro x hx
        simp only [decide_eq_true_eq]
        rintro rfl
        exact hn'.1 hx
      · rw [if_neg (by simpa using ea)]
        exact ih hn'.2 ((List.mem_cons.mp hc2).resolve_left fun q => ea q.symm)
  · rw [List.filter_eq_nil_iff]
    intro r hr
    simp only [decide_eq_true_eq]
    intro q
    apply hc
    refine ⟨by omega, ?_⟩
    rw [← q, show n + L.idxOf r - n = L.idxOf r by omega, getD_idx (hlL r hr)]
    exact hr

theorem links_ok {n : Int} (N : Nat) (hN : ne t ≤ N) : ∀ (l : List Nat), (∀ r ∈ l, r ∈ rayL t) → ∀ (G : Nat → Vert) (acc : List Int),
    (l.map fun k => (((rayL t).idxOf k : Nat) : Int)).foldlM (m := Except Fault) (linkStep (up (rayL t)) ((List.range N).map (edge2 t)) n)
      ((List.range (nv t + (rayL t).length)).map G, acc) =
    .ok ((List.range (nv t + (rayL t).length)).map (fun k => { G k with edgeind := (G k).edgeind ++ (l.filter fun r => tipOf t r = k).map fun _ => n }),
      acc ++ up (l.map (tipOf t)))
  | [], _, G, acc => by simp [pure, Except.pure, up]
  | r :: l, hl, G, acc => by
    have hr := hl r (by simp)
    have hre := (mem_rayL.mp hr).1
    have hstep : linkStep (up (rayL t)) ((List.range N).map (edge2 t)) n ((List.range (nv t + (rayL t).length)).map G, acc) (((rayL t).idxOf r : Nat) : Int) =
        .ok ((List.range (nv t + (rayL t).length)).map (fun k => if k = tipOf t r then { G k with edgeind := (G k).edgeind ++ [n] } else G k),
          acc ++ [(tipOf t r : Int) + 1]) := by
      unfold linkStep
      rw [vecGet_up hr]
      simp only [Except.bind]
      rw [elemAt_range (q := r) (by omega) (by omega)]
      simp only
      have : (edge2 t r).vertind = [(vFrom t r : Int) + 1, (tipOf t r : Int) + 1] := by
        rw [edge2, if_pos hre, edge1, if_pos hr]
      rw [this]
      have : vecGet [(vFrom t r : Int) + 1, (tipOf t r : Int) + 1] 1 = .ok ((tipOf t r : Int) + 1) := rfl
      rw [this]
      simp only
      rw [modAt_range (q := tipOf t r) (by omega) (tip_lt hr)]
      rfl
    rw [List.map_cons, List.foldlM_cons, hstep]
    simp only [bind, Except.bind]
    rw [links_ok N hN l (fun x hx => hl x (by simp [hx]))]
    congr 2
    · apply List.map_congr_left
      intro k _
      by_cases e : k = tipOf t r
      · subst e
        simp
      · have e' : ¬ tipOf t r = k := fun q => e q.symm
        simp [e, e']
    · simp [up]

/-- The pair of rays of a facet. -/
theorem pair_rays {f : Nat} (hf : f < nf t) {p : List Nat} (hp : f ∉ p) :
    ((surf2 t p f).edgeind.map fun e => posOf id (up (rayL t)) e).filter (fun a => a ≠ -1) = (raysOf t f).map fun k => (((rayL t).idxOf k : Nat) : Int) := by
  have : (surf2 t p f).edgeind = up (vEdges t f) := by simp [surf2, surf0, hp, hf]
  rw [this, pair_up rayL_nodup]
  rfl

theorem raysOf_nodup (h : VoroValid t pts) {f : Nat} (hf : f < nf t) : (raysOf t f).Nodup := (h.twice f hf).filter _

theorem face_ok (h : VoroValid t pts) (ending : List ℚ → List ℚ → List ℚ) {p q : List Nat} {b : Nat} (e : openL t = p ++ b :: q)
    (h2 : (raysOf t b).length = 2) : faceClose (up (rayL t)) (mesh2 t pts ending p) ((b : Int) + 1) = .ok (mesh2 t pts ending (p ++ [b])) := by
  obtain ⟨i1, i2, i3⟩ := idx_at openL_nodup e
  have hp := prefix_notMem openL_nodup e
  have hb : b < nf t := (mem_openL.mp i3).1
  have e1 : (mesh2 t pts ending p).surfs = (List.range (nf t)).map (surf2 t p) := rfl
  have e2 : (mesh2 t pts ending p).edges = (List.range (ne t + p.length)).map (edge2 t) := rfl
  have e3 : (mesh2 t pts ending p).verts = (List.range (nv t + (rayL t).length)).map (vert2 t pts ending p) := rfl
  unfold faceClose
  rw [e1, elemAt_range (q := b) (by omega) hb]
  simp only [Except.bind]
  rw [pair_rays hb hp, List.length_map, if_neg (by omega), e2, e3]
  simp only [List.length_map, List.length_range]
  rw [links_ok (ne t + p.length) (by omega) (raysOf t b) (fun r hr => by simpa using (List.mem_filter.mp hr).2)]
  simp only
  rw [modAt_range (q := b) (by omega) hb]
  simp only [Except.map, mesh2, List.nil_append]
  have e4 : (p ++ [b]).length = p.length + 1 := by simp
  rw [e4, ← Nat.add_assoc, List.range_succ (n := ne t + p.length), List.map_append]
  have hl : ((ne t + p.length : Nat) : Int) + 1 = (linkOf t b : Int) + 1 := by simp [linkOf, i1]
  congr 2
  · apply List.map_congr_left
    intro k hk
    have hk := List.mem_range.mp hk
    have hfil : ((raysOf t b).filter fun r => tipOf t r = k).map (fun _ => ((ne t + p.length : Nat) : Int) + 1) =
        up (([b].filter (tipIn t k)).map (linkOf t)) := by
      rw [hl]
      have := filter_idx rayL_nodup (raysOf_nodup h hb) (fun r hr => by simpa using (List.mem_filter.mp hr).2) hk
      unfold tipOf
      rw [this]
      by_cases hc : nv t ≤ k ∧ (rayL t).getD (k - nv t) 0 ∈ raysOf t b
      · have ht : tipIn t k b = true := decide_eq_true hc
        rw [if_pos hc, List.filter_cons, if_pos ht]
        rfl
      · have ht : ¬ tipIn t k b = true := fun q => hc (of_decide_eq_true q)
        rw [if_neg hc, List.filter_cons, if_neg ht]
        rfl
    rw [hfil]
    simp [vert2, List.filter_append, up]
  · congr 1
    simp only [List.map_cons, List.map_nil, List.cons.injEq, and_true]
    conv_rhs => rw [edge2, if_neg (by omega), show ne t + p.length - ne t = p.length by omega, i2]
    simp [up]
  · apply List.map_congr_left
    intro k _
    by_cases e5 : k = b
    · subst e5
      rw [if_pos rfl, hl]
      simp [surf2, hp]
    · rw [if_neg e5]
      simp [surf2, e5]

theorem mesh1_mesh2 (ending : List ℚ → List ℚ → List ℚ) : mesh1 t pts ending (rayL t) = mesh2 t pts ending [] := by
  unfold mesh2
  have a1 : (List.range (nv t + (rayL t).length)).map (vert2 t pts ending []) = (List.range (nv t + (rayL t).length)).map (vert1 t pts ending) := by
    apply List.map_congr_left
    intro k _
    simp [vert2, up]
  have a2 : (List.range (ne t + ([] : List Nat).length)).map (edge2 t) = (List.range (ne t)).map (edge1 t (rayL t)) := by
    apply List.map_congr_left
    intro k hk
    rw [edge2, if_pos (by simpa using hk)]
  have a3 : (List.range (nf t)).map (surf2 t []) = (List.range (nf t)).map (surf0 t (List.range (nf t))) := by
    apply List.map_congr_left
    intro k _
    simp [surf2]
  rw [a1, a2, a3]
  rfl

theorem faces_prefix (h : VoroValid t pts) (ending : List ℚ → List ℚ → List ℚ) {p q : List Nat} (e : openL t = p ++ q) (h2 : ∀ f ∈ p, (raysOf t f).length = 2) :
    (up p).foldlM (m := Except Fault) (faceClose (up (rayL t))) (mesh1 t pts ending (rayL t)) = .ok (mesh2 t pts ending p) := by
  rw [mesh1_mesh2, up, List.foldlM_map]
  refine foldlM_state _ (fun p => mesh2 t pts ending p) p [] fun p' b q' e' => ?_
  rw [List.nil_append] at e'
  exact face_ok h ending (q := q' ++ q) (by rw [e, e']; simp) (h2 b (by rw [e']; simp))

/-- The first facet with another number of rays makes the closing fail. -/
theorem face_bad (ending : List ℚ → List ℚ → List ℚ) {p q : List Nat} {b : Nat} (e : openL t = p ++ b :: q)
    (h2 : (raysOf t b).length ≠ 2) : faceClose (up (rayL t)) (mesh2 t pts ending p) ((b : Int) + 1) = .error .throws := by
  have i3 : b ∈ openL t := by rw [e]; simp
  have hp := prefix_notMem openL_nodup e
  have hb : b < nf t := (mem_openL.mp i3).1
  have e1 : (mesh2 t pts ending p).surfs = (List.range (nf t)).map (surf2 t p) := rfl
  unfold faceClose
  rw [e1, elemAt_range (q := b) (by omega) hb]
  simp only [Except.bind]
  rw [pair_rays hb hp, List.length_map, if_pos h2]


/-! ### The faces that close the cells -/

variable (t pts)

/-- The open facets of a cell in the order of its list. -/
def openOf (c : Nat) : List Nat := ((List.range (nf t)).flatMap (sideOf t c)).filter fun f => f ∈ openL t

/-- The closing edge with this position belongs to a facet of the cell. -/
def linkIn (k c : Nat) : Bool := ne t ≤ k ∧ (openL t).getD (k - ne t) 0 ∈ openOf t c

def edge3 (p : List Nat) (k : Nat) : Edge :=
  { edge2 t k with
    surfind := (edge2 t k).surfind ++ up ((p.filter (linkIn t k)).map (lidOf t)) }

def surf3 (k : Nat) : Surf :=
  if k < nf t then surf2 t (openL t) k
  else { index := (k : Int) + 1, edgeind := up ((openOf t ((cellL t).getD (k - nf t) 0)).map (linkOf t)),
         voluind := [((cellL t).getD (k - nf t) 0 : Int) + 1, 0] }

def volu3 (p : List Nat) (k : Nat) : Volu :=
  { volu0 t (List.range (nf t)) k with
    surfind := (volu0 t (List.range (nf t)) k).surfind ++ if k ∈ p then [(lidOf t k : Int) + 1] else [] }

/-- The mesh after the closing of some cells. -/
def mesh3 (ending : List ℚ → List ℚ → List ℚ) (p : List Nat) : Mesh :=
  { mesh2 t pts ending (openL t) with
    edges := (List.range (ne t + (openL t).length)).map (edge3 t p)
    surfs := (List.range (nf t + p.length)).map (surf3 t)
    volus := (List.range (nc t)).map (volu3 t p) }

/-- The new edges. -/
def newL : List Nat := (List.range (openL t).length).map fun k => ne t + k

variable {t pts}

theorem newL_nodup : (newL t).Nodup := List.Nodup.map (fun a b e => by simpa using e) List.nodup_range

theorem link_lt {f : Nat} (hf : f ∈ openL t) : linkOf t f < ne t + (openL t).length := by
  have := List.idxOf_lt_length_of_mem hf
  unfold linkOf
  omega

theorem link_new {f : Nat} (hf : f ∈ openL t) : linkOf t f ∈ newL t := by
  have := List.idxOf_lt_length_of_mem hf
  simp only [newL, linkOf, List.mem_map, List.mem_range]
  exact ⟨_, this, rfl⟩

theorem new_skip {n : Int} : ∀ (l : List Nat), (∀ e ∈ l, e < ne t) → ∀ y, (up l).foldlM (m := Except Fault) (newStep (up (newL t)) n) y = .ok y
  | [], _, y => rfl
  | e :: l, hl, y => by
    have hstep : newStep (up (newL t)) n y ((e : Int) + 1) = .ok y := by
      unfold newStep
      have : e ∉ newL t := by
        have := hl e (by simp)
        simp only [newL, List.mem_map, List.mem_range, not_exists, not_and]
        intro x _
        omega
      rw [posOf_up newL_nodup, if_neg this, if_neg (by simp)]
    rw [show up (e :: l) = ((e : Int) + 1) :: up l from rfl, List.foldlM_cons, hstep]
    exact new_skip l (fun x hx => hl x (by simp [hx])) y

theorem part_ok (h : VoroValid t pts) {n : Int} {N : Nat} (hN : nf t ≤ N) {f : Nat} (hf : f ∈ openL t) (G : Nat → Edge) (acc : List Int) :
    partStep (up (openL t)) (up (newL t)) ((List.range N).map (surf3 t)) n ((List.range (ne t + (openL t).length)).map G, acc) (((openL t).idxOf f : Nat) : Int) =
      .ok ((List.range (ne t + (openL t).length)).map (fun k => if k = linkOf t f then { G k with surfind := (G k).surfind ++ [n] } else G k),
        acc ++ [(linkOf t f : Int) + 1]) := by
  have hff : f < nf t := (mem_openL.mp hf).1
  unfold partStep
  rw [vecGet_up hf]
  simp only [Except.bind]
  rw [elemAt_range (q := f) (by omega) (by omega)]
  simp only
  have he : (surf3 t f).edgeind = up (vEdges t f) ++ [(linkOf t f : Int) + 1] := by
    rw [surf3, if_pos hff]
    simp [surf2, surf0, hf, hff]
  rw [he, List.foldlM_append, new_skip _ fun e he => edges_bound h hff he]
  simp only [bind, Except.bind, List.foldlM_cons, List.foldlM_nil]
  have : newStep (up (newL t)) n (((List.range (ne t + (openL t).length)).map G, acc), 0) ((linkOf t f : Int) + 1) =
      .ok (((List.range (ne t + (openL t).length)).map (fun k => if k = linkOf t f then { G k with surfind := (G k).surfind ++ [n] } else G k),
        acc ++ [(linkOf t f : Int) + 1]), 1) := by
    unfold newStep
    rw [posOf_up newL_nodup, if_pos (link_new hf), if_pos (by omega), modAt_range (q := linkOf t f) (by omega) (link_lt hf)]
    rfl
  rw [this]
  rfl

theorem parts_ok (h : VoroValid t pts) {n : Int} {N : Nat} (hN : nf t ≤ N) : ∀ (l : List Nat), (∀ f ∈ l, f ∈ openL t) → ∀ (G : Nat → Edge) (acc : List Int),
    (l.map fun k => (((openL t).idxOf k : Nat) : Int)).foldlM (m := Except Fault) (partStep (up (openL t)) (up (newL t)) ((List.range N).map (surf3 t)) n)
      ((List.range (ne t + (openL t).length)).map G, acc) =
    .ok ((List.range (ne t + (openL t).length)).map (fun k => { G k with surfind := (G k).surfind ++ (l.filter fun r => linkOf t r = k).map fun _ => n }),
      acc ++ up (l.map (linkOf t)))
  | [], _, G, acc => by simp [pure, Except.pure, up]
  | f :: l, hl, G, acc => by
    rw [List.map_cons, List.foldlM_cons, part_ok h hN (hl f (by simp))]
    simp only [bind, Except.bind]
    rw [parts_ok h hN l (fun x hx => hl x (by simp [hx]))]
    congr 2
    · apply List.map_congr_left
      intro k _
      by_cases e : k = linkOf t f
      · subst e
        simp
      · have e' : ¬ linkOf t f = k := fun q => e q.symm
        simp [e, e']
    · simp [up]

theorem pair_faces {c : Nat} {p : List Nat} (hp : c ∉ p) :
    ((volu3 t p c).surfind.map fun e => posOf id (up (openL t)) e).filter (fun a => a ≠ -1) = (openOf t c).map fun k => (((openL t).idxOf k : Nat) : Int) := by
  have : (volu3 t p c).surfind = up ((List.range (nf t)).flatMap (sideOf t c)) := by simp [volu3, volu0, hp]
  rw [this, pair_up openL_nodup]
  rfl

theorem sides_ne (h : VoroValid t pts) {f : Nat} (hf : f < nf t) : vSide1 t f ≠ vSide2 t f := by
  have h1 := h.c1 f hf
  have h2 := h.c2 f hf
  have h3 := h.sides f hf
  unfold vSide1 vSide2
  obtain ⟨a1, a2⟩ := h1
  obtain ⟨b1, b2⟩ := h2
  omega

theorem openOf_nodup (h : VoroValid t pts) (c : Nat) : (openOf t c).Nodup := by
  apply List.Nodup.filter
  rw [List.nodup_flatMap]
  refine ⟨fun f hf => ?_, ?_⟩
  · have := sides_ne h (List.mem_range.mp hf)
    unfold sideOf
    split_ifs with h1 h2 <;> simp
    exact this (h1.trans h2.symm)
  · refine List.nodup_range.imp fun {a b} hab => ?_
    intro x hx hy
    have : ∀ f, x ∈ sideOf t c f → x = f := by
      intro f hx
      unfold sideOf at hx
      split_ifs at hx <;> simp at hx <;> exact hx
    exact hab ((this a hx).symm.trans (this b hy))

theorem mem_openOf {c f : Nat} : f ∈ openOf t c ↔ VOpen t f ∧ VSide t f c := by
  simp only [openOf, List.mem_filter, List.mem_flatMap, List.mem_range, decide_eq_true_eq, mem_openL, sideOf, VSide]
  constructor
  · rintro ⟨⟨g, hg, hx⟩, ho⟩
    refine ⟨ho, ?_⟩
    split_ifs at hx with h1 h2 h2 <;> simp at hx <;> subst hx
    · exact Or.inl h1.symm
    · exact Or.inl h1.symm
    · exact Or.inr h2.symm
  · rintro ⟨ho, hs⟩
    refine ⟨⟨f, ho.1, ?_⟩, ho⟩
    rcases hs with e | e <;> simp [← e]

theorem cell_ok (h : VoroValid t pts) (ending : List ℚ → List ℚ → List ℚ) {p q : List Nat} {b : Nat} (e : cellL t = p ++ b :: q)
    (h3 : 3 ≤ (openOf t b).length) : cellClose (up (openL t)) (up (newL t)) (mesh3 t pts ending p) ((b : Int) + 1) = .ok (mesh3 t pts ending (p ++ [b])) := by
  obtain ⟨i1, i2, i3⟩ := idx_at cellL_nodup e
  have hp := prefix_notMem cellL_nodup e
  have hb : b < nc t := (mem_cellL.mp i3).1
  have e1 : (mesh3 t pts ending p).volus = (List.range (nc t)).map (volu3 t p) := rfl
  have e2 : (mesh3 t pts ending p).surfs = (List.range (nf t + p.length)).map (surf3 t) := rfl
  have e3 : (mesh3 t pts ending p).edges = (List.range (ne t + (openL t).length)).map (edge3 t p) := rfl
  unfold cellClose
  rw [e1, elemAt_range (q := b) (by omega) hb]
  simp only [Except.bind]
  rw [pair_faces hp, List.length_map, if_neg (by omega), e2, e3]
  simp only [List.length_map, List.length_range]
  have hsub : ∀ f ∈ openOf t b, f ∈ openL t := fun f hf => by simpa using (List.mem_filter.mp hf).2
  rw [parts_ok h (N := nf t + p.length) (by omega) (openOf t b) hsub]
  simp only
  rw [modAt_range (q := b) (by omega) hb]
  simp only [Except.map, mesh3, List.nil_append]
  have e4 : (p ++ [b]).length = p.length + 1 := by simp
  rw [e4, ← Nat.add_assoc, List.range_succ (n := nf t + p.length), List.map_append]
  have hl : ((nf t + p.length : Nat) : Int) + 1 = (lidOf t b : Int) + 1 := by simp [lidOf, i1]
  congr 2
  · apply List.map_congr_left
    intro k hk
    have hk := List.mem_range.mp hk
    have hfil : ((openOf t b).filter fun r => linkOf t r = k).map (fun _ => ((nf t + p.length : Nat) : Int) + 1) =
        up (([b].filter (linkIn t k)).map (lidOf t)) := by
      rw [hl]
      have := filter_idx openL_nodup (openOf_nodup h b) hsub hk
      unfold linkOf
      rw [this]
      by_cases hc : ne t ≤ k ∧ (openL t).getD (k - ne t) 0 ∈ openOf t b
      · have ht : linkIn t k b = true := decide_eq_true hc
        rw [if_pos hc, List.filter_cons, if_pos ht]
        rfl
      · have ht : ¬ linkIn t k b = true := fun q => hc (of_decide_eq_true q)
        rw [if_neg hc, List.filter_cons, if_neg ht]
        rfl
    rw [hfil]
    simp [edge3, List.filter_append, up]
  · congr 1
    simp only [List.map_cons, List.map_nil, List.cons.injEq, and_true]
    conv_rhs => rw [surf3, if_neg (by omega), show nf t + p.length - nf t = p.length by omega, i2]
  · apply List.map_congr_left
    intro k _
    by_cases e5 : k = b
    · subst e5
      rw [if_pos rfl, hl]
      simp [volu3, hp]
    · rw [if_neg e5]
      simp [volu3, e5]

theorem mesh2_mesh3 (ending : List ℚ → List ℚ → List ℚ) : mesh2 t pts ending (openL t) = mesh3 t pts ending [] := by
  unfold mesh3
  have a1 : (List.range (ne t + (openL t).length)).map (edge3 t []) = (List.range (ne t + (openL t).length)).map (edge2 t) := by
    apply List.map_congr_left
    intro k _
    simp [edge3, up]
  have a2 : (List.range (nf t + ([] : List Nat).length)).map (surf3 t) = (List.range (nf t)).map (surf2 t (openL t)) := by
    apply List.map_congr_left
    intro k hk
    rw [surf3, if_pos (by simpa using hk)]
  have a3 : (List.range (nc t)).map (volu3 t []) = (List.range (nc t)).map (volu0 t (List.range (nf t))) := by
    apply List.map_congr_left
    intro k _
    simp [volu3]
  rw [a1, a2, a3]
  rfl

theorem cells_prefix (h : VoroValid t pts) (ending : List ℚ → List ℚ → List ℚ) {p q : List Nat} (e : cellL t = p ++ q) (h3 : ∀ c ∈ p, 3 ≤ (openOf t c).length) :
    (up p).foldlM (m := Except Fault) (cellClose (up (openL t)) (up (newL t))) (mesh2 t pts ending (openL t)) = .ok (mesh3 t pts ending p) := by
  rw [mesh2_mesh3, up, List.foldlM_map]
  refine foldlM_state _ (fun p => mesh3 t pts ending p) p [] fun p' b q' e' => ?_
  rw [List.nil_append] at e'
  exact cell_ok h ending (q := q' ++ q) (by rw [e, e']; simp) (h3 b (by rw [e']; simp))

theorem cell_bad (ending : List ℚ → List ℚ → List ℚ) {p q : List Nat} {b : Nat} (e : cellL t = p ++ b :: q)
    (h3 : (openOf t b).length < 3) : cellClose (up (openL t)) (up (newL t)) (mesh3 t pts ending p) ((b : Int) + 1) = .error .throws := by
  have i3 : b ∈ cellL t := by rw [e]; simp
  have hp := prefix_notMem cellL_nodup e
  have hb : b < nc t := (mem_cellL.mp i3).1
  have e1 : (mesh3 t pts ending p).volus = (List.range (nc t)).map (volu3 t p) := rfl
  unfold cellClose
  rw [e1, elemAt_range (q := b) (by omega) hb]
  simp only [Except.bind]
  rw [pair_faces hp, List.length_map, if_pos h3]

theorem open_cells (h : VoroValid t pts) : sortUnique ((openL t).flatMap fun k => (surf2 t (openL t) k).voluind) = up (cellL t) := by
  apply sortUnique_up cellL_sorted
  intro x
  simp only [List.mem_flatMap, up, List.mem_map]
  constructor
  · rintro ⟨f, hf, hx⟩
    have ho := mem_openL.mp hf
    have hff : f < nf t := ho.1
    simp only [surf2, surf0, List.mem_range, hff, if_true, up, List.map_cons, List.map_nil, List.mem_cons, List.not_mem_nil, or_false] at hx
    rcases hx with rfl | rfl
    · exact ⟨_, mem_cellL.mpr ⟨(dec_eq h (h.c1 f hff)).2.2, f, ho, Or.inl rfl⟩, rfl⟩
    · exact ⟨_, mem_cellL.mpr ⟨(dec_eq h (h.c2 f hff)).2.2, f, ho, Or.inr rfl⟩, rfl⟩
  · rintro ⟨c, hc, rfl⟩
    obtain ⟨-, f, ho, hs⟩ := mem_cellL.mp hc
    have hff : f < nf t := ho.1
    refine ⟨f, mem_openL.mpr ho, ?_⟩
    simp only [surf2, surf0, List.mem_range, hff, if_true, up, List.map_cons, List.map_nil, List.mem_cons, List.not_mem_nil, or_false]
    rcases hs with rfl | rfl <;> simp

/-- The whole, as far as the closing of the facets. -/
theorem voro_start (h : VoroValid t pts) (ending : List ℚ → List ℚ → List ℚ) : voroMesh t ending =
    ((up (openL t)).foldlM (m := Except Fault) (faceClose (up (rayL t))) (mesh1 t pts ending (rayL t))).bind fun m =>
      let news := (m.edges.drop (ne t)).map Edge.index
      (concatField m.surfs Surf.voluind (posList Surf.index m.surfs (up (openL t)))).bind fun l =>
      (sortUnique l).foldlM (m := Except Fault) (cellClose (up (openL t)) news) m := by
  unfold voroMesh
  rw [h.pts.1]
  simp only
  rw [start_ok h]
  simp only [Except.bind]
  rw [edges_loop h]
  simp only
  rw [facets_loop h]
  simp only
  unfold closeVoronoi
  rw [rays_loop h]
  simp only [Except.bind]
  have e1 : (mesh1 t pts ending (rayL t)).edges = (List.range (ne t)).map (edge1 t (rayL t)) := rfl
  have hi : ∀ k, (edge1 t (rayL t) k).index = (k : Int) + 1 := by
    intro k
    unfold edge1
    split_ifs <;> rfl
  rw [e1, concat_range hi Edge.surfind fun k hk => (mem_rayL.mp hk).1]
  simp only
  rw [open_faces h]
  simp only [List.length_map, List.length_range]

theorem mid_ok (h : VoroValid t pts) (ending : List ℚ → List ℚ → List ℚ) : 
    ((mesh2 t pts ending (openL t)).edges.drop (ne t)).map Edge.index = up (newL t) ∧
    (concatField (mesh2 t pts ending (openL t)).surfs Surf.voluind (posList Surf.index (mesh2 t pts ending (openL t)).surfs (up (openL t)))).bind
      (fun l => Except.ok (sortUnique l)) = .ok (up (cellL t)) := by
  constructor
  · show ((List.map (edge2 t) (List.range (ne t + (openL t).length))).drop (ne t)).map Edge.index = _
    rw [List.range_add, List.map_append, List.drop_append_of_le_length (by simp), List.drop_of_length_le (by simp), List.nil_append, List.map_map, newL, up,
      List.map_map, List.map_map]
    apply List.map_congr_left
    intro k _
    simp [edge2]
  · have e1 : (mesh2 t pts ending (openL t)).surfs = (List.range (nf t)).map (surf2 t (openL t)) := rfl
    rw [e1, concat_range (ix := Surf.index) (g := surf2 t (openL t)) (fun k => rfl) Surf.voluind fun k hk => (mem_openL.mp hk).1]
    simp only [Except.bind]
    rw [open_cells h]

theorem voro_end (h : VoroValid t pts) (ending : List ℚ → List ℚ → List ℚ) (h2 : ∀ f ∈ openL t, (raysOf t f).length = 2) : voroMesh t ending =
    (up (cellL t)).foldlM (m := Except Fault) (cellClose (up (openL t)) (up (newL t))) (mesh2 t pts ending (openL t)) := by
  rw [voro_start h, faces_prefix h ending (q := []) (by simp) h2]
  simp only [Except.bind]
  obtain ⟨m1, m2⟩ := mid_ok h ending
  rw [m1]
  revert m2
  cases concatField (mesh2 t pts ending (openL t)).surfs Surf.voluind (posList Surf.index (mesh2 t pts ending (openL t)).surfs (up (openL t))) with
  | error e => intro q; cases q
  | ok l =>
    intro q
    simp only [Except.bind, Except.ok.injEq] at q
    simp only
    rw [q]

/-- The closed mesh. -/
theorem voro_ok (h : VoroValid t pts) (ending : List ℚ → List ℚ → List ℚ) (h2 : ∀ f ∈ openL t, (raysOf t f).length = 2)
    (h3 : ∀ c ∈ cellL t, 3 ≤ (openOf t c).length) : voroMesh t ending = .ok (mesh3 t pts ending (cellL t)) := by
  rw [voro_end h ending h2, cells_prefix h ending (q := []) (by simp) h3]

end RSVS.Voronoi
