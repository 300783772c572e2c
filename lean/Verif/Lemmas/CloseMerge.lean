import Verif.Lemmas.Close
import Verif.Lemmas.SnakeJoin
import Verif.Lemmas.Spawn
import Verif.Lemmas.Hash
import Verif.Spec.SnakeJoin

/-!
# Lemmas on groups of close vertices: the mesh

The graph of the short edges of a mesh, and the merging of groups.
-/

namespace RSVS

open Spec Mesh

section
variable {m : Mesh}

theorem edge_pair (hm : Sound m) (h2 : TwoVerts m) {e : Int} (he : HasEdge m e) :
    ∃ ed ∈ m.edges, ∃ a b, ed.index = e ∧ ed.vertind = [a, b] ∧ isearch Edge.index m.edges e = .ok ed ∧
      edgeEnds m e = .ok (a, b) ∧ HasVert m a ∧ HasVert m b := by
  obtain ⟨ed, h3, h4, h5⟩ := Spawn.isearch_ok (ix := Edge.index) he
  match hv : ed.vertind, h2 ed h4 with
  | [a, b], _ =>
    have hin : ∀ x ∈ ed.vertind, HasVert m x := fun x hx => by
      have h6 : EdgeVert m e x := ⟨ed, h4, h5, hx⟩
      exact hm.noDangling.edgeVert e x h6 (fun h => hm.zeroOutside.edgeVert e (h ▸ h6))
    refine ⟨ed, h4, a, b, h5, hv, h3, ?_, hin a (by simp [hv]), hin b (by simp [hv])⟩
    unfold edgeEnds
    rw [h3]
    simp only [Except.bind, hv]
    rfl

/-- The square of the distance of two vertices. -/
def gap2 (x y : Vert) : ℚ :=
  (x.coord.getD 0 0 - y.coord.getD 0 0) ^ 2 + (x.coord.getD 1 0 - y.coord.getD 1 0) ^ 2 +
    (x.coord.getD 2 0 - y.coord.getD 2 0) ^ 2

theorem edgeShort_ok (hs : InSpace m) {tol2 : ℚ} {e a b : Int} (he : edgeEnds m e = .ok (a, b)) (ha : HasVert m a)
    (hb : HasVert m b) : ∃ x ∈ m.verts, ∃ y ∈ m.verts, x.index = a ∧ y.index = b ∧
      edgeShort m tol2 e = .ok (decide (gap2 x y < tol2)) := by
  obtain ⟨x, h1, h2, h3⟩ := Spawn.isearch_ok (ix := Vert.index) ha
  obtain ⟨y, h4, h5, h6⟩ := Spawn.isearch_ok (ix := Vert.index) hb
  refine ⟨x, h2, y, h5, h3, h6, ?_⟩
  unfold edgeShort gap2
  rw [he]
  simp only [Except.bind, h1, h4]
  match hx : x.coord, hs x h2 with
  | [p, q, r], _ =>
    match hy : y.coord, hs y h5 with
    | [p', q', r'], _ =>
      simp [squareAt, vecGet, Except.bind, Except.map]

theorem near_iff (hm : Sound m) {tol : ℚ} {x y : Vert} (hx : x ∈ m.verts) (hy : y ∈ m.verts) :
    Near m tol x.index y.index ↔ gap2 x y < tol * tol := by
  constructor
  · rintro ⟨x', h1, y', h2, h3, h4, h5⟩
    rw [inj_of_nodup hm.unique.verts h1 hx h3, inj_of_nodup hm.unique.verts h2 hy h4] at h5
    rw [← pow_two]; exact h5
  · intro h
    exact ⟨x, hx, y, hy, rfl, rfl, by rw [pow_two tol]; exact h⟩

theorem near_symm {tol : ℚ} {a b : Int} (h : Near m tol a b) : Near m tol b a := by
  obtain ⟨x, h1, y, h2, h3, h4, h5⟩ := h
  refine ⟨y, h2, x, h1, h4, h3, ?_⟩
  rw [sub_sq_comm, sub_sq_comm (y.coord.getD 1 0), sub_sq_comm (y.coord.getD 2 0)]
  exact h5

/-- The lists of edges, by position. -/
def incOf (m : Mesh) (p : Nat) : List Int := (m.verts[p]?.map Vert.edgeind).getD []

/-- The positions of the ends of an edge. -/
def endsOf (m : Mesh) (e : Int) : Nat × Nat :=
  match edgeEnds m e with
  | .ok ab => ((posOf Vert.index m.verts ab.1).toNat, (posOf Vert.index m.verts ab.2).toNat)
  | .error _ => (0, 0)

def shortOf (m : Mesh) (tol2 : ℚ) (e : Int) : Bool :=
  match edgeShort m tol2 e with
  | .ok b => b
  | .error _ => false

/-- What is known of an edge that a vertex lists. -/
theorem inc_edge (hm : Sound m) (h2 : TwoVerts m) (hs : InSpace m) (tol : ℚ) {p : Nat} {x : Vert} (hp : m.verts[p]? = some x)
    {e : Int} (he : e ∈ x.edgeind) :
    ∃ (ed : Edge) (q r : Nat) (y z : Vert), ed ∈ m.edges ∧ ed.index = e ∧ ed.vertind = [y.index, z.index] ∧
      m.verts[q]? = some y ∧ m.verts[r]? = some z ∧ endsOf m e = (q, r) ∧ (p = q ∨ p = r) ∧
      edgeEnds m e = .ok (y.index, z.index) ∧ posOf Vert.index m.verts y.index = q ∧ posOf Vert.index m.verts z.index = r ∧
      edgeShort m (tol * tol) e = .ok (shortOf m (tol * tol) e) ∧
      (shortOf m (tol * tol) e = true ↔ Near m tol y.index z.index) ∧ e ∈ y.edgeind ∧ e ∈ z.edgeind := by
  have hxm := List.mem_of_getElem? hp
  have hve : VertEdge m x.index e := ⟨x, hxm, rfl, he⟩
  have hhe : HasEdge m e := hm.noDangling.vertEdge _ _ hve (fun h => hm.zeroOutside.vertEdge x.index (h ▸ hve))
  obtain ⟨ed, k1, a, b, k2, k3, k4, k5, k6, k7⟩ := edge_pair hm h2 hhe
  obtain ⟨q, q1, q2, q3⟩ := posOf_mem (ix := Vert.index) k6
  obtain ⟨r, r1, r2, r3⟩ := posOf_mem (ix := Vert.index) k7
  obtain ⟨y, y1, z, z1, y2, z2, hsh⟩ := edgeShort_ok hs (tol2 := tol * tol) k5 k6 k7
  have hy : m.verts[q] = y := inj_of_nodup hm.unique.verts (List.getElem_mem q2) y1 (q3.trans y2.symm)
  have hz : m.verts[r] = z := inj_of_nodup hm.unique.verts (List.getElem_mem r2) z1 (r3.trans z2.symm)
  subst y2 z2
  have hsh' : shortOf m (tol * tol) e = decide (gap2 y z < tol * tol) := by unfold shortOf; rw [hsh]
  have hmem : ∀ w ∈ m.verts, w.index ∈ ed.vertind → e ∈ w.edgeind := by
    intro w hw hwe
    obtain ⟨w', h8, h9, h10⟩ := (hm.sym.vertEdge w.index e ⟨w, hw, rfl⟩ hhe).mpr ⟨ed, k1, k2, hwe⟩
    rw [inj_of_nodup hm.unique.verts h8 hw h9] at h10
    exact h10
  refine ⟨ed, q, r, y, z, k1, k2, k3, by rw [List.getElem?_eq_getElem q2, hy], by rw [List.getElem?_eq_getElem r2, hz],
    ?_, ?_, k5, q1, r1, by rw [hsh, hsh'], ?_, hmem y y1 (by simp [k3]), hmem z z1 (by simp [k3])⟩
  · unfold endsOf; rw [k5]; simp [q1, r1]
  · obtain ⟨ed', h8, h9, h10⟩ := (hm.sym.vertEdge x.index e ⟨x, hxm, rfl⟩ hhe).mp hve
    rw [inj_of_nodup hm.unique.edges h8 k1 (h9.trans k2.symm), k3] at h10
    obtain ⟨hpl, hpx⟩ := List.getElem?_eq_some_iff.mp hp
    have hpp : posOf Vert.index m.verts x.index = p := by
      rw [← hpx]; exact RSVS.Mesh.posOf_getElem hm.unique.verts p hpl
    simp only [List.mem_cons, List.not_mem_nil, or_false] at h10
    rcases h10 with h | h
    · left; rw [h] at hpp; omega
    · right; rw [h] at hpp; omega
  · rw [hsh', decide_eq_true_iff, near_iff hm y1 z1]

theorem incOf_eq {p : Nat} {x : Vert} (h : m.verts[p]? = some x) : incOf m p = x.edgeind := by simp [incOf, h]

theorem shortGraph (hm : Sound m) (h2 : TwoVerts m) (hs : InSpace m) (tol : ℚ) :
    ShortGraph m (tol * tol) (incOf m) (endsOf m) (shortOf m (tol * tol)) := by
  have get : ∀ p, p < m.verts.length → ∃ x, m.verts[p]? = some x := fun p hp => ⟨_, List.getElem?_eq_getElem hp⟩
  refine ⟨?_, ?_, ?_, ?_, ?_⟩
  · intro p hp
    obtain ⟨x, hx⟩ := get p hp
    obtain ⟨h1, h3⟩ := List.getElem?_eq_some_iff.mp hx
    exact ⟨x, by rw [elemAt_nat _ _ hp, h3], (incOf_eq hx).symm⟩
  all_goals
    intro p hp e he
    obtain ⟨x, hx⟩ := get p hp
    rw [incOf_eq hx] at he
    obtain ⟨ed, q, r, y, z, -, -, -, k4, k5, k6, k7, k8, k9, k10, k11, -, k13, k14⟩ := inc_edge hm h2 hs tol hx he
    obtain ⟨hq, -⟩ := List.getElem?_eq_some_iff.mp k4
    obtain ⟨hr, -⟩ := List.getElem?_eq_some_iff.mp k5
    simp only [k6]
  · exact ⟨k11, _, k8, k9, k10⟩
  · exact ⟨hq, hr⟩
  · exact k7
  · rw [incOf_eq k4, incOf_eq k5]; exact ⟨k13, k14⟩

/-- A step of the graph is a short edge. -/
theorem adj_join (hm : Sound m) (h2 : TwoVerts m) (hs : InSpace m) {tol : ℚ} {p q : Nat} {x y : Vert}
    (hx : m.verts[p]? = some x) (hy : m.verts[q]? = some y)
    (h : Adj (incOf m) (endsOf m) (shortOf m (tol * tol)) p q) : p = q ∨ ShortJoin m tol x.index y.index := by
  obtain ⟨e, h1, h3, h4⟩ := h
  rw [incOf_eq hx] at h1
  obtain ⟨ed, q', r, y', z, k1, -, k3, k4, k5, k6, k7, -, -, -, -, k12, -, -⟩ := inc_edge hm h2 hs tol hx h1
  rw [k6] at h4
  have hn := k12.mp h3
  rcases k7 with rfl | rfl <;> rcases h4 with rfl | rfl
  · exact .inl rfl
  · rw [k4] at hx; rw [k5] at hy; cases hx; cases hy
    exact .inr ⟨⟨ed, k1, .inl k3⟩, hn⟩
  · rw [k5] at hx; rw [k4] at hy; cases hx; cases hy
    exact .inr ⟨⟨ed, k1, .inr k3⟩, near_symm hn⟩
  · exact .inl rfl

theorem join_adj (hm : Sound m) (h2 : TwoVerts m) (hs : InSpace m) {tol : ℚ} {p : Nat} {x : Vert} {b : Int}
    (hx : m.verts[p]? = some x) (h : ShortJoin m tol x.index b) :
    ∃ (q : Nat) (y : Vert), m.verts[q]? = some y ∧ y.index = b ∧ Adj (incOf m) (endsOf m) (shortOf m (tol * tol)) p q ∧
      ∃ e ∈ incOf m p, shortOf m (tol * tol) e = true := by
  obtain ⟨⟨ed, h1, h3⟩, h4⟩ := h
  have hxe : x.index ∈ ed.vertind := by rcases h3 with h3 | h3 <;> simp [h3]
  have hxm := List.mem_of_getElem? hx
  obtain ⟨w, h8, h9, h10⟩ := (hm.sym.vertEdge x.index ed.index ⟨x, hxm, rfl⟩ ⟨ed, h1, rfl⟩).mpr ⟨ed, h1, rfl, hxe⟩
  rw [inj_of_nodup hm.unique.verts h8 hxm h9] at h10
  obtain ⟨ed', q, r, y, z, k1, k2, k3, k4, k5, k6, k7, -, -, -, -, k12, -, -⟩ := inc_edge hm h2 hs tol hx h10
  rw [inj_of_nodup hm.unique.edges k1 h1 k2] at k3
  rw [k3] at h3
  have hin : ed.index ∈ incOf m p := by rw [incOf_eq hx]; exact h10
  rcases h3 with h3 | h3
  · have e1 : y.index = x.index := by simpa using (List.cons.inj h3).1
    have e2 : z.index = b := by simpa using (List.cons.inj (List.cons.inj h3).2).1
    have hsh : shortOf m (tol * tol) ed.index = true := k12.mpr (by rw [e1, e2]; exact h4)
    exact ⟨r, z, k5, e2, ⟨ed.index, hin, hsh, .inr (by rw [k6])⟩, ed.index, hin, hsh⟩
  · have e1 : y.index = b := by simpa using (List.cons.inj h3).1
    have e2 : z.index = x.index := by simpa using (List.cons.inj (List.cons.inj h3).2).1
    have hsh : shortOf m (tol * tol) ed.index = true := k12.mpr (by rw [e1, e2]; exact near_symm h4)
    exact ⟨q, y, k4, e1, ⟨ed.index, hin, hsh, .inl (by rw [k6])⟩, ed.index, hin, hsh⟩

theorem pos_unique (hm : Sound m) {p q : Nat} {x y : Vert} (hx : m.verts[p]? = some x) (hy : m.verts[q]? = some y)
    (h : x.index = y.index) : p = q := by
  obtain ⟨h1, h2⟩ := List.getElem?_eq_some_iff.mp hx
  obtain ⟨h3, h4⟩ := List.getElem?_eq_some_iff.mp hy
  have e1 := RSVS.Mesh.posOf_getElem hm.unique.verts p h1
  have e2 := RSVS.Mesh.posOf_getElem hm.unique.verts q h3
  rw [h2, h, ← h4, e2] at e1
  omega

theorem path_iff (hm : Sound m) (h2 : TwoVerts m) (hs : InSpace m) {tol : ℚ} {p q : Nat} {x y : Vert}
    (hx : m.verts[p]? = some x) (hy : m.verts[q]? = some y) :
    Relation.ReflTransGen (Adj (incOf m) (endsOf m) (shortOf m (tol * tol))) p q ↔ ShortPath m tol x.index y.index := by
  have G := shortGraph hm h2 hs tol
  constructor
  · intro h
    have hp : p < m.verts.length := (List.getElem?_eq_some_iff.mp hx).1
    induction h generalizing y with
    | refl => rw [hx] at hy; cases hy; exact .refl
    | @tail b c hb hc ih =>
      obtain ⟨-, hbl⟩ := reach_symm G hp hb
      have hz := List.getElem?_eq_getElem hbl
      rcases adj_join hm h2 hs hz hy hc with rfl | h3
      · rw [hz] at hy; cases hy; exact ih hz
      · exact (ih hz).tail h3
  · intro h
    have key : ∀ b, ShortPath m tol x.index b → ∃ (q : Nat) (y : Vert), m.verts[q]? = some y ∧ y.index = b ∧
        Relation.ReflTransGen (Adj (incOf m) (endsOf m) (shortOf m (tol * tol))) p q := by
      intro b hb
      induction hb with
      | refl => exact ⟨p, x, hx, rfl, .refl⟩
      | tail _ hc ih =>
        obtain ⟨q, y, h3, rfl, h5⟩ := ih
        obtain ⟨r, z, h6, h7, h8, -⟩ := join_adj hm h2 hs h3 hc
        exact ⟨r, z, h6, h7, h5.tail h8⟩
    obtain ⟨r, z, h3, h4, h5⟩ := key _ h
    rw [pos_unique hm hy h3 h4.symm]
    exact h5

/-- `GroupCloseVertices` numbers the groups. -/
theorem groupCloseVertices_ok (hm : Sound m) (h2 : TwoVerts m) (hs : InSpace m) (tol : ℚ) :
    ∃ lab, groupCloseVertices m tol = .ok lab ∧ GroupNumbers m tol lab := by
  have G := shortGraph hm h2 hs tol
  have inv0 : GroupInv m.verts.length (incOf m) (endsOf m) (shortOf m (tol * tol)) (List.replicate m.verts.length false)
      (List.replicate m.verts.length (-1)) 1 := by
    have hno : ∀ p : Nat, ¬ (List.replicate m.verts.length false)[p]? = some true := by
      intro p hp; simp [List.getElem?_replicate] at hp
    refine ⟨by simp, by simp, le_refl _, fun p q h => absurd h (hno p), ?_, fun p h => absurd h (hno p), ?_,
      fun p q l k h => absurd h (hno p)⟩
    · intro p hp; simp [List.getElem?_replicate] at hp ⊢; exact hp
    · intro p l hl; simp [List.getElem?_replicate] at hl; exact .inl hl.2.symm
  obtain ⟨D, lab, g, h3, h4, h5, -⟩ := groupLoop_ok G (List.range m.verts.length) inv0 (by simp)
  refine ⟨lab, by unfold groupCloseVertices; rw [h3]; rfl, h4.lenV, ?_, ?_, ?_⟩
  · intro i x l hx hl
    have hi : i < m.verts.length := (List.getElem?_eq_some_iff.mp hx).1
    have := h4.alone i (h5 i (by simpa using hi))
    rw [hl, Option.some_inj] at this
    rw [this]
    constructor
    · intro h b hb
      obtain ⟨-, -, -, -, -, e, h6, h7⟩ := join_adj hm h2 hs hx hb
      rw [h e h6] at h7; cases h7
    · intro h e he
      cases hsh : shortOf m (tol * tol) e with
      | false => rfl
      | true =>
        exfalso
        rw [incOf_eq hx] at he
        obtain ⟨ed, q, r, y, z, k1, -, k3, k4, k5, -, k7, -, -, -, -, k12, -, -⟩ := inc_edge hm h2 hs tol hx he
        have hn := k12.mp hsh
        rcases k7 with rfl | rfl
        · rw [k4] at hx; cases hx; exact h _ ⟨⟨ed, k1, .inl k3⟩, hn⟩
        · rw [k5] at hx; cases hx; exact h _ ⟨⟨ed, k1, .inr k3⟩, near_symm hn⟩
  · intro i l hl
    rcases h4.num i l hl with h | h
    · exact .inl h
    · exact .inr h.1
  · intro i j x y l k hx hy hl hk hne
    have hi : i < m.verts.length := (List.getElem?_eq_some_iff.mp hx).1
    have hj : j < m.verts.length := (List.getElem?_eq_some_iff.mp hy).1
    rw [← path_iff hm h2 hs hx hy]
    exact h4.same i j l k (h5 i (by simpa using hi)) (h5 j (by simpa using hj)) hl hk hne

/-! ### Merging -/

/-- All pairs of vertices. -/
def allPairs (m : Mesh) : Impacts := (m.verts.map Vert.index) ×ˢ (m.verts.map Vert.index)

theorem mem_allPairs {i j : Nat} {x y : Vert} (hx : m.verts[i]? = some x) (hy : m.verts[j]? = some y) :
    (x.index, y.index) ∈ allPairs m := by
  unfold allPairs
  rw [List.mem_product]
  exact ⟨List.mem_map.mpr ⟨x, List.mem_of_getElem? hx, rfl⟩, List.mem_map.mpr ⟨y, List.mem_of_getElem? hy, rfl⟩⟩

theorem elemAt_conn {conn : Mesh} (h : conn.verts.map Vert.index = m.verts.map Vert.index) {j : Nat} {x : Vert}
    (hx : m.verts[j]? = some x) : ∃ w, elemAt conn.verts (j : Int) = .ok w ∧ w.index = x.index := by
  obtain ⟨h1, h2⟩ := List.getElem?_eq_some_iff.mp hx
  have hl : conn.verts.length = m.verts.length := by simpa using congrArg List.length h
  refine ⟨conn.verts[j], elemAt_nat _ _ (by omega), ?_⟩
  have : (conn.verts.map Vert.index)[j]? = (m.verts.map Vert.index)[j]? := by rw [h]
  rw [List.getElem?_map, List.getElem?_map, hx, List.getElem?_eq_getElem (by omega)] at this
  simpa using this

/-- The vertices at some positions. -/
def AtSome (m : Mesh) (l : List Nat) (a : Int) : Prop := ∃ j ∈ l, ∃ x, m.verts[j]? = some x ∧ x.index = a

theorem mergeGroup_fold (hm : Sound m) {f : Nat} {xf : Vert} (hf : m.verts[f]? = some xf) :
    ∀ (rest : List Nat) (s : MergeState) (into : Int → Int), MergeInv (allPairs m) m s into → rest.Nodup →
    (∀ j ∈ rest, ∃ x, m.verts[j]? = some x ∧ j ≠ f ∧ x.index ∉ s.stop ∧ x.index ∉ s.remove) → xf.index ∉ s.remove →
    ∃ s' into', rest.foldlM (m := Except Fault) (mergeGroup f) (s.conn, s.remove) = .ok (s'.conn, s'.remove) ∧
      MergeInv (allPairs m) m s' into' ∧ (∀ a, a ∈ s'.stop → a ∈ s.stop ∨ a = xf.index) ∧
      (∀ a, a ∈ s'.remove ↔ a ∈ s.remove ∨ AtSome m rest a) ∧
      (∀ a, AtSome m rest a → into' a = xf.index) ∧ (∀ a, ¬ AtSome m rest a → into' a = into a)
  | [], s, into, h, _, _, _ =>
    ⟨s, into, rfl, h, fun _ h => .inl h, by simp [AtSome], by simp [AtSome], fun _ _ => rfl⟩
  | j :: rest, s, into, h, hnd, hr, hfr => by
    obtain ⟨x, hx, hjf, h1, h3⟩ := hr j (by simp)
    obtain ⟨wj, e1, e2⟩ := elemAt_conn h.verts hx
    obtain ⟨wf, e3, e4⟩ := elemAt_conn h.verts hf
    have hne : x.index ≠ xf.index := fun hc => hjf (pos_unique hm hx hf hc)
    obtain ⟨conn, e5, e6⟩ := merge_step h hne ⟨x, List.mem_of_getElem? hx, rfl⟩ ⟨xf, List.mem_of_getElem? hf, rfl⟩
      (mem_allPairs hx hf) h1 hfr
    rw [if_neg h3] at e6
    have hnd' := List.nodup_cons.mp hnd
    obtain ⟨s', into', k1, k2, k3, k4, k5, k6⟩ := mergeGroup_fold hm hf rest _ _ e6 hnd'.2 (by
      intro k hk
      obtain ⟨y, hy, hkf, h5, h6⟩ := hr k (by simp [hk])
      refine ⟨y, hy, hkf, ?_, ?_⟩
      · simp only [List.mem_append, List.mem_singleton, not_or]
        exact ⟨h5, fun hc => hkf (pos_unique hm hy hf hc)⟩
      · simp only [List.mem_append, List.mem_singleton, not_or]
        refine ⟨h6, fun hc => ?_⟩
        rw [pos_unique hm hy hx hc] at hk
        exact hnd'.1 hk) (by
      simp only [List.mem_append, List.mem_singleton, not_or]
      exact ⟨hfr, fun hc => hne hc.symm⟩)
    have hat : ∀ a, AtSome m (j :: rest) a ↔ a = x.index ∨ AtSome m rest a := by
      intro a
      simp only [AtSome, List.mem_cons]
      constructor
      · rintro ⟨k, rfl | hk, y, hy, hya⟩
        · rw [hx] at hy; cases hy; exact .inl hya.symm
        · exact .inr ⟨k, hk, y, hy, hya⟩
      · rintro (rfl | ⟨k, hk, y, hy, hya⟩)
        · exact ⟨j, .inl rfl, x, hx, rfl⟩
        · exact ⟨k, .inr hk, y, hy, hya⟩
    refine ⟨s', into', ?_, k2, ?_, ?_, ?_, ?_⟩
    · rw [List.foldlM_cons]
      have : mergeGroup f (s.conn, s.remove) j = .ok (conn, s.remove ++ [x.index]) := by
        unfold mergeGroup
        simp only [e1, e3, Except.bind, e2, e4, e5, Except.map]
      rw [this]
      exact k1
    · intro a ha
      rcases k3 a ha with h5 | h5
      · simp only [List.mem_append, List.mem_singleton] at h5
        exact h5
      · exact .inr h5
    · intro a
      rw [k4, hat]
      simp only [List.mem_append, List.mem_singleton]
      tauto
    · intro a ha
      by_cases hc : AtSome m rest a
      · exact k5 a hc
      · rw [k6 a hc]
        rcases (hat a).mp ha with rfl | h5
        · simp
        · exact absurd h5 hc
    · intro a ha
      rw [hat, not_or] at ha
      rw [k6 a ha.2]
      simp [ha.1]

/-- What holds between the turns of the loop over the groups. -/
structure TurnInv (m : Mesh) (lab : List Int) (s : MergeState) (into : Int → Int) (D : List Bool) : Prop where
  inv : MergeInv (allPairs m) m s into
  len : D.length = lab.length
  undone : ∀ (j : Nat) (x : Vert), D[j]? = some false → m.verts[j]? = some x → x.index ∉ s.stop ∧ x.index ∉ s.remove
  none : ∀ (j : Nat) (x : Vert), lab[j]? = some (-1) → m.verts[j]? = some x → x.index ∉ s.stop ∧ x.index ∉ s.remove
  together : ∀ (j k : Nat) (l : Int), lab[j]? = some l → lab[k]? = some l → l ≠ -1 → D[j]? = some true → D[k]? = some true
  merged : ∀ (j k : Nat) (x y : Vert) (l : Int), m.verts[j]? = some x → m.verts[k]? = some y → lab[j]? = some l →
    lab[k]? = some l → l ≠ -1 → D[j]? = some true → into x.index = into y.index
  member : ∀ (j : Nat) (x : Vert) (l : Int), m.verts[j]? = some x → lab[j]? = some l → l ≠ -1 → D[j]? = some true →
    ∃ (k : Nat) (y : Vert), m.verts[k]? = some y ∧ lab[k]? = some l ∧ into x.index = y.index

theorem setAll_get (rest : List Nat) : ∀ (D : List Bool), (rest.foldl (fun d j => d.set j true) D).length = D.length ∧
    ∀ p : Nat, (rest.foldl (fun d j => d.set j true) D)[p]? = if p ∈ rest ∧ p < D.length then some true else D[p]? := by
  induction rest with
  | nil => intro D; simp
  | cons j rest ih =>
    intro D
    obtain ⟨h1, h2⟩ := ih (D.set j true)
    refine ⟨by rw [List.foldl_cons, h1]; simp, fun p => ?_⟩
    rw [List.foldl_cons, h2]
    by_cases hp : p ∈ rest
    · by_cases hl : p < D.length
      · simp [hp, hl]
      · simp [hp, hl]
    · by_cases hj : p = j
      · subst hj
        by_cases hl : p < D.length
        · simp [hp, hl]
        · simp [hp, hl]
      · rw [List.getElem?_set_ne (by omega)]
        simp [hp, hj]

theorem mergeTurn_ok (hm : Sound m) {lab : List Int} (hlen : lab.length = m.verts.length) {all : Int → List Nat}
    (hall : ∀ l, (all l).Nodup ∧ ∀ p : Nat, p ∈ all l ↔ lab[p]? = some l) {s : MergeState} {into : Int → Int}
    {D : List Bool} (h : TurnInv m lab s into D) {i : Nat} (hi : i < lab.length) :
    ∃ s' into' D', mergeTurn lab all ((s.conn, s.remove), D) i = .ok ((s'.conn, s'.remove), D') ∧
      TurnInv m lab s' into' D' ∧ D'[i]? = some true ∧ (∀ p : Nat, D[p]? = some true → D'[p]? = some true) := by
  have hDl := h.len
  have hDi : D[i]? = some (D[i]'(by omega)) := List.getElem?_eq_getElem (by omega)
  have hLi : lab[i]? = some lab[i] := List.getElem?_eq_getElem hi
  have gD : D.getD i true = D[i]'(by omega) := by rw [List.getD_eq_getElem?_getD, hDi]; rfl
  have gL : lab.getD i (-1) = lab[i] := by rw [List.getD_eq_getElem?_getD, hLi]; rfl
  have vert : ∀ p, p < lab.length → ∃ x, m.verts[p]? = some x := fun p hp =>
    ⟨_, List.getElem?_eq_getElem (by omega)⟩
  unfold mergeTurn
  rw [gD, gL]
  by_cases hc : D[i]'(by omega) = false ∧ lab[i] ≠ -1
  · rw [if_pos hc]
    obtain ⟨hnd, hmem⟩ := hall lab[i]
    match ha : all lab[i] with
    | [] =>
      have := (hmem i).mpr hLi
      rw [ha] at this; cases this
    | f :: rest =>
      rw [ha] at hnd
      have hmem' : ∀ p : Nat, (p = f ∨ p ∈ rest) ↔ lab[p]? = some lab[i] := fun p => by
        rw [← hmem p, ha, List.mem_cons]
      have hf := (hmem' f).mp (.inl rfl)
      have hfl : f < lab.length := (List.getElem?_eq_some_iff.mp hf).1
      obtain ⟨xf, hxf⟩ := vert f hfl
      have hnd' := List.nodup_cons.mp hnd
      have hund : ∀ p : Nat, (p = f ∨ p ∈ rest) → D[p]? = some false := by
        intro p hp
        have hp' := (hmem' p).mp hp
        have hpl : p < D.length := by rw [hDl]; exact (List.getElem?_eq_some_iff.mp hp').1
        have hg : D[p]? = some D[p] := List.getElem?_eq_getElem hpl
        cases hb : D[p] with
        | false => rw [hg, hb]
        | true =>
          have := h.together p i _ hp' hLi hc.2 (by rw [hg, hb])
          rw [hDi, hc.1] at this; cases this
      obtain ⟨s', into', k1, k2, k3, k4, k5, k6⟩ := mergeGroup_fold hm hxf rest s into h.inv hnd'.2 (by
        intro j hj
        have hjl : j < lab.length := (List.getElem?_eq_some_iff.mp ((hmem' j).mp (.inr hj))).1
        obtain ⟨x, hx⟩ := vert j hjl
        obtain ⟨h5, h6⟩ := h.undone j x (hund j (.inr hj)) hx
        exact ⟨x, hx, fun hc => hnd'.1 (hc ▸ hj), h5, h6⟩) (h.undone f xf (hund f (.inl rfl)) hxf).2
      obtain ⟨d1, d2⟩ := setAll_get rest D
      have hD' : ∀ p : Nat, ((rest.foldl (fun d j => d.set j true) D).set f true)[p]? =
          if (p = f ∨ p ∈ rest) then some true else D[p]? := by
        intro p
        by_cases hpf : p = f
        · subst hpf
          rw [List.getElem?_set_self (by rw [d1, hDl]; exact hfl)]
          simp
        · rw [List.getElem?_set_ne (by omega), d2]
          by_cases hp : p ∈ rest
          · have : p < D.length := by rw [hDl]; exact (List.getElem?_eq_some_iff.mp ((hmem' p).mp (.inr hp))).1
            simp [hp, this]
          · simp [hp, hpf]
      have hat : ∀ (p : Nat) (x : Vert), m.verts[p]? = some x → (AtSome m rest x.index ↔ p ∈ rest) := by
        intro p x hx
        constructor
        · rintro ⟨j, hj, y, hy, hyx⟩
          rw [pos_unique hm hx hy hyx.symm]; exact hj
        · intro hp; exact ⟨p, hp, x, hx, rfl⟩
      -- `f` itself is not merged
      have hff : into' xf.index = xf.index := by
        by_contra hcf
        have := (k4 _).mp (k2.moved _ hcf).1
        rcases this with h5 | h5
        · exact (h.undone f xf (hund f (.inl rfl)) hxf).2 h5
        · exact hnd'.1 ((hat f xf hxf).mp h5)
      have hgrp : ∀ (p : Nat) (x : Vert), m.verts[p]? = some x → (p = f ∨ p ∈ rest) → into' x.index = xf.index := by
        intro p x hx hp
        rcases hp with rfl | hp
        · rw [hxf] at hx; cases hx; exact hff
        · exact k5 _ ((hat p x hx).mpr hp)
      have hother : ∀ (p : Nat) (x : Vert), m.verts[p]? = some x → ¬ (p = f ∨ p ∈ rest) →
          into' x.index = into x.index ∧ (x.index ∈ s'.stop → x.index ∈ s.stop) ∧ (x.index ∈ s'.remove → x.index ∈ s.remove) := by
        intro p x hx hp
        rw [not_or] at hp
        refine ⟨k6 _ (fun hc => hp.2 ((hat p x hx).mp hc)), fun hs => ?_, fun hr => ?_⟩
        · rcases k3 _ hs with h5 | h5
          · exact h5
          · exact absurd (pos_unique hm hx hxf h5) hp.1
        · rcases (k4 _).mp hr with h5 | h5
          · exact h5
          · exact absurd ((hat p x hx).mp h5) hp.2
      refine ⟨s', into', (rest.foldl (fun d j => d.set j true) D).set f true, ?_, ⟨k2, by simp [d1, hDl], ?_, ?_, ?_, ?_, ?_⟩, ?_, ?_⟩
      · simp only [k1, Except.map]
      · intro j x hj hx
        rw [hD'] at hj
        split at hj
        · cases hj
        · rename_i hjg
          obtain ⟨-, h5, h6⟩ := hother j x hx hjg
          obtain ⟨h7, h8⟩ := h.undone j x hj hx
          exact ⟨fun hc => h7 (h5 hc), fun hc => h8 (h6 hc)⟩
      · intro j x hj hx
        have hjg : ¬ (j = f ∨ j ∈ rest) := fun hc' => by
          rw [hmem' j, hj] at hc'
          exact hc.2 (Option.some.inj hc').symm
        obtain ⟨-, h5, h6⟩ := hother j x hx hjg
        obtain ⟨h7, h8⟩ := h.none j x hj hx
        exact ⟨fun hc => h7 (h5 hc), fun hc => h8 (h6 hc)⟩
      · intro j k l hj hk hl hjt
        rw [hD'] at hjt ⊢
        by_cases hkg : k = f ∨ k ∈ rest
        · rw [if_pos hkg]
        · rw [if_neg hkg]
          have hjg : ¬ (j = f ∨ j ∈ rest) := fun hc' => hkg ((hmem' k).mpr (by rw [hk, ← hj]; exact (hmem' j).mp hc'))
          rw [if_neg hjg] at hjt
          exact h.together j k l hj hk hl hjt
      · intro j k x y l hx hy hj hk hl hjt
        rw [hD'] at hjt
        by_cases hjg : j = f ∨ j ∈ rest
        · have hkg : k = f ∨ k ∈ rest := (hmem' k).mpr (by rw [hk, ← hj]; exact (hmem' j).mp hjg)
          rw [hgrp j x hx hjg, hgrp k y hy hkg]
        · have hkg : ¬ (k = f ∨ k ∈ rest) := fun hc' => hjg ((hmem' j).mpr (by rw [hj, ← hk]; exact (hmem' k).mp hc'))
          rw [if_neg hjg] at hjt
          rw [(hother j x hx hjg).1, (hother k y hy hkg).1]
          exact h.merged j k x y l hx hy hj hk hl hjt
      · intro j x l hx hj hl hjt
        rw [hD'] at hjt
        by_cases hjg : j = f ∨ j ∈ rest
        · exact ⟨f, xf, hxf, by rw [hf, ← hj]; exact ((hmem' j).mp hjg).symm, hgrp j x hx hjg⟩
        · rw [if_neg hjg] at hjt
          rw [(hother j x hx hjg).1]
          exact h.member j x l hx hj hl hjt
      · rw [hD', if_pos ((hmem' i).mpr hLi)]
      · intro p hp
        rw [hD']
        split
        · rfl
        · exact hp
  · rw [if_neg hc]
    refine ⟨s, into, D.set i true, rfl, ?_⟩
    have hD' : ∀ p : Nat, (D.set i true)[p]? = if p = i then some true else D[p]? := by
      intro p
      by_cases hp : p = i
      · subst hp; rw [List.getElem?_set_self (by omega)]; simp
      · rw [List.getElem?_set_ne (by omega), if_neg hp]
    -- either done before or without a group
    have hci : D[i]? = some true ∨ lab[i]? = some (-1) := by
      rw [hDi, hLi]
      cases hb : D[i]'(by omega) with
      | true => exact .inl rfl
      | false =>
        right
        by_contra hx
        exact hc ⟨hb, fun h => hx (by rw [h])⟩
    have hsame : ∀ (p : Nat) (l : Int), lab[p]? = some l → l ≠ -1 → (D.set i true)[p]? = D[p]? := by
      intro p l hp hl
      rw [hD']
      split
      · rename_i hpi
        subst hpi
        rcases hci with h1 | h1
        · exact h1.symm
        · rw [h1] at hp; exact absurd (Option.some.inj hp).symm hl
      · rfl
    refine ⟨⟨h.inv, by simp [hDl], ?_, h.none, ?_, ?_, ?_⟩, by rw [hD', if_pos rfl], ?_⟩
    · intro j x hj hx
      rw [hD'] at hj
      split at hj
      · cases hj
      · exact h.undone j x hj hx
    · intro j k l hj hk hl hjt
      rw [hsame j l hj hl] at hjt
      rw [hsame k l hk hl]
      exact h.together j k l hj hk hl hjt
    · intro j k x y l hx hy hj hk hl hjt
      rw [hsame j l hj hl] at hjt
      exact h.merged j k x y l hx hy hj hk hl hjt
    · intro j x l hx hj hl hjt
      rw [hsame j l hj hl] at hjt
      exact h.member j x l hx hj hl hjt
    · intro p hp
      rw [hD']
      split
      · rfl
      · exact hp

theorem mergeLoopG_ok (hm : Sound m) {lab : List Int} (hlen : lab.length = m.verts.length) {all : Int → List Nat}
    (hall : ∀ l, (all l).Nodup ∧ ∀ p : Nat, p ∈ all l ↔ lab[p]? = some l) : ∀ (is : List Nat) {s : MergeState}
    {into : Int → Int} {D : List Bool}, TurnInv m lab s into D → (∀ i ∈ is, i < lab.length) →
    ∃ s' into' D', is.foldlM (m := Except Fault) (mergeTurn lab all) ((s.conn, s.remove), D) = .ok ((s'.conn, s'.remove), D') ∧
      TurnInv m lab s' into' D' ∧ (∀ i ∈ is, D'[i]? = some true) ∧ (∀ p : Nat, D[p]? = some true → D'[p]? = some true)
  | [], s, into, D, h, _ => ⟨s, into, D, rfl, h, by simp, fun _ h => h⟩
  | i :: is, s, into, D, h, hi => by
    obtain ⟨s1, into1, D1, h1, h2, h3, h4⟩ := mergeTurn_ok hm hlen hall h (hi i (by simp))
    obtain ⟨s2, into2, D2, k1, k2, k3, k4⟩ := mergeLoopG_ok hm hlen hall is h2 (fun i hx => hi i (by simp [hx]))
    refine ⟨s2, into2, D2, ?_, k2, ?_, fun p hp => k4 p (h4 p hp)⟩
    · rw [List.foldlM_cons, h1]; exact k1
    · intro j hj
      rcases List.mem_cons.mp hj with rfl | hj
      · exact k4 _ h3
      · exact k3 j hj

/-- `MergeGroupedVertices` merges each group into one of its vertices. -/
theorem mergeGrouped_ok (hm : Sound m) (h2 : TwoVerts m) (hl : NoLoops m) (ho : ListedOnce m) {lab : List Int}
    (hlen : lab.length = m.verts.length) {all : Int → List Nat}
    (hall : ∀ l, (all l).Nodup ∧ ∀ p : Nat, p ∈ all l ↔ lab[p]? = some l) (del : Bool) :
    ∃ m' gone into, mergeGrouped m lab all del = .ok (m', gone) ∧ GroupsMerged m m' lab into gone ∧ Sound m' ∧ TwoVerts m' ∧
      m'.verts.map Vert.index = (m.verts.map Vert.index).filter fun a => !del || decide (into a = a) := by
  have inv0 : TurnInv m lab { conn := m } id (List.replicate lab.length false) := by
    have hno : ∀ p : Nat, ¬ (List.replicate lab.length false)[p]? = some true := by
      intro p hp; simp [List.getElem?_replicate] at hp
    refine ⟨?_, by simp, by simp, by simp, fun _ _ _ _ _ _ h => absurd h (hno _), fun _ _ _ _ _ _ _ _ _ _ h => absurd h (hno _),
      fun _ _ _ _ _ _ h => absurd h (hno _)⟩
    exact
      { sound := hm, two := h2, once := ho, loops := fun e he x hx => absurd hx (hl e he x)
        moved := fun x hx => absurd rfl hx, gone := by simp, apart := by simp, hit := by simp, verts := rfl
        coord := fun x hx => ⟨x, hx, rfl, rfl⟩, edges := rfl, edgeVert := by simp, edgeSurf := fun _ _ => Iff.rfl
        surfs := rfl, volus := rfl }
  obtain ⟨s, into, D, k1, k2, k3, -⟩ := mergeLoopG_ok hm hlen hall (List.range lab.length) inv0 (by simp)
  have inv := k2.inv
  have hrem : ∀ x, x ∈ s.remove ↔ into x ≠ x := fun x => ⟨fun h => (inv.gone x h).1, fun h => (inv.moved x h).1⟩
  have hfix : ∀ u, into (into u) = into u := by
    intro u
    by_cases hu : into u = u
    · rw [hu]; exact hu
    · by_contra hc
      exact inv.apart _ (inv.moved u hu).2.1 ((hrem _).mpr hc)
  have lt : ∀ (i : Nat) (l : Int), lab[i]? = some l → D[i]? = some true := fun i l h =>
    k3 i (by simpa using (List.getElem?_eq_some_iff.mp h).1)
  have hgone : ∀ (g : List Int), (∀ a, a ∈ g ↔ a ∈ s.remove) → ∀ a, a ∈ g ↔ HasVert m a ∧ into a ≠ a := by
    intro g hg a
    rw [hg, hrem]
    exact ⟨fun h => ⟨(inv.gone a ((hrem a).mpr h)).2, h⟩, fun h => h.2⟩
  have hspec : ∀ (m' : Mesh) (g : List Int), (∀ a, a ∈ g ↔ a ∈ s.remove) → (∀ x ∈ m'.verts, x ∈ s.conn.verts) →
      m'.edges = s.conn.edges → m'.surfs = s.conn.surfs → m'.volus = s.conn.volus → GroupsMerged m m' lab into g := by
    intro m' g hg hv he hf hc
    refine ⟨?_, ?_, ?_, hgone g hg, fun x hx => inv.coord x (hv x hx), by rw [he]; exact inv.edges, ?_, ?_, hf.trans inv.surfs,
      hc.trans inv.volus⟩
    · intro i x hx hi
      by_contra hne
      exact (k2.none i x hi hx).2 ((hrem _).mpr hne)
    · intro i j x y l hx hy hi hj hne
      exact k2.merged i j x y l hx hy hi hj hne (lt i l hi)
    · intro i x l hx hi hne
      exact k2.member i x l hx hi hne (lt i l hi)
    · intro e v
      rw [← inv.edgeVert e v]
      simp only [EdgeVert, he]
    · intro e v
      rw [← inv.edgeSurf e v]
      simp only [EdgeSurf, he]
  have hrun : mergeGrouped m lab all del = .ok (if s.remove ≠ [] ∧ del = true then
      ({ s.conn with verts := removeIdx Vert.index s.conn.verts (sortUnique s.remove) }, sortUnique s.remove)
      else (s.conn, s.remove)) := by
    unfold mergeGrouped
    have : ((m, ([] : List Int)), List.replicate lab.length false) =
        ((({ conn := m } : MergeState).conn, ({ conn := m } : MergeState).remove), List.replicate lab.length false) := rfl
    rw [this, k1]
    rfl
  by_cases hc : s.remove ≠ [] ∧ del = true
  · rw [if_pos hc] at hrun
    have hfree : ∀ k ∈ sortUnique s.remove, VertFree s.conn k := by
      intro k hk
      rw [mem_sortUnique] at hk
      refine ⟨ne_of_gt (hm.pos.verts k (inv.gone k hk).2), fun e he => ?_⟩
      obtain ⟨u, -, hu⟩ := (inv.edgeVert e k).mp he
      exact (hrem k).mp hk (hu ▸ hfix u)
    have hsound := remove_sound (vd := sortUnique s.remove) (ed := []) (sd := []) (cd := []) inv.sound hfree (by simp)
      (by simp) (by simp)
    have hnil : ∀ {α : Type} (ix : α → Int) (l : List α), removeIdx ix l [] = l := by
      intro α ix l; simp [removeIdx]
    rw [hnil, hnil, hnil] at hsound
    refine ⟨_, _, into, hrun, hspec _ _ (fun a => mem_sortUnique) ?_ rfl rfl rfl, hsound, inv.two, ?_⟩
    · intro x hx; exact (mem_removeIdx.mp hx).1
    · rw [← inv.verts]
      simp only [removeIdx, List.filter_map, hc.2, Bool.not_true, Bool.false_or]
      congr 1
      apply List.filter_congr
      intro x _
      have h5 := hrem x.index
      simp only [Function.comp]
      by_cases h6 : into x.index = x.index
      · have : x.index ∉ s.remove := fun h7 => h5.mp h7 h6
        simp [h6, List.contains_eq_mem, mem_sortUnique, this]
      · have : x.index ∈ s.remove := h5.mpr h6
        simp [h6, List.contains_eq_mem, mem_sortUnique, this]
  · rw [if_neg hc] at hrun
    refine ⟨_, _, into, hrun, hspec _ _ (fun a => Iff.rfl) (fun x h => h) rfl rfl rfl, inv.sound, inv.two, ?_⟩
    rw [inv.verts]
    symm
    rw [List.filter_eq_self]
    intro a _
    cases del with
    | false => rfl
    | true =>
      have : s.remove = [] := by by_contra hx; exact hc ⟨hx, rfl⟩
      have h5 := hrem a
      rw [this] at h5
      simpa using h5

end

end RSVS
