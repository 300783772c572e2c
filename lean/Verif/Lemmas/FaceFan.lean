import Verif.Spec.FaceFan
import Verif.Lemmas.Mesh
import Verif.Lemmas.MeshShift
import Verif.Lemmas.TecplotZone

/-!
# The loop around a surface
-/

namespace RSVS.FaceFan

open RSVS RSVS.Mesh RSVS.Spec RSVS.Triang

section
variable {α : Type} {ix : α → Int}

/-- A list of changes of the elements with given indices. -/
def applyOps (ix : α → Int) (ops : List (Int × (α → α))) (l : List α) : List α :=
  l.map fun x => ops.foldl (fun x o => if ix x = o.1 then o.2 x else x) x

theorem applyOps_append (a b : List (Int × (α → α))) (l : List α) :
    applyOps ix (a ++ b) l = applyOps ix b (applyOps ix a l) := by
  unfold applyOps
  rw [List.map_map]
  refine List.map_congr_left fun x _ => ?_
  rw [List.foldl_append]
  rfl

theorem applyOps_nil (l : List α) : applyOps ix [] l = l := by
  unfold applyOps
  simp

theorem ops_index : ∀ (ops : List (Int × (α → α))), (∀ o ∈ ops, ∀ x, ix (o.2 x) = ix x) → ∀ x,
    ix (ops.foldl (fun x o => if ix x = o.1 then o.2 x else x) x) = ix x
  | [], _, x => rfl
  | o :: ops, h, x => by
    rw [List.foldl_cons, ops_index ops (fun o ho => h o (List.mem_cons_of_mem _ ho))]
    split
    · exact h o (by simp) x
    · rfl

theorem applyOps_index {ops : List (Int × (α → α))} (h : ∀ o ∈ ops, ∀ x, ix (o.2 x) = ix x) (l : List α) :
    (applyOps ix ops l).map ix = l.map ix := by
  unfold applyOps
  rw [List.map_map]
  exact List.map_congr_left fun x _ => ops_index ops h x

theorem modAt_base {l base : List α} (hi : l.map ix = base.map ix) (hn : (base.map ix).Nodup) {k : Int}
    (hk : ∃ a ∈ base, ix a = k) (f : α → α) : modAt l (posOf ix base k) f = .ok (applyOps ix [(k, f)] l) := by
  rw [← posOf_congr hi, modAt_posOf (by rw [hi]; exact hn) (by
    rw [← List.mem_map, hi, List.mem_map]; exact hk)]
  rfl

end

/-- What the loop relies on. -/
structure Ready (f : Fan) (w : Nat → Int) : Prop where
  sound : Sound f.base
  face : f.face ∈ f.base.surfs
  sub : f.sub = posOf Surf.index f.base.surfs f.face.index
  n : f.n = f.face.edgeind.length
  ring : RingFace f.base f.face w

/-- The containers have the indices of the mesh. -/
structure SameIdx (base out : Mesh) : Prop where
  verts : out.verts.map Vert.index = base.verts.map Vert.index
  edges : out.edges.map Edge.index = base.edges.map Edge.index
  surfs : out.surfs.map Surf.index = base.surfs.map Surf.index
  volus : out.volus.map Volu.index = base.volus.map Volu.index

def edgeNo (f : Fan) (k : Nat) : Int := f.face.edgeind.getD k 0

def vOp (f : Fan) (w : Nat → Int) (k : Nat) : Int × (Vert → Vert) :=
  (w (k + 1), fun x => { x with edgeind := x.edgeind ++ [f.e0 + 1 + (k : Int)] })

def eOp (f : Fan) (k : Nat) : Int × (Edge → Edge) :=
  (edgeNo f k, fun x => { x with surfind := replaceAll f.face.index (f.s0 + (k : Int)) x.surfind })

def cOps (f : Fan) (k : Nat) : List (Int × (Volu → Volu)) :=
  (f.face.voluind.filter fun c => decide (c ≠ 0)).map fun c =>
    (c, fun x => { x with surfind := x.surfind ++ [f.s0 + (k : Int)] })

def spoke (f : Fan) (w : Nat → Int) (k : Nat) : Edge :=
  ⟨f.e0 + 1 + (k : Int), [f.centre, w (k + 1)], [if k = 0 then f.face.index else f.s0 + (k : Int),
    if k = f.n - 1 then f.face.index else f.s0 + (k : Int) + 1], false⟩

def tri (f : Fan) (k : Nat) : Surf :=
  { f.face with index := f.s0 + (k : Int), edgeind := [f.e0 + (k : Int), f.e0 + (k : Int) + 1, edgeNo f k] }

/-- The state after the edges `ks`. -/
def after (f : Fan) (w : Nat → Int) (ks : List Nat) (st : St) : St :=
  { st with
    out := { st.out with
      verts := applyOps Vert.index (ks.map (vOp f w)) st.out.verts
      edges := applyOps Edge.index (ks.map (eOp f)) st.out.edges
      volus := applyOps Volu.index (ks.flatMap (cOps f)) st.out.volus }
    tmp := { st.tmp with
      edges := st.tmp.edges ++ ks.map (spoke f w)
      surfs := st.tmp.surfs ++ ks.map (tri f) } }

theorem after_cons (f : Fan) (w : Nat → Int) (k : Nat) (ks : List Nat) (st : St) :
    after f w (k :: ks) st = after f w ks (after f w [k] st) := by
  unfold after
  have h1 : (k :: ks).map (vOp f w) = [k].map (vOp f w) ++ ks.map (vOp f w) := rfl
  have h2 : (k :: ks).map (eOp f) = [k].map (eOp f) ++ ks.map (eOp f) := rfl
  have h3 : (k :: ks).flatMap (cOps f) = [k].flatMap (cOps f) ++ ks.flatMap (cOps f) := by simp
  rw [h1, h2, h3, applyOps_append, applyOps_append, applyOps_append]
  simp

theorem after_sameIdx {base : Mesh} (f : Fan) (w : Nat → Int) (ks : List Nat) {st : St} (h : SameIdx base st.out) :
    SameIdx base (after f w ks st).out where
  verts := by
    refine (applyOps_index ?_ _).trans h.verts
    intro o ho x
    obtain ⟨k, _, rfl⟩ := List.mem_map.1 ho
    rfl
  edges := by
    refine (applyOps_index ?_ _).trans h.edges
    intro o ho x
    obtain ⟨k, _, rfl⟩ := List.mem_map.1 ho
    rfl
  surfs := h.surfs
  volus := by
    refine (applyOps_index ?_ _).trans h.volus
    intro o ho x
    obtain ⟨k, _, ho⟩ := List.mem_flatMap.1 ho
    obtain ⟨c, _, rfl⟩ := List.mem_map.1 ho
    rfl

theorem linkVolus_ok {base : Mesh} (hn : (base.volus.map Volu.index).Nodup) (s : Int) : ∀ (cs : List Int) {volus : List Volu},
    volus.map Volu.index = base.volus.map Volu.index → (∀ c ∈ cs, c ≠ 0 → HasVolu base c) →
    linkVolus base s volus cs = .ok (applyOps Volu.index ((cs.filter fun c => decide (c ≠ 0)).map fun c =>
      (c, fun x => { x with surfind := x.surfind ++ [s] })) volus)
  | [], volus, _, _ => by simp [linkVolus, applyOps_nil, pure, Except.pure]
  | c :: cs, volus, hi, hc => by
    have ih := fun {volus} hi => linkVolus_ok hn s cs (volus := volus) hi fun c h => hc c (List.mem_cons_of_mem _ h)
    unfold linkVolus at ih ⊢
    rw [List.foldlM_cons]
    by_cases h0 : c = 0
    · rw [if_neg (by simpa using h0), List.filter_cons_of_neg (by simpa using h0)]
      exact ih hi
    · rw [if_pos h0, List.filter_cons_of_pos (by simpa using h0), modAt_base hi hn (hc c (by simp) h0)]
      change List.foldlM (m := Except Fault) _ (applyOps Volu.index [(c, _)] volus) cs = _
      rw [ih ((applyOps_index (by intro o ho x; rw [List.mem_singleton] at ho; subst ho; rfl) _).trans hi), List.map_cons,
        ← applyOps_append]
      rfl

variable {f : Fan} {w : Nat → Int}

theorem Ready.edge (h : Ready f w) {k : Nat} (hk : k < f.n) : ∃ x ∈ f.base.edges, x.index = edgeNo f k ∧
    (x.vertind = [w k, w (k + 1)] ∨ x.vertind = [w (k + 1), w k]) ∧ edgeNo f k ∈ f.face.edgeind ∧
    f.face.edgeind[k]? = some (edgeNo f k) := by
  have hk' : k < f.face.edgeind.length := h.n ▸ hk
  have h1 : f.face.edgeind[k]? = some (edgeNo f k) := by
    unfold edgeNo
    rw [List.getD_eq_getElem?_getD, List.getElem?_eq_getElem hk']
    rfl
  obtain ⟨x, hx, h2, h3⟩ := h.ring.2.1 k _ h1
  exact ⟨x, hx, h2, h3, List.mem_of_getElem? h1, h1⟩

/-- The edge `k` read by position. -/
theorem Ready.readEdge (h : Ready f w) {k : Nat} (hk : k < f.n) : ∃ x ∈ f.base.edges, x.index = edgeNo f k ∧
    (x.vertind = [w k, w (k + 1)] ∨ x.vertind = [w (k + 1), w k]) ∧
    elemAt f.base.edges (posOf Edge.index f.base.edges (edgeNo f k)) = .ok x := by
  obtain ⟨x, hx, h1, h2, _⟩ := h.edge hk
  obtain ⟨y, h3, h4, h5⟩ := elemAt_posOf_ok (ix := Edge.index) (l := f.base.edges) (k := edgeNo f k) ⟨x, hx, h1⟩
  have : y = x := inj_of_nodup h.sound.unique.edges h4 hx (h5.trans h1.symm)
  subst this
  exact ⟨y, hx, h1, h2, h3⟩

theorem Ready.wInj (h : Ready f w) {i j : Nat} (hi : i < f.n) (hj : j < f.n) (he : w i = w j) : i = j := by
  rw [h.n] at hi hj
  exact h.ring.2.2.2 i j hi hj he

theorem Ready.wEnd (h : Ready f w) : w f.n = w 0 := by
  rw [h.n]
  exact h.ring.2.2.1

theorem Ready.three (h : Ready f w) : 3 ≤ f.n := by
  rw [h.n]
  exact h.ring.1

theorem Ready.wNext (h : Ready f w) {k : Nat} (hk : k < f.n) : w k ≠ w (k + 1) := by
  have h3 := h.three
  intro he
  rcases Nat.lt_or_ge (k + 1) f.n with h1 | h1
  · have := h.wInj hk h1 he; omega
  · have hkn : k + 1 = f.n := by omega
    rw [hkn, h.wEnd] at he
    have := h.wInj hk (by omega) he
    omega

theorem Ready.wTwo (h : Ready f w) {k : Nat} (hk : k + 1 < f.n) : w k ≠ w (k + 2) := by
  have h3 := h.three
  intro he
  rcases Nat.lt_or_ge (k + 2) f.n with h1 | h1
  · have := h.wInj (by omega) h1 he; omega
  · have hkn : k + 2 = f.n := by omega
    rw [hkn, h.wEnd] at he
    have := h.wInj (i := k) (j := 0) (by omega) (by omega) he
    omega

theorem Ready.hasVert (h : Ready f w) {k : Nat} (hk : k < f.n) : HasVert f.base (w (k + 1)) := by
  obtain ⟨x, hx, h1, h2, _⟩ := h.edge hk
  have hm : w (k + 1) ∈ x.vertind := by rcases h2 with h2 | h2 <;> simp [h2]
  have hz : w (k + 1) ≠ 0 := by
    intro h0
    exact h.sound.zeroOutside.edgeVert x.index ⟨x, hx, rfl, h0 ▸ hm⟩
  exact h.sound.noDangling.edgeVert x.index _ ⟨x, hx, rfl, hm⟩ hz

theorem Ready.hasVolu (h : Ready f w) : ∀ c ∈ f.face.voluind, c ≠ 0 → HasVolu f.base c := fun c hc h0 =>
  h.sound.noDangling.surfVolu f.face.index c ⟨f.face, h.face, rfl, hc⟩ h0

/-- The end of edge `k` which the new edge goes to. -/
def EndAt (f : Fan) (w : Nat → Int) (k ll : Nat) : Prop :=
  ∃ x ∈ f.base.edges, x.index = edgeNo f k ∧ x.vertind[ll]? = some (w (k + 1)) ∧ ll < 2

theorem vecGet_nat' {α : Type} {l : List α} {k : Nat} {a : α} (h : l[k]? = some a) : vecGet l (k : Int) = .ok a := by
  unfold vecGet
  rw [if_neg (by omega)]
  simp [h]

theorem spokeStep_ok (h : Ready f w) {k ll : Nat} (hk : k < f.n) (h1 : 1 ≤ k) (hl : EndAt f w k ll) {st : St}
    (hs : SameIdx f.base st.out) :
    spokeStep f k (posOf Edge.index f.base.edges (edgeNo f k)) ll st = .ok (after f w [k] st) := by
  obtain ⟨x, hx, h2, h3, h4⟩ := h.readEdge hk
  obtain ⟨y, hy, h5, h6, _⟩ := hl
  have : y = x := inj_of_nodup h.sound.unique.edges hy hx (h5.trans h2.symm)
  subst this
  unfold spokeStep
  rw [h4]
  simp only [Except.bind]
  rw [vecGet_nat' h6]
  dsimp only
  rw [modAt_base hs.verts h.sound.unique.verts (h.hasVert hk)]
  dsimp only
  rw [if_neg (by omega), modAt_base hs.edges h.sound.unique.edges ⟨y, hx, h2⟩]
  dsimp only
  rw [linkVolus_ok h.sound.unique.volus _ _ hs.volus h.hasVolu]
  simp only [Except.map]
  unfold after
  simp only [List.map_cons, List.map_nil, List.flatMap_cons, List.flatMap_nil, List.append_nil]
  rw [← h2]
  unfold spoke tri
  rw [if_neg (by omega : ¬ k = 0), h2]
  congr 1

theorem nextEnd_ok (h : Ready f w) {k ll : Nat} (hk : k + 1 < f.n) (hl : EndAt f w k ll) :
    ∃ ll', nextEnd f.base (posOf Edge.index f.base.edges (edgeNo f k)) (posOf Edge.index f.base.edges (edgeNo f (k + 1))) ll =
      .ok ll' ∧ EndAt f w (k + 1) ll' := by
  obtain ⟨x, hx, h2, h3, h4⟩ := h.readEdge (k := k) (by omega)
  obtain ⟨y, hy, h5, h6, h7⟩ := h.readEdge hk
  obtain ⟨_, _, _, _, hl2⟩ := hl
  have n1 := h.wNext (k := k) (by omega)
  have n2 := h.wNext hk
  have n3 := h.wTwo hk
  have hab : ∃ a b, x.vertind = [a, b] ∧ ∀ z, (a = z ∨ b = z) ↔ (z = w k ∨ z = w (k + 1)) := by
    rcases h3 with h3 | h3
    · exact ⟨_, _, h3, fun z => by constructor <;> rintro (h | h) <;> simp [h]⟩
    · exact ⟨_, _, h3, fun z => by constructor <;> rintro (h | h) <;> simp [h]⟩
  obtain ⟨a, b, hx2, hab⟩ := hab
  unfold nextEnd
  rw [h4, h7]
  simp only [Except.bind]
  rw [hx2]
  have h0 : vecGet [a, b] 0 = .ok a := rfl
  have h1 : vecGet [a, b] 1 = .ok b := rfl
  rw [h0, h1]
  have hll : ll = 0 ∨ ll = 1 := by omega
  rcases h6 with h6 | h6 <;> rcases hll with rfl | rfl
  · have : vecGet y.vertind ((0 : Nat) : Int) = .ok (w (k + 1)) := by rw [h6]; rfl
    rw [this]
    simp only [Except.map]
    rw [if_pos ((hab _).2 (.inr rfl))]
    exact ⟨1, rfl, y, hy, h5, by rw [h6]; rfl, by omega⟩
  · have : vecGet y.vertind ((1 : Nat) : Int) = .ok (w (k + 1 + 1)) := by rw [h6]; rfl
    rw [this]
    simp only [Except.map]
    rw [if_neg (by rw [hab]; rintro (h | h); exacts [n3 h.symm, n2 h.symm])]
    exact ⟨1, rfl, y, hy, h5, by rw [h6]; rfl, by omega⟩
  · have : vecGet y.vertind ((0 : Nat) : Int) = .ok (w (k + 1 + 1)) := by rw [h6]; rfl
    rw [this]
    simp only [Except.map]
    rw [if_neg (by rw [hab]; rintro (h | h); exacts [n3 h.symm, n2 h.symm])]
    exact ⟨0, rfl, y, hy, h5, by rw [h6]; rfl, by omega⟩
  · have : vecGet y.vertind ((1 : Nat) : Int) = .ok (w (k + 1)) := by rw [h6]; rfl
    rw [this]
    simp only [Except.map]
    rw [if_pos ((hab _).2 (.inr rfl))]
    exact ⟨0, rfl, y, hy, h5, by rw [h6]; rfl, by omega⟩

/-- The positions of the edges from `k` on. -/
def subsFrom (f : Fan) (k len : Nat) : List Int := (List.range' k len).map fun j => posOf Edge.index f.base.edges (edgeNo f j)

theorem fanLoop_ok (h : Ready f w) : ∀ (len k ll : Nat) (st : St), 1 ≤ k → k + len + 1 = f.n → EndAt f w k ll →
    SameIdx f.base st.out → fanLoop f k ll (subsFrom f k (len + 1)) st = .ok (after f w (List.range' k (len + 1)) st)
  | 0, k, ll, st, h1, hk, hl, hs => by
    have : subsFrom f k 1 = [posOf Edge.index f.base.edges (edgeNo f k)] := rfl
    rw [Nat.zero_add, this]
    unfold fanLoop
    rw [spokeStep_ok h (by omega) h1 hl hs]
    rfl
  | len + 1, k, ll, st, h1, hk, hl, hs => by
    obtain ⟨ll', h2, h3⟩ := nextEnd_ok h (k := k) (by omega) hl
    have ih := fanLoop_ok h len (k + 1) ll' (after f w [k] st) (by omega) (by omega) h3 (after_sameIdx f w [k] hs)
    have e1 : subsFrom f k (len + 1 + 1) = posOf Edge.index f.base.edges (edgeNo f k) :: subsFrom f (k + 1) (len + 1) := by
      simp [subsFrom, List.range'_succ]
    have e2 : subsFrom f (k + 1) (len + 1) = posOf Edge.index f.base.edges (edgeNo f (k + 1)) :: subsFrom f (k + 2) len := by
      simp [subsFrom, List.range'_succ]
    rw [e1]
    unfold fanLoop
    rw [spokeStep_ok h (by omega) h1 hl hs]
    simp only [Except.bind]
    rw [e2]
    dsimp only
    rw [h2]
    dsimp only
    rw [← e2, ih]
    have e3 : List.range' k (len + 1 + 1) = k :: List.range' (k + 1) (len + 1) := List.range'_succ
    rw [e3]
    exact congrArg Except.ok (after_cons ..).symm

/-- The state after all edges and the new vertex. -/
def fanned (f : Fan) (w : Nat → Int) (b : Vert) (st : St) : St :=
  { out := { st.out with
      verts := applyOps Vert.index ((List.range f.n).map (vOp f w)) st.out.verts
      edges := applyOps Edge.index ((List.range' 1 (f.n - 1)).map (eOp f)) st.out.edges
      surfs := applyOps Surf.index
        [(f.face.index, fun x => { x with edgeind := [f.e0 + 1, f.e0 + (f.n : Int), edgeNo f 0] })] st.out.surfs
      volus := applyOps Volu.index ((List.range' 1 (f.n - 1)).flatMap (cOps f)) st.out.volus }
    tmp := { st.tmp with
      verts := st.tmp.verts ++ [b]
      edges := st.tmp.edges ++ (List.range f.n).map (spoke f w)
      surfs := st.tmp.surfs ++ (List.range' 1 (f.n - 1)).map (tri f) }
    build := b
    nV := st.nV + 1
    nE := st.nE + f.n
    nS := st.nS + (f.n - 1) }

theorem firstEnd_ok (h : Ready f w) : ∃ ll, firstEnd f.base (subsFrom f 0 f.n) = .ok ll ∧ EndAt f w 0 ll := by
  have h3 := h.three
  obtain ⟨x, hx, h2, h3', h4⟩ := h.readEdge (k := 0) (by omega)
  obtain ⟨y, hy, h5, h6, h7⟩ := h.readEdge (k := 1) (by omega)
  have n1 := h.wNext (k := 0) (by omega)
  have n3 := h.wTwo (k := 0) (by omega)
  obtain ⟨n, hn⟩ : ∃ n, f.n = n + 2 := ⟨f.n - 2, by omega⟩
  have e : subsFrom f 0 f.n = posOf Edge.index f.base.edges (edgeNo f 0) :: posOf Edge.index f.base.edges (edgeNo f 1) ::
      subsFrom f 2 n := by
    rw [hn]
    simp [subsFrom, List.range'_succ]
  rw [e]
  unfold firstEnd
  have v0 : ∀ (a b : Int) (l : List Int), vecGet (a :: b :: l) 0 = .ok a := fun _ _ _ => rfl
  have v1 : ∀ (a b : Int) (l : List Int), vecGet (a :: b :: l) 1 = .ok b := fun _ _ _ => rfl
  rw [v0, v1]
  simp only [Except.bind]
  rw [h4]
  dsimp only
  rw [h7]
  dsimp only
  have hab : ∃ a b, y.vertind = [a, b] ∧ ∀ z, (z = a ∨ z = b) ↔ (z = w 1 ∨ z = w 2) := by
    rcases h6 with h6 | h6
    · exact ⟨_, _, h6, fun z => Iff.rfl⟩
    · exact ⟨_, _, h6, fun z => or_comm⟩
  obtain ⟨a, b, hy2, hab⟩ := hab
  rw [hy2]
  rcases h3' with h3' | h3'
  · rw [h3', v0, v0, v1]
    simp only [Except.map]
    rw [if_neg (by rw [hab]; rintro (h | h); exacts [n1 h, n3 h])]
    exact ⟨1, rfl, x, hx, h2, by rw [h3']; rfl, by omega⟩
  · rw [h3', v0, v0, v1]
    simp only [Except.map]
    rw [if_pos ((hab _).2 (.inl rfl))]
    exact ⟨0, rfl, x, hx, h2, by rw [h3']; rfl, by omega⟩

theorem addPoint_ok {top : Tops} {coordOf : Int → Res (List ℚ)} {corners : Nat} {m : Mesh} {t : Triangle}
    (ht : GoodTri m coordOf t) (st : St) : ∃ x, (∃ k : Nat, t.pointtype[k]? = some 3 ∧ ∃ i, t.pointind[k]? = some i ∧
        coordOf i = .ok x) ∧
      addPoint top coordOf corners t st [0, 1, 2] = .ok { st with
        build := ⟨top.v + st.nV + 1, (List.range corners).map fun (kk : Nat) => top.e + st.nE + 1 + (kk : Int), x, st.build.isBorder⟩
        nV := st.nV + 1
        tmp := { st.tmp with verts := st.tmp.verts ++ [⟨top.v + st.nV + 1,
          (List.range corners).map fun (kk : Nat) => top.e + st.nE + 1 + (kk : Int), x, st.build.isBorder⟩] } } := by
  have main : ∀ ks : List Nat, (∀ k ∈ ks, k < 3) → (∃ k ∈ ks, t.pointtype[k]? = some 3) →
      ∃ x, (∃ k : Nat, t.pointtype[k]? = some 3 ∧ ∃ i, t.pointind[k]? = some i ∧ coordOf i = .ok x) ∧
      addPoint top coordOf corners t st ks = .ok { st with
        build := ⟨top.v + st.nV + 1, (List.range corners).map fun (kk : Nat) => top.e + st.nE + 1 + (kk : Int), x, st.build.isBorder⟩
        nV := st.nV + 1
        tmp := { st.tmp with verts := st.tmp.verts ++ [⟨top.v + st.nV + 1,
          (List.range corners).map fun (kk : Nat) => top.e + st.nE + 1 + (kk : Int), x, st.build.isBorder⟩] } } := by
    intro ks
    induction ks with
    | nil => rintro _ ⟨k, hk, _⟩; simp at hk
    | cons k ks ih =>
      rintro h3 ⟨j, hj, hj3⟩
      have hk3 : k < t.pointtype.length := by rw [ht.three]; exact h3 k (by simp)
      have hget : t.pointtype[k]? = some t.pointtype[k] := List.getElem?_eq_getElem hk3
      unfold addPoint
      rw [vecGet_nat' hget]
      simp only [Except.bind]
      by_cases h : t.pointtype[k] = 3
      · rw [if_pos h]
        rw [h] at hget
        obtain ⟨i, x, h1, h2⟩ := ht.known k hget
        rw [vecGet_nat' h1]
        dsimp only
        rw [h2]
        exact ⟨x, ⟨k, hget, i, h1, h2⟩, rfl⟩
      · rw [if_neg h]
        refine ih (fun l hl => h3 l (List.mem_cons_of_mem _ hl)) ⟨j, ?_, hj3⟩
        refine (List.mem_cons.1 hj).resolve_left ?_
        rintro rfl
        rw [hget] at hj3
        exact h (Option.some.inj hj3)
  refine main [0, 1, 2] (by simp) ?_
  obtain ⟨k, hk⟩ := List.getElem?_of_mem ht.point
  have hlt : k < 3 := by
    have := (List.getElem?_eq_some_iff.1 hk).1
    rw [ht.three] at this
    exact this
  exact ⟨k, by simp; omega, hk⟩

/-- The first edge. -/
theorem spokeZero_ok (h : Ready f w) {ll : Nat} (hl : EndAt f w 0 ll) {st : St} (hs : SameIdx f.base st.out) :
    spokeStep f 0 (posOf Edge.index f.base.edges (edgeNo f 0)) ll st = .ok { st with
      out := { st.out with
        verts := applyOps Vert.index [vOp f w 0] st.out.verts
        surfs := applyOps Surf.index
          [(f.face.index, fun x => { x with edgeind := [f.e0 + 1, f.e0 + (f.n : Int), edgeNo f 0] })] st.out.surfs }
      tmp := { st.tmp with edges := st.tmp.edges ++ [spoke f w 0] } } := by
  have h3' := h.three
  obtain ⟨x, hx, h2, h3, h4⟩ := h.readEdge (k := 0) (by omega)
  obtain ⟨y, hy, h5, h6, _⟩ := hl
  have : y = x := inj_of_nodup h.sound.unique.edges hy hx (h5.trans h2.symm)
  subst this
  unfold spokeStep
  rw [h4]
  simp only [Except.bind]
  rw [vecGet_nat' h6]
  dsimp only
  rw [modAt_base hs.verts h.sound.unique.verts (h.hasVert (by omega))]
  dsimp only
  simp only [if_true]
  rw [h.sub, modAt_base hs.surfs h.sound.unique.surfs ⟨_, h.face, rfl⟩, h2]
  rfl

theorem fanLoop_all (h : Ready f w) {ll : Nat} (hl : EndAt f w 0 ll) {st : St} (hs : SameIdx f.base st.out) :
    fanLoop f 0 ll (subsFrom f 0 f.n) st = .ok { st with
      out := { st.out with
        verts := applyOps Vert.index ((List.range f.n).map (vOp f w)) st.out.verts
        edges := applyOps Edge.index ((List.range' 1 (f.n - 1)).map (eOp f)) st.out.edges
        surfs := applyOps Surf.index
          [(f.face.index, fun x => { x with edgeind := [f.e0 + 1, f.e0 + (f.n : Int), edgeNo f 0] })] st.out.surfs
        volus := applyOps Volu.index ((List.range' 1 (f.n - 1)).flatMap (cOps f)) st.out.volus }
      tmp := { st.tmp with
        edges := st.tmp.edges ++ (List.range f.n).map (spoke f w)
        surfs := st.tmp.surfs ++ (List.range' 1 (f.n - 1)).map (tri f) } } := by
  have h3 := h.three
  obtain ⟨len, hlen⟩ : ∃ len, f.n = len + 1 + 1 := ⟨f.n - 2, by omega⟩
  obtain ⟨ll', h1, h2⟩ := nextEnd_ok h (k := 0) (by omega) hl
  have e1 : subsFrom f 0 f.n = posOf Edge.index f.base.edges (edgeNo f 0) :: subsFrom f 1 (len + 1) := by
    rw [hlen]
    simp [subsFrom, List.range'_succ]
  have e2 : subsFrom f 1 (len + 1) = posOf Edge.index f.base.edges (edgeNo f 1) :: subsFrom f 2 len := by
    simp [subsFrom, List.range'_succ]
  rw [e1]
  unfold fanLoop
  rw [spokeZero_ok h hl hs]
  simp only [Except.bind]
  rw [e2]
  dsimp only
  rw [h1]
  dsimp only
  rw [← e2, fanLoop_ok h len 1 ll' _ (by omega) (by omega) h2]
  · have hr : List.range f.n = [0] ++ List.range' 1 (f.n - 1) := by
      rw [hlen, List.range_eq_range', List.range'_succ]
      rfl
    rw [hr, List.map_append, List.map_append, applyOps_append]
    have : f.n - 1 = len + 1 := by omega
    rw [this]
    unfold after
    simp
  · refine ⟨(applyOps_index ?_ _).trans hs.verts, hs.edges, (applyOps_index ?_ _).trans hs.surfs, hs.volus⟩
    · intro o ho x
      rw [List.mem_singleton] at ho
      subst ho
      rfl
    · intro o ho x
      rw [List.mem_singleton] at ho
      subst ho
      rfl

end RSVS.FaceFan
