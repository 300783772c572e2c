import Verif.Spec.DesignVars
import Verif.Lemmas.Mesh
import Verif.Lemmas.MeshDetach
import Verif.Props.Mesh

/-!
# Properties of the design variables: C88, C89
-/

namespace RSVS.Props

open RSVS.Spec RSVS.Mesh RSVS.Calc

variable {K : Type}

/-! ### C88 -/

private theorem isearch_eq {α : Type} {ix : α → Int} {l : List α} (hn : (l.map ix).Nodup) {a : α} (ha : a ∈ l) :
    isearch ix l (ix a) = .ok a := by
  obtain ⟨x, hx, h1, h2⟩ := elemAt_posOf_ok (ix := ix) (l := l) (k := ix a) ⟨a, ha, rfl⟩
  rw [inj_of_nodup hn h1 ha h2] at hx
  exact hx

private theorem neighFrozen_eq {snaxs : List (DvSnax K)} {conn : Mesh} (hs : Sound conn) (h2 : TwoVerts conn)
    (hl : snaxs.map DvSnax.index = conn.verts.map Vert.index) : ∀ l : List Int, (∀ e ∈ l, HasEdge conn e) →
    ∃ b, neighFrozen snaxs conn l = .ok b ∧ (b = true ↔ ∀ e ∈ l, ∀ ed ∈ conn.edges, ed.index = e → ∀ v ∈ ed.vertind,
      ∀ s ∈ snaxs, s.index = v → s.isfreeze = true)
  | [], _ => ⟨true, rfl, by simp⟩
  | e :: l, h => by
    have hn : (snaxs.map DvSnax.index).Nodup := hl ▸ hs.unique.verts
    obtain ⟨ed, hed, rfl⟩ := h e (by simp)
    obtain ⟨b, hb, hb'⟩ := neighFrozen_eq hs h2 hl l fun x hx => h x (by simp [hx])
    have hlen := h2 ed hed
    match hv : ed.vertind, hlen with
    | [v0, v1], _ =>
      have hsnax : ∀ v ∈ ed.vertind, ∃ s ∈ snaxs, s.index = v := by
        intro v hv'
        have hev : EdgeVert conn ed.index v := ⟨ed, hed, rfl, hv'⟩
        have hz : v ≠ 0 := by rintro rfl; exact hs.zeroOutside.edgeVert _ hev
        obtain ⟨x, hx, rfl⟩ := hs.noDangling.edgeVert _ _ hev hz
        have : x.index ∈ snaxs.map DvSnax.index := hl ▸ List.mem_map.mpr ⟨x, hx, rfl⟩
        simpa using this
      obtain ⟨s0, hs0, rfl⟩ := hsnax v0 (by simp [hv])
      obtain ⟨s1, hs1, rfl⟩ := hsnax v1 (by simp [hv])
      refine ⟨s0.isfreeze && s1.isfreeze && b, ?_, ?_⟩
      · unfold neighFrozen
        rw [isearch_eq hs.unique.edges hed]
        simp only [Except.bind, hv]
        rw [show vecGet [s0.index, s1.index] 0 = .ok s0.index from rfl,
          show vecGet [s0.index, s1.index] 1 = .ok s1.index from rfl]
        simp only
        rw [isearch_eq hn hs0, isearch_eq hn hs1, hb]
        simp only
        cases s0.isfreeze <;> cases s1.isfreeze <;> simp
      · simp only [Bool.and_eq_true, hb']
        constructor
        · rintro ⟨⟨h0, h1⟩, h3⟩ e he ed' hed' rfl v hv' s hs' rfl
          rcases List.mem_cons.mp he with he | he
          · have := inj_of_nodup hs.unique.edges hed' hed he
            subst this
            rw [hv] at hv'
            rcases List.mem_cons.mp hv' with hv' | hv'
            · rw [inj_of_nodup hn hs' hs0 hv']; exact h0
            · rw [List.mem_singleton] at hv'
              rw [inj_of_nodup hn hs' hs1 hv']; exact h1
          · exact h3 _ he ed' hed' rfl _ hv' s hs' rfl
        · intro h3
          exact ⟨⟨h3 _ (by simp) ed hed rfl _ (by simp [hv]) s0 hs0 rfl,
            h3 _ (by simp) ed hed rfl _ (by simp [hv]) s1 hs1 rfl⟩, fun e he => h3 e (by simp [he])⟩

private theorem dvList_eq {snaxs : List (DvSnax K)} {conn : Mesh} (hs : Sound conn) (h2 : TwoVerts conn)
    (hl : snaxs.map DvSnax.index = conn.verts.map Vert.index) : ∀ (l : List (DvSnax K)) (ii : Nat), snaxs.drop ii = l →
    ∃ r, dvList snaxs conn ii l = .ok r ∧ ∀ x, x ∈ r ↔ ∃ s ∈ l, s.index = x ∧ CanMove snaxs conn s
  | [], _, _ => ⟨[], rfl, by simp⟩
  | s :: l, ii, hd => by
    have hs' : snaxs[ii]? = some s := by
      have := congrArg (fun l : List (DvSnax K) => l[0]?) hd
      simpa using this
    have hd' : snaxs.drop (ii + 1) = l := by
      have := congrArg List.tail hd
      simpa using this
    obtain ⟨r, hr, hr'⟩ := dvList_eq hs h2 hl l (ii + 1) hd'
    have hc : ∃ c, (if s.isfreeze = false then .ok true else dvCond snaxs conn ii) = .ok c ∧
        (c = true ↔ CanMove snaxs conn s) := by
      by_cases hf : s.isfreeze = false
      · exact ⟨true, by rw [if_pos hf], by simp [CanMove, hf]⟩
      · have hv : ∃ v, conn.verts[ii]? = some v ∧ v.index = s.index := by
          have := congrArg (fun l : List Int => l[ii]?) hl
          simp only [List.getElem?_map, hs', Option.map_some] at this
          obtain ⟨v, h3, h4⟩ := Option.map_eq_some_iff.mp this.symm
          exact ⟨v, h3, h4⟩
        obtain ⟨v, hv, hvi⟩ := hv
        have hvm : v ∈ conn.verts := List.mem_of_getElem? hv
        obtain ⟨b, hb, hb'⟩ := neighFrozen_eq hs h2 hl v.edgeind fun e he => by
          have hve : VertEdge conn v.index e := ⟨v, hvm, rfl, he⟩
          exact hs.noDangling.vertEdge _ _ hve (by rintro rfl; exact hs.zeroOutside.vertEdge _ hve)
        refine ⟨!b, ?_, ?_⟩
        · rw [if_neg hf]
          unfold dvCond elemAt
          rw [if_neg (by omega), Int.toNat_natCast, hv]
          simp only [Except.bind, hb, Except.map]
        · rw [Bool.not_eq_true', ← Bool.not_eq_true, hb']
          unfold CanMove OnOneEdge
          constructor
          · intro h
            right
            by_contra hno
            apply h
            intro e he ed hed hedi w hw t ht hti
            by_contra hfz
            refine hno ⟨t, ht, by simpa using hfz, ed, hed, ?_, hti ▸ hw⟩
            have hve : VertEdge conn v.index ed.index := ⟨v, hvm, rfl, hedi ▸ he⟩
            obtain ⟨ed', h4, h5, h6⟩ := (hs.sym.vertEdge _ _ ⟨v, hvm, rfl⟩ ⟨ed, hed, rfl⟩).mp hve
            rw [inj_of_nodup hs.unique.edges h4 hed h5, hvi] at h6
            exact h6
          · rintro (h | ⟨t, ht, htf, ed, hed, h4, h5⟩) hall
            · exact hf h
            · have hev : EdgeVert conn ed.index v.index := ⟨ed, hed, rfl, hvi ▸ h4⟩
              obtain ⟨v', h6, h7, h8⟩ := (hs.sym.vertEdge _ _ ⟨v, hvm, rfl⟩ ⟨ed, hed, rfl⟩).mpr hev
              rw [inj_of_nodup hs.unique.verts h6 hvm h7] at h8
              have := hall _ h8 ed hed rfl _ h5 t ht rfl
              rw [htf] at this; cases this
    obtain ⟨c, hc, hc'⟩ := hc
    refine ⟨if c then s.index :: r else r, ?_, fun x => ?_⟩
    · unfold dvList
      rw [hc, hr]
      rfl
    · by_cases h : c = true
      · rw [if_pos h, List.mem_cons, hr']
        have := hc'.mp h
        constructor
        · rintro (rfl | ⟨t, ht, h1⟩)
          · exact ⟨s, by simp, rfl, this⟩
          · exact ⟨t, by simp [ht], h1⟩
        · rintro ⟨t, ht, h1, h3⟩
          rcases List.mem_cons.mp ht with rfl | ht
          · exact .inl h1.symm
          · exact .inr ⟨t, ht, h1, h3⟩
      · rw [if_neg h, hr']
        constructor
        · rintro ⟨t, ht, h1⟩; exact ⟨t, by simp [ht], h1⟩
        · rintro ⟨t, ht, h1, h3⟩
          rcases List.mem_cons.mp ht with rfl | ht
          · exact absurd (hc'.mpr h3) h
          · exact ⟨t, ht, h1, h3⟩

/-- C88: the design variables are the free snaxels and those next to a free one, each of them once and in order of
their indices. -/
theorem C88_variables {snaxs : List (DvSnax K)} {conn : Mesh} (hs : Sound conn) (h2 : TwoVerts conn)
    (hl : snaxs.map DvSnax.index = conn.verts.map Vert.index) :
    ∃ vec, dvMap snaxs conn = .ok vec ∧ vec.Pairwise (· < ·) ∧
      ∀ x, x ∈ vec ↔ ∃ s ∈ snaxs, s.index = x ∧ CanMove snaxs conn s := by
  obtain ⟨r, hr, hr'⟩ := dvList_eq hs h2 hl snaxs 0 rfl
  refine ⟨sortUnique r, by unfold dvMap; rw [hr]; rfl, sortUnique_strict r, fun x => ?_⟩
  rw [mem_sortUnique, hr']

private theorem posOf_id {vec : List Int} {x : Int} : (posOf id vec x = -1 ∧ x ∉ vec) ∨
    ∃ k : Nat, posOf id vec x = k ∧ vec[k]? = some x := by
  unfold posOf
  cases h : vec.findIdx? fun a => id a == x with
  | none =>
    left
    rw [List.findIdx?_eq_none_iff] at h
    exact ⟨rfl, fun hx => by simpa using h x hx⟩
  | some p =>
    right
    refine ⟨p, rfl, ?_⟩
    obtain ⟨h1, h3, -⟩ := List.findIdx?_eq_some_iff_getElem.mp h
    rw [List.getElem?_eq_getElem h1]
    simpa using h3

private theorem mapM_each {α β : Type} {f : α → Res β} {P : α → β → Prop} : ∀ {l : List α},
    (∀ a ∈ l, ∃ b, f a = .ok b ∧ P a b) → ∃ r, l.mapM (m := Except Fault) f = .ok r ∧ List.Forall₂ P l r
  | [], _ => ⟨[], rfl, .nil⟩
  | a :: l, h => by
    obtain ⟨b, hb, hp⟩ := h a (by simp)
    obtain ⟨r, hr, hf⟩ := mapM_each (f := f) (P := P) (l := l) fun x hx => h x (by simp [hx])
    refine ⟨b :: r, ?_, .cons hp hf⟩
    rw [List.mapM_cons, hb]
    change (l.mapM (m := Except Fault) f).bind _ = _
    rw [hr]
    rfl

private theorem vecGet_some {α : Type} {l : List α} {k : Nat} {a : α} (h : l[k]? = some a) : vecGet l (k : Int) = .ok a := by
  unfold vecGet
  rw [if_neg (by omega), Int.toNat_natCast, h]

/-- C88: every variable gets its own step as velocity, the other snaxels stand still; nothing else changes. -/
theorem C88_velocities [Zero K] {vec : List Int} {delta : List K} (hd : delta.length = vec.length) (hn : vec.Nodup)
    (snaxs : List (DvSnax K)) : ∃ r, returnVelocities vec delta snaxs = .ok r ∧
      List.Forall₂ (fun s s' => s'.index = s.index ∧ s'.isfreeze = s.isfreeze ∧
        (∀ k : Nat, vec[k]? = some s.index → delta[k]? = some s'.v) ∧ (s.index ∉ vec → s'.v = 0)) snaxs r := by
  unfold returnVelocities
  apply mapM_each
  intro s _
  simp only
  rcases posOf_id (vec := vec) (x := s.index) with ⟨h1, h3⟩ | ⟨k, h1, h3⟩
  · rw [h1, if_neg (by simp)]
    refine ⟨_, rfl, rfl, rfl, fun k hk => absurd (List.mem_of_getElem? hk) h3, fun _ => rfl⟩
  · rw [h1, if_pos (by omega)]
    obtain ⟨hk, -⟩ := List.getElem?_eq_some_iff.mp h3
    have h4 : delta[k]? = some delta[k] := List.getElem?_eq_getElem (by omega)
    rw [vecGet_some h4]
    refine ⟨_, rfl, rfl, rfl, fun j hj => ?_, fun h => absurd (List.mem_of_getElem? h3) h⟩
    obtain ⟨hj1, hj2⟩ := List.getElem?_eq_some_iff.mp hj
    obtain ⟨hk1, hk2⟩ := List.getElem?_eq_some_iff.mp h3
    have : j = k := (List.Nodup.getElem_inj_iff hn (hi := hj1) (hj := hk1)).mp (by rw [hj2, hk2])
    subst this
    exact h4

/-- Four snaxels on two edges; only the first is free. -/
def fourSnaxs : List (DvSnax ℚ) := [⟨1, false, 0⟩, ⟨2, true, 5⟩, ⟨3, true, 6⟩, ⟨4, true, 7⟩]

example : dvMap fourSnaxs twoEdges = .ok [1, 2] := by decide +kernel
example : returnVelocities [1, 2] [3, 4] fourSnaxs =
    .ok [⟨1, false, 3⟩, ⟨2, true, 4⟩, ⟨3, true, 0⟩, ⟨4, true, 0⟩] := by decide +kernel

/-! ### C89 -/

private theorem lagSum_eq [Zero K] [Add K] [Mul K] {p : Nat} : ∀ {l : List K} {m : List (List K)}, l.length = m.length →
    (∀ r ∈ m, p < r.length) → ∃ ys, List.Forall₂ (fun r z => r[p]? = some z) m ys ∧
      lagSum (p : Int) l m = .ok ((List.zipWith (· * ·) l ys).foldr (· + ·) 0)
  | [], [], _, _ => ⟨[], .nil, rfl⟩
  | a :: l, r :: m, h, hr => by
    obtain ⟨ys, h1, h2⟩ := lagSum_eq (p := p) (l := l) (m := m) (by simpa using h) fun x hx => hr x (by simp [hx])
    have h3 : r[p]? = some (r[p]'(hr r (by simp))) := List.getElem?_eq_getElem _
    refine ⟨_, .cons h3 h1, ?_⟩
    unfold lagSum
    rw [vecGet_some h3]
    simp only [Except.bind, h2]
    rfl

private theorem row_some {m : List (List K)} {n a : Nat} (h : m.length = n ∧ ∀ r ∈ m, r.length = a) {i j : Nat}
    (hi : i < n) (hj : j < a) : ∃ r x, m[i]? = some r ∧ r[j]? = some x ∧ matGet m (i : Int) (j : Int) = .ok x := by
  have h1 : m[i]? = some (m[i]'(by omega)) := List.getElem?_eq_getElem _
  have hl := h.2 _ (List.getElem_mem (l := m) (n := i) (by omega))
  have h2 : (m[i]'(by omega))[j]? = some ((m[i]'(by omega))[j]'(by omega)) := List.getElem?_eq_getElem _
  refine ⟨_, _, h1, h2, ?_⟩
  unfold matGet
  rw [vecGet_some h1]
  exact vecGet_some h2

private theorem gradEntry_eq [Zero K] [Add K] [Mul K] {A : Arrays K} (hA : Sized A) (hf : A.full = true) {c : Int}
    (h1 : c < A.nConstr) (h2 : -6 ≤ c) {p : Nat} (hp : p < A.nDv) : ∃ x, gradEntry A c p = .ok x ∧ IsEntry A p c x := by
  have hobj : A.dObj[p]? = some (A.dObj[p]'(by rw [hA.dObj]; exact hp)) := List.getElem?_eq_getElem _
  by_cases c6 : c = -6
  · subst c6
    exact ⟨_, vecGet_some hobj, .obj hobj⟩
  by_cases c5 : c = -5
  · subst c5
    obtain ⟨ys, h3, h4⟩ := lagSum_eq (p := p) (l := A.lagMult) (m := A.dConstr) (by rw [hA.lagMult, hA.dConstr.1])
      fun r hr => by rw [hA.dConstr.2 r hr]; exact hp
    refine ⟨_, ?_, .lag hobj h3⟩
    unfold gradEntry
    rw [if_neg c6, if_pos rfl, vecGet_some hobj]
    simp only [Except.bind, h4]
    rfl
  by_cases c4 : c = -4
  · subst c4
    obtain ⟨r, x, h3, h4, h5⟩ := row_some hA.HObj hp hp
    refine ⟨x, ?_, .hObj h3 h4⟩
    unfold gradEntry
    rw [if_neg c6, if_neg c5, if_pos rfl, if_pos hf, h5]
  by_cases c3 : c = -3
  · subst c3
    obtain ⟨r, x, h3, h4, h5⟩ := row_some hA.HConstr hp hp
    refine ⟨x, ?_, .hConstr h3 h4⟩
    unfold gradEntry
    rw [if_neg c6, if_neg c5, if_neg c4, if_pos rfl, if_pos hf, h5]
  by_cases c2 : c = -2
  · subst c2
    obtain ⟨r, x, h3, h4, h5⟩ := row_some hA.HConstr hp hp
    obtain ⟨r', x', h3', h4', h5'⟩ := row_some hA.HObj hp hp
    refine ⟨_, ?_, .both h3 h4 h3' h4'⟩
    unfold gradEntry
    rw [if_neg c6, if_neg c5, if_neg c4, if_neg c3, if_pos rfl, if_pos hf, h5, h5']
    rfl
  by_cases c1 : c = -1
  · subst c1
    have h3 : A.deltaDV[p]? = some (A.deltaDV[p]'(by rw [hA.deltaDV]; exact hp)) := List.getElem?_eq_getElem _
    refine ⟨_, ?_, .step h3⟩
    unfold gradEntry
    rw [if_neg c6, if_neg c5, if_neg c4, if_neg c3, if_neg c2, if_pos rfl, vecGet_some h3]
  obtain ⟨k, rfl⟩ := Int.eq_ofNat_of_zero_le (show 0 ≤ c by omega)
  obtain ⟨r, x, h3, h4, h5⟩ := row_some hA.dConstr (i := k) (by omega) hp
  refine ⟨x, ?_, .constr h3 h4⟩
  unfold gradEntry
  rw [if_neg c6, if_neg c5, if_neg c4, if_neg c3, if_neg c2, if_neg c1, h5]

/-- C89 (partial): with dense matrices every snaxel gets the scaled derivative of its own variable, and the scaled 0 if it is
no variable.

Missing: sparse matrices, see `C89_violated`. -/
theorem C89_gradient_partial [Zero K] [Add K] [Mul K] (scale : K → K) {A : Arrays K} (hA : Sized A)
    (hf : A.nDv < A.cutoff) {vec : List Int} (hv : vec.length = A.nDv) (snaxs : List (DvSnax K)) {c : Int}
    (h1 : c < A.nConstr) (h2 : -6 ≤ c) :
    ∃ r, returnGradient scale A vec snaxs c = .ok r ∧
      List.Forall₂ (fun s x => (∃ (k : Nat) (y : K), vec[k]? = some s.index ∧ IsEntry A k c y ∧ x = scale y) ∨
        (s.index ∉ vec ∧ x = scale 0)) snaxs r := by
  have hf' : A.full = true := by simpa [Arrays.full] using hf
  unfold returnGradient
  rw [if_neg (by omega), if_neg (by simp [hf'])]
  apply mapM_each
  intro s _
  simp only
  rcases posOf_id (vec := vec) (x := s.index) with ⟨h3, h4⟩ | ⟨k, h3, h4⟩
  · rw [h3, if_neg (by simp)]
    exact ⟨_, rfl, .inr ⟨h4, rfl⟩⟩
  · rw [h3, if_pos (by omega)]
    obtain ⟨hk, -⟩ := List.getElem?_eq_some_iff.mp h4
    obtain ⟨x, h5, h6⟩ := gradEntry_eq hA hf' h1 h2 (p := k) (by omega)
    rw [h5]
    exact ⟨_, rfl, .inl ⟨k, x, h4, h6, rfl⟩⟩

/-- C89: other numbers throw. -/
theorem C89_range [Zero K] [Add K] [Mul K] (scale : K → K) (A : Arrays K) (vec : List Int) (snaxs : List (DvSnax K))
    {c : Int} (h : c < -6 ∨ A.nConstr ≤ c) : returnGradient scale A vec snaxs c = .error .throws := by
  unfold returnGradient
  rw [if_pos (by omega)]

/-- C89: the arrays have their sizes after `BuildMathArrays` with few variables. -/
theorem C89_sized [Zero K] (A : Arrays K) {n m : Nat} (h : n < A.cutoff) : Sized (A.build n m) := by
  have hf : (decide (n < A.cutoff)) = true := by simpa using h
  have hl : (if m ≠ A.lagMult.length then List.replicate m (0 : K) else A.lagMult).length = m := by
    split
    · simp
    · rename_i h; simpa using Eq.symm (Classical.not_not.mp h)
  unfold Arrays.build Arrays.full
  simp only [hf, if_true]
  exact ⟨by simp, by simp, hl, by simp +contextual, by simp +contextual, by simp +contextual⟩

/-- The arrays after a number of iterations, with the numbers of variables and constraints of each of them. -/
def builds [Zero K] (A : Arrays K) (l : List (Nat × Nat)) : Arrays K := l.foldl (fun A x => A.build x.1 x.2) A

private theorem build_narrow [Zero K] {A : Arrays K} (h : ∀ r ∈ A.dConstr, r.length < A.cutoff) (n m : Nat) :
    (A.build n m).cutoff = A.cutoff ∧ ∀ r ∈ (A.build n m).dConstr, r.length < A.cutoff := by
  unfold Arrays.build Arrays.full
  simp only
  by_cases hn : n < A.cutoff
  · simp only [hn, decide_true, if_true]
    refine ⟨trivial, fun r hr => ?_⟩
    rw [(List.mem_replicate.mp hr).2, List.length_replicate]
    exact hn
  · simp only [hn, decide_false, Bool.false_eq_true, if_false]
    exact ⟨trivial, h⟩

/-- C89 (violated): after any iterations, with many variables the gradient of no constraint can be read: the dense matrix,
which is not that of this iteration, has no column for the last variable. -/
theorem C89_violated [Zero K] [Add K] [Mul K] (scale : K → K) (A : Arrays K) (hA : A.dConstr = [])
    (l : List (Nat × Nat)) {n m : Nat} (hn : A.cutoff ≤ n) {vec : List Int} (hv : vec.length = n) (hnd : vec.Nodup)
    {s : DvSnax K} (hs : vec.getLast? = some s.index) {c : Int} (h0 : 0 ≤ c) (hc : c < m) :
    returnGradient scale ((builds A l).build n m) vec [s] c = .error .ub := by
  have key : ∀ (l : List (Nat × Nat)) (B : Arrays K), (∀ r ∈ B.dConstr, r.length < B.cutoff) →
      (builds B l).cutoff = B.cutoff ∧ ∀ r ∈ (builds B l).dConstr, r.length < B.cutoff := by
    intro l
    induction l with
    | nil => intro B h; exact ⟨rfl, h⟩
    | cons x l ih =>
      intro B h
      obtain ⟨h1, h2⟩ := build_narrow h x.1 x.2
      obtain ⟨h3, h4⟩ := ih (B.build x.1 x.2) (by rw [h1]; exact h2)
      exact ⟨h3.trans h1, fun r hr => by rw [← h1]; exact h4 r hr⟩
  obtain ⟨hcut, hrow⟩ := key l A (by simp [hA])
  generalize builds A l = B at hcut hrow
  have hfull : (B.build n m).full = false := by
    unfold Arrays.build Arrays.full
    simp only [show ¬ n < B.cutoff by omega, decide_false, Bool.false_eq_true, if_false]
  have hd : (B.build n m).dConstr = B.dConstr := by
    unfold Arrays.build Arrays.full
    simp only [show ¬ n < B.cutoff by omega, decide_false, Bool.false_eq_true, if_false]
  have hm : (B.build n m).nConstr = m := by
    unfold Arrays.build Arrays.full
    simp only [show ¬ n < B.cutoff by omega, decide_false, Bool.false_eq_true, if_false]
  have hlast : vec[n - 1]? = some s.index := by rw [List.getLast?_eq_getElem?, hv] at hs; exact hs
  have hpos : posOf id vec s.index = ((n - 1 : Nat) : Int) := by
    rcases posOf_id (vec := vec) (x := s.index) with ⟨-, h⟩ | ⟨k, h1, h2⟩
    · exact absurd (List.mem_of_getElem? hlast) h
    · obtain ⟨hj1, hj2⟩ := List.getElem?_eq_some_iff.mp h2
      obtain ⟨hk1, hk2⟩ := List.getElem?_eq_some_iff.mp hlast
      have : k = n - 1 := (List.Nodup.getElem_inj_iff hnd (hi := hj1) (hj := hk1)).mp (by rw [hj2, hk2])
      rw [h1, this]
  have hent : gradEntry (B.build n m) c ((n - 1 : Nat) : Int) = .error .ub := by
    unfold gradEntry
    rw [if_neg (by omega), if_neg (by omega), if_neg (by omega), if_neg (by omega), if_neg (by omega), if_neg (by omega), hd]
    unfold matGet vecGet
    rw [if_neg (by omega)]
    cases hr : B.dConstr[c.toNat]? with
    | none => rfl
    | some r =>
      have := hrow r (List.mem_of_getElem? hr)
      simp only [Except.bind]
      rw [if_neg (by omega), Int.toNat_natCast, List.getElem?_eq_none (by omega)]
  unfold returnGradient
  rw [if_neg (by rw [hm]; omega), if_neg (by omega), List.mapM_cons]
  simp only
  rw [hpos, if_pos (by omega), hent]
  rfl

example : returnGradient (K := ℚ) id
    ⟨2, 1, 3, [1, 2], [3], [0, 0], [[5, 7]], [[1, 0], [0, 1]], [[0, 0], [0, 0]], .empty 2 2, .empty 2 2⟩
    [1, 2] fourSnaxs (-5) = .ok [16, 23, 0, 0] := by decide +kernel

end RSVS.Props
