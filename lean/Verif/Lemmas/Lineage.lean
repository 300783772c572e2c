import Verif.Spec.Lineage
import Verif.Lemmas.MeshDetach
import Mathlib.Logic.Function.Iterate

/-!
# Helper lemmas on the family of a mesh
-/

namespace RSVS.Lineage

open RSVS.Mesh RSVS.Spec

theorem put_same (f : Fam) (p : Nat) (n : Option Node) : put f p n p = n := by simp [put]

theorem put_other (f : Fam) {p q : Nat} (n : Option Node) (h : q ≠ p) : put f p n q = f q := by simp [put, h]

theorem modify_eq {f : Fam} {p : Nat} {n : Node} (h : f p = some n) (g : Node → Node) :
    modify f p g = .ok (put f p (some (g n))) := by
  simp [modify, deref, h, Except.map]

theorem count_eraseChild_ne {x y : Nat} (h : y ≠ x) : ∀ l : List Nat, (eraseChild x l).count y = l.count y
  | [] => rfl
  | [a] => by
    unfold eraseChild
    split
    · next e => subst e; simp [Ne.symm h]
    · rfl
  | a :: b :: l => by
    unfold eraseChild
    split
    · next e =>
      subst e
      have := count_eraseChild_ne h l
      simp [List.count_cons, this, Ne.symm h]
    · have := count_eraseChild_ne h (b :: l)
      rw [List.count_cons, this, List.count_cons (l := b :: l)]

theorem count_eraseChild_le (x : Nat) : ∀ l : List Nat, (eraseChild x l).count x ≤ l.count x - 1
  | [] => by simp [eraseChild]
  | [a] => by
    unfold eraseChild
    split
    · simp
    · next h => simp [h]
  | a :: b :: l => by
    unfold eraseChild
    split
    · next e =>
      subst e
      have := count_eraseChild_le a l
      rw [List.count_cons, List.count_cons (l := b :: l), List.count_cons (l := l)]
      simp only [beq_self_eq_true, if_true]
      omega
    · next e =>
      have := count_eraseChild_le x (b :: l)
      rw [List.count_cons, List.count_cons (l := b :: l)]
      simp only [beq_iff_eq, e, if_false]
      omega

theorem count_iter_ne {x y : Nat} (h : y ≠ x) (k : Nat) (l : List Nat) :
    ((eraseChild x)^[k] l).count y = l.count y := by
  induction k generalizing l with
  | zero => rfl
  | succ k ih => rw [Function.iterate_succ_apply, ih, count_eraseChild_ne h]

theorem count_iter_le (x : Nat) (k : Nat) (l : List Nat) :
    ((eraseChild x)^[k] l).count x ≤ l.count x - k := by
  induction k generalizing l with
  | zero => simp
  | succ k ih =>
    rw [Function.iterate_succ_apply]
    have := ih (eraseChild x l)
    have := count_eraseChild_le x l
    omega

/-- The first loop of `leaveFamily`. -/
theorem leave_parents (x : Nat) : ∀ (ps : List Nat) (f : Fam), (∀ p ∈ ps, ∃ n, f p = some n) →
    ps.foldlM (m := Except Fault) (fun f p => modify f p fun m => { m with childmesh := eraseChild x m.childmesh }) f =
      .ok fun q => (f q).map fun n => { n with childmesh := (eraseChild x)^[ps.count q] n.childmesh }
  | [], f, _ => by
    simp only [List.foldlM_nil, List.count_nil, Function.iterate_zero, id_eq]
    congr 1
    funext q
    simp
  | p :: ps, f, h => by
    obtain ⟨n, hn⟩ := h p List.mem_cons_self
    rw [List.foldlM_cons, modify_eq hn]
    show List.foldlM (m := Except Fault) _ _ ps = _
    rw [leave_parents x ps]
    · congr 1
      funext q
      by_cases e : q = p
      · subst e
        simp [put_same, hn]
      · simp [put_other _ _ e, Ne.symm e]
    · intro q hq
      by_cases e : q = p
      · exact ⟨_, by rw [e, put_same]⟩
      · rw [put_other _ _ e]
        exact h q (List.mem_cons_of_mem _ hq)

/-- The second loop of `leaveFamily`. -/
theorem leave_children (x : Nat) : ∀ (cs : List Nat) (f : Fam), (∀ c ∈ cs, ∃ n, f c = some n) →
    cs.foldlM (m := Except Fault) (fun f c => modify f c (dropParent x)) f =
      .ok fun q => (f q).map fun n => (dropParent x)^[cs.count q] n
  | [], f, _ => by
    simp only [List.foldlM_nil, List.count_nil, Function.iterate_zero, id_eq]
    congr 1
    funext q
    simp
  | p :: ps, f, h => by
    obtain ⟨n, hn⟩ := h p List.mem_cons_self
    rw [List.foldlM_cons, modify_eq hn]
    show List.foldlM (m := Except Fault) _ _ ps = _
    rw [leave_children x ps]
    · congr 1
      funext q
      by_cases e : q = p
      · subst e
        simp [put_same, hn]
      · simp [put_other _ _ e, Ne.symm e]
    · intro q hq
      by_cases e : q = p
      · exact ⟨_, by rw [e, put_same]⟩
      · rw [put_other _ _ e]
        exact h q (List.mem_cons_of_mem _ hq)

theorem drop_iter (x k : Nat) (n : Node) :
    ((dropParent x)^[k] n).parentmesh = (fun l => l.erase x)^[k] n.parentmesh ∧
    ((dropParent x)^[k] n).childmesh = n.childmesh ∧ ((dropParent x)^[k] n).parentconn = n.parentconn ∧
    ((dropParent x)^[k] n).elems = n.elems ∧ ((dropParent x)^[k] n).elemind = n.elemind ∧
    ((dropParent x)^[k] n).isSet = n.isSet ∧ ((dropParent x)^[k] n).volus = n.volus ∧
    ((dropParent x)^[k] n).nParents =
      if k = 0 then n.nParents else ((fun l => l.erase x)^[k] n.parentmesh).length := by
  induction k generalizing n with
  | zero => simp
  | succ k ih =>
    rw [Function.iterate_succ_apply, Function.iterate_succ_apply]
    obtain ⟨h1, h2, h3, h4, h5, h6, h7, h8⟩ := ih (dropParent x n)
    refine ⟨h1, h2, h3, h4, h5, h6, h7, ?_⟩
    rw [h8]
    by_cases hk : k = 0
    · subst hk; rfl
    · simp only [hk, if_false, Nat.succ_ne_zero]
      rfl

theorem erase_iter_count (x k : Nat) (l : List Nat) :
    ((fun l => l.erase x)^[k] l).count x = l.count x - k ∧
    ∀ y, y ≠ x → ((fun l => l.erase x)^[k] l).count y = l.count y := by
  induction k generalizing l with
  | zero => simp
  | succ k ih =>
    rw [Function.iterate_succ_apply]
    obtain ⟨h1, h2⟩ := ih (l.erase x)
    refine ⟨?_, fun y hy => ?_⟩
    · rw [h1, List.count_erase_self]; omega
    · rw [h2 y hy, List.count_erase_of_ne hy]

/-- The node of another mesh after `x` left. -/
def leftNode (x : Nat) (nx : Node) (q : Nat) (n : Node) : Node :=
  (dropParent x)^[((eraseChild x)^[nx.parentmesh.count x] nx.childmesh).count q]
    { n with childmesh := (eraseChild x)^[nx.parentmesh.count q] n.childmesh }

theorem leave_eq {f : Fam} {x : Nat} {nx : Node} (hx : f x = some nx) (hg : NoneGone f) :
    leaveFamily f x = .ok fun q => (f q).map (leftNode x nx q) := by
  unfold leaveFamily
  simp only [deref, hx, Except.bind]
  rw [leave_parents x nx.parentmesh f (fun p hp => hg x nx hx p (Or.inl hp))]
  simp only [hx, Option.map_some]
  rw [leave_children]
  · congr 1
    funext q
    rw [Option.map_map]
    rfl
  · intro c hc
    have : c ∈ nx.childmesh := by
      have h0 := List.count_pos_iff.mpr hc
      by_cases e : c = x
      · subst e
        have := count_iter_le c (nx.parentmesh.count c) nx.childmesh
        exact List.count_pos_iff.mp (by omega)
      · rw [count_iter_ne e] at h0
        exact List.count_pos_iff.mp h0
    obtain ⟨m, hm⟩ := hg x nx hx c (Or.inr this)
    exact ⟨_, by rw [hm]; rfl⟩

theorem left_counts {f : Fam} {x q : Nat} {nx n : Node} (hx : f x = some nx) (hq : f q = some n) (hqx : q ≠ x)
    (ha : Agree f) :
    (leftNode x nx q n).parentmesh.count x = 0 ∧ (leftNode x nx q n).childmesh.count x = 0 ∧
    ∀ y, y ≠ x → (leftNode x nx q n).parentmesh.count y = n.parentmesh.count y ∧
      (leftNode x nx q n).childmesh.count y = n.childmesh.count y := by
  unfold leftNode
  rw [count_iter_ne hqx]
  obtain ⟨h1, h2, -⟩ := drop_iter x (nx.childmesh.count q)
    { n with childmesh := (eraseChild x)^[nx.parentmesh.count q] n.childmesh }
  rw [h1, h2]
  obtain ⟨h3, h4⟩ := erase_iter_count x (nx.childmesh.count q) n.parentmesh
  refine ⟨?_, ?_, fun y hy => ⟨h4 y hy, count_iter_ne hy _ _⟩⟩
  · show ((fun l => l.erase x)^[nx.childmesh.count q] n.parentmesh).count x = 0
    rw [h3, ha q x n nx hq hx]; omega
  · have := count_iter_le x (nx.parentmesh.count q) n.childmesh
    rw [ha x q nx n hx hq] at this ⊢
    show ((eraseChild x)^[n.childmesh.count x] n.childmesh).count x = 0
    omega

theorem destroy_inv {f : Fam} {x : Nat} {nx : Node} (hx : f x = some nx) (hg : NoneGone f) (ha : Agree f) :
    ∃ f', step f (.destroy x) = .ok f' ∧ NoneGone f' ∧ Agree f' ∧
      f' = put (fun q => (f q).map (leftNode x nx q)) x none := by
  refine ⟨_, by simp only [step, leave_eq hx hg, Except.map], ?_, ?_, rfl⟩
  · intro q n hq y hy
    by_cases e : q = x
    · rw [e, put_same] at hq; cases hq
    rw [put_other _ _ e] at hq
    cases hf : f q with
    | none => rw [hf] at hq; cases hq
    | some n0 =>
      rw [hf] at hq
      obtain rfl : leftNode x nx q n0 = n := by simpa using hq
      obtain ⟨h1, h2, h3⟩ := left_counts hx hf e ha
      have hyx : y ≠ x := by
        rintro rfl
        rcases hy with hy | hy <;> have := List.count_pos_iff.mpr hy <;> omega
      obtain ⟨m, hm⟩ := hg q n0 hf y (by
        rcases hy with hy | hy <;> have := List.count_pos_iff.mpr hy
        · rw [(h3 y hyx).1] at this; exact Or.inl (List.count_pos_iff.mp this)
        · rw [(h3 y hyx).2] at this; exact Or.inr (List.count_pos_iff.mp this))
      exact ⟨_, by rw [put_other _ _ hyx, hm]; rfl⟩
  · intro c p n m hc hp
    by_cases ec : c = x
    · rw [ec, put_same] at hc; cases hc
    by_cases ep : p = x
    · rw [ep, put_same] at hp; cases hp
    rw [put_other _ _ ec] at hc
    rw [put_other _ _ ep] at hp
    cases hfc : f c with
    | none => rw [hfc] at hc; cases hc
    | some n0 =>
      cases hfp : f p with
      | none => rw [hfp] at hp; cases hp
      | some m0 =>
        rw [hfc] at hc
        rw [hfp] at hp
        obtain rfl : leftNode x nx c n0 = n := by simpa using hc
        obtain rfl : leftNode x nx p m0 = m := by simpa using hp
        rw [((left_counts hx hfc ec ha).2.2 p ep).1, ((left_counts hx hfp ep ha).2.2 c ec).2]
        exact ha c p n0 m0 hfc hfp

/-- The links after `p` became a parent of `c`. -/
structure NewLink (f f' : Fam) (c p : Nat) : Prop where
  live : ∀ q, f' q = none ↔ f q = none
  node : ∀ q n', f' q = some n' → ∃ n, f q = some n ∧ n'.elems = n.elems ∧ n'.volus = n.volus ∧
    n'.parentmesh = n.parentmesh ++ (if q = c then [p] else []) ∧
    n'.childmesh = n.childmesh ++ (if q = p then [c] else [])

theorem link_inv {f f' : Fam} {c p : Nat} (h : NewLink f f' c p) (hc : f c ≠ none) (hp : f p ≠ none)
    (hg : NoneGone f) (ha : Agree f) : NoneGone f' ∧ Agree f' := by
  have hlive : ∀ q, (∃ m, f q = some m) → ∃ m, f' q = some m := by
    intro q hq
    cases e : f' q with
    | none => rw [h.live] at e; obtain ⟨m, hm⟩ := hq; rw [e] at hm; cases hm
    | some m => exact ⟨m, rfl⟩
  constructor
  · intro q n' hq y hy
    obtain ⟨n, hn, -, -, e1, e2⟩ := h.node q n' hq
    rw [e1, e2, List.mem_append, List.mem_append] at hy
    apply hlive
    rcases hy with (hy | hy) | (hy | hy)
    · exact hg q n hn y (Or.inl hy)
    · split at hy
      · rw [List.mem_singleton] at hy; subst hy; exact Option.ne_none_iff_exists'.mp hp
      · simp at hy
    · exact hg q n hn y (Or.inr hy)
    · split at hy
      · rw [List.mem_singleton] at hy; subst hy; exact Option.ne_none_iff_exists'.mp hc
      · simp at hy
  · intro a b n' m' h1 h2
    obtain ⟨n, hn, -, -, e1, -⟩ := h.node a n' h1
    obtain ⟨m, hm, -, -, -, e2⟩ := h.node b m' h2
    rw [e1, e2, List.count_append, List.count_append, ha a b n m hn hm]
    congr 1
    by_cases eac : a = c <;> by_cases ebp : b = p <;>
      simp [eac, ebp, Ne.symm]

theorem modify_fun {f : Fam} {p : Nat} {n : Node} (h : f p = some n) (g : Node → Node) :
    modify f p g = .ok fun q => (f q).map (if q = p then g else id) := by
  rw [modify_eq h]
  congr 1
  funext q
  by_cases e : q = p
  · subst e; rw [put_same, h, if_pos rfl]; rfl
  · rw [put_other _ _ e, if_neg e]; simp

/-- A parent with its map. -/
def addMap (p : Nat) (ind : List Int) (n : Node) : Node :=
  { n with parentmesh := n.parentmesh ++ [p], parentconn := n.parentconn ++ [ind],
           nParents := n.parentmesh.length + 1 }

theorem pushParentMap_eq (p : Nat) (ind : List Int) (n : Node) : pushParentMap p ind n =
    if ind.length = n.elemind.length then .ok (addMap p ind n) else .error .throws := by
  unfold pushParentMap
  by_cases h : ind.length = n.elemind.length
  · rw [if_neg (by simpa using h), if_pos h]; rfl
  · rw [if_pos (by simpa using h), if_neg h]

theorem put_fun {f : Fam} {p : Nat} {n n' : Node} (h : f p = some n) (g : Node → Node) (hg : g n = n') :
    put f p (some n') = fun q => (f q).map (if q = p then g else id) := by
  funext q
  by_cases e : q = p
  · subst e; rw [put_same, h, if_pos rfl, ← hg]; rfl
  · rw [put_other _ _ e, if_neg e]; simp

theorem plain_eq {f : Fam} {c p : Nat} (hc : f c ≠ none) (hp : f p ≠ none) :
    addParentPlain f c p = .ok fun q => (f q).map fun n =>
      (if q = p then pushChild c else id) ((if q = c then pushParent p else id) n) := by
  obtain ⟨nc, hc⟩ := Option.ne_none_iff_exists'.mp hc
  obtain ⟨np, hp⟩ := Option.ne_none_iff_exists'.mp hp
  unfold addParentPlain
  rw [modify_fun hc]
  simp only [Except.bind]
  rw [modify_fun (n := (if p = c then pushParent p else id) np) (by rw [hp]; rfl)]
  congr 1
  funext q
  rw [Option.map_map]
  rfl

theorem add_eq {f : Fam} {c p : Nat} {nc : Node} (ind : List Int) (hc : f c = some nc) (hp : f p ≠ none) :
    addParent f c p ind = if ind.length = (setElems nc).elemind.length then
      .ok fun q => (f q).map fun n =>
        (if q = p then pushChild c else id) ((if q = c then addMap p ind ∘ setElems else id) n)
      else .error .throws := by
  obtain ⟨np, hp⟩ := Option.ne_none_iff_exists'.mp hp
  unfold addParent
  rw [modify_fun hc]
  simp only [Except.bind, deref, hc, Option.map_some, if_true]
  rw [pushParentMap_eq]
  by_cases hl : ind.length = (setElems nc).elemind.length
  · rw [if_pos hl, if_pos hl]
    simp only
    rw [put_fun (f := fun q => (f q).map (if q = c then setElems else id)) (n := setElems nc)
      (g := addMap p ind) (by simp [hc]) rfl]
    rw [modify_fun (n := (if p = c then addMap p ind else id) ((if p = c then setElems else id) np))
      (by rw [hp]; rfl)]
    congr 1
    funext q
    rw [Option.map_map, Option.map_map]
    by_cases e : q = c
    · simp only [e, if_true]; rfl
    · simp only [e, if_false]; rfl
  · rw [if_neg hl, if_neg hl]

theorem child_eq {f : Fam} {c p : Nat} {nc : Node} (ind : List Int) (hc : f c = some nc) (hp : f p ≠ none) :
    addChild f p c ind =
      if ind.length = ((if c = p then setElems else id) nc).elemind.length then
      .ok fun q => (f q).map fun n => (if q = c then addMap p ind else id)
        ((if q = p then pushChild c ∘ setElems else id) n)
      else .error .throws := by
  obtain ⟨np, hp⟩ := Option.ne_none_iff_exists'.mp hp
  unfold addChild
  rw [modify_fun hp]
  simp only [Except.bind]
  rw [modify_fun (n := setElems np) (by rw [hp]; simp)]
  have hn : ∀ n : Node, (if c = p then pushChild c else id) ((if c = p then setElems else id) n) =
      (if c = p then pushChild c ∘ setElems else id) n := by
    intro n; split <;> rfl
  simp only [deref, hc, Option.map_some, hn]
  rw [pushParentMap_eq]
  have he : ((if c = p then pushChild c ∘ setElems else id) nc).elemind =
      ((if c = p then setElems else id) nc).elemind := by split <;> rfl
  rw [he]
  by_cases hl : ind.length = ((if c = p then setElems else id) nc).elemind.length
  · rw [if_pos hl, if_pos hl]
    simp only [Except.map]
    rw [put_fun (f := fun q => ((f q).map (if q = p then setElems else id)).map (if q = p then pushChild c else id))
      (n := (if c = p then pushChild c ∘ setElems else id) nc) (g := addMap p ind)
      (by simp only [hc, Option.map_some, hn]) rfl]
    congr 1
    funext q
    rw [Option.map_map, Option.map_map]
    by_cases e : q = p
    · simp only [e, if_true]; rfl
    · simp only [e, if_false]; rfl
  · rw [if_neg hl, if_neg hl]; rfl

theorem setElems_same (n : Node) : (setElems n).elems = n.elems ∧ (setElems n).volus = n.volus ∧
    (setElems n).parentmesh = n.parentmesh ∧ (setElems n).childmesh = n.childmesh ∧
    (setElems n).parentconn = n.parentconn ∧ (setElems n).nParents = n.nParents ∧ (setElems n).isSet = true := by
  unfold setElems
  split
  · next h => simp [h]
  · simp

theorem link_of {f f' : Fam} {c p : Nat} (h : ∀ q : Nat, ∃ g : Node → Node, f' q = (f q).map g ∧ ∀ n,
    (g n).elems = n.elems ∧ (g n).volus = n.volus ∧
    (g n).parentmesh = n.parentmesh ++ (if q = c then [p] else []) ∧
    (g n).childmesh = n.childmesh ++ (if q = p then [c] else [])) : NewLink f f' c p := by
  constructor
  · intro q
    obtain ⟨g, hg, -⟩ := h q
    rw [hg]; simp
  · intro q n' hq
    obtain ⟨g, hg, hn⟩ := h q
    rw [hg] at hq
    cases hf : f q with
    | none => rw [hf] at hq; cases hq
    | some n =>
      rw [hf] at hq
      obtain rfl : g n = n' := by simpa using hq
      exact ⟨n, rfl, hn n⟩

theorem plain_link {f f' : Fam} {c p : Nat} (hc : f c ≠ none) (hp : f p ≠ none)
    (h : addParentPlain f c p = .ok f') : NewLink f f' c p := by
  rw [plain_eq hc hp] at h
  cases h
  refine link_of fun q => ⟨_, rfl, fun n => ?_⟩
  split_ifs <;> simp [pushParent, pushChild]

theorem add_link {f f' : Fam} {c p : Nat} {ind : List Int} (hc : f c ≠ none) (hp : f p ≠ none)
    (h : addParent f c p ind = .ok f') : NewLink f f' c p := by
  obtain ⟨nc, hc⟩ := Option.ne_none_iff_exists'.mp hc
  rw [add_eq ind hc hp] at h
  split at h
  · cases h
    refine link_of fun q => ⟨_, rfl, fun n => ?_⟩
    obtain ⟨h1, h2, h3, h4, -⟩ := setElems_same n
    split_ifs <;> simp [addMap, pushChild, h1, h2, h3, h4]
  · cases h

theorem child_link {f f' : Fam} {c p : Nat} {ind : List Int} (hc : f c ≠ none) (hp : f p ≠ none)
    (h : addChild f p c ind = .ok f') : NewLink f f' c p := by
  obtain ⟨nc, hc⟩ := Option.ne_none_iff_exists'.mp hc
  rw [child_eq ind hc hp] at h
  by_cases hl : ind.length = ((if c = p then setElems else id) nc).elemind.length
  · rw [if_pos hl] at h
    cases h
    refine link_of fun q => ⟨_, rfl, fun n => ?_⟩
    obtain ⟨h1, h2, h3, h4, -⟩ := setElems_same n
    split_ifs <;> simp [addMap, pushChild, h1, h2, h3, h4]
  · rw [if_neg hl] at h; cases h

theorem create_inv {f : Fam} {x : Nat} {elems : List Int} {volus : List Cell} (hx : f x = none)
    (hg : NoneGone f) (ha : Agree f) :
    NoneGone (put f x (some { elems := elems, volus := volus })) ∧
      Agree (put f x (some { elems := elems, volus := volus })) := by
  have hnx : ∀ q n, f q = some n → x ∉ n.parentmesh ∧ x ∉ n.childmesh := by
    intro q n hq
    constructor <;> intro h
    · obtain ⟨m, hm⟩ := hg q n hq x (Or.inl h); rw [hx] at hm; cases hm
    · obtain ⟨m, hm⟩ := hg q n hq x (Or.inr h); rw [hx] at hm; cases hm
  constructor
  · intro q n hq y hy
    by_cases e : q = x
    · subst e; rw [put_same] at hq; cases hq; simp at hy
    · rw [put_other _ _ e] at hq
      obtain ⟨m, hm⟩ := hg q n hq y hy
      have : y ≠ x := by rintro rfl; rw [hx] at hm; cases hm
      exact ⟨m, by rw [put_other _ _ this, hm]⟩
  · intro c p n m hc hp
    by_cases ec : c = x
    · by_cases ep : p = x
      · subst ec ep; rw [put_same] at hc hp; cases hc; cases hp; rfl
      · subst ec; rw [put_same] at hc; rw [put_other _ _ ep] at hp; cases hc
        rw [List.count_eq_zero_of_not_mem (hnx p m hp).2]; rfl
    · by_cases ep : p = x
      · subst ep; rw [put_same] at hp; rw [put_other _ _ ec] at hc; cases hp
        rw [List.count_eq_zero_of_not_mem (hnx c n hc).1]; rfl
      · rw [put_other _ _ ec] at hc; rw [put_other _ _ ep] at hp
        exact ha c p n m hc hp

theorem step_inv {f : Fam} {op : Op} (hl : Legal f op) (hcopy : ∀ x y, op ≠ .copy x y) (hg : NoneGone f)
    (ha : Agree f) : step f op = .error .throws ∨ ∃ f', step f op = .ok f' ∧ NoneGone f' ∧ Agree f' := by
  cases op with
  | create x elems volus => exact Or.inr ⟨_, rfl, create_inv hl hg ha⟩
  | plain c p => exact Or.inr ⟨_, plain_eq hl.1 hl.2, link_inv (plain_link hl.1 hl.2 (plain_eq hl.1 hl.2)) hl.1 hl.2 hg ha⟩
  | add c p ind =>
    obtain ⟨nc, hc⟩ := Option.ne_none_iff_exists'.mp hl.1
    have := add_eq ind hc hl.2
    split at this
    · exact Or.inr ⟨_, this, link_inv (add_link hl.1 hl.2 this) hl.1 hl.2 hg ha⟩
    · exact Or.inl this
  | child p c ind =>
    obtain ⟨nc, hc⟩ := Option.ne_none_iff_exists'.mp hl.1
    have := child_eq ind hc hl.2
    by_cases hll : ind.length = ((if c = p then setElems else id) nc).elemind.length
    · rw [if_pos hll] at this
      exact Or.inr ⟨_, this, link_inv (child_link hl.1 hl.2 this) hl.1 hl.2 hg ha⟩
    · rw [if_neg hll] at this; exact Or.inl this
  | destroy x =>
    obtain ⟨nx, hx⟩ := Option.ne_none_iff_exists'.mp hl
    obtain ⟨f', h, h1, h2, -⟩ := destroy_inv hx hg ha
    exact Or.inr ⟨f', h, h1, h2⟩
  | copy x y => exact absurd rfl (hcopy x y)

theorem family_inv {f : Fam} (h : Family f) : NoneGone f ∧ Agree f := by
  induction h with
  | start => exact ⟨fun x n h => (by cases h), fun c p n m h => (by cases h)⟩
  | step _ hl hcopy hs ih =>
    rcases step_inv hl hcopy ih.1 ih.2 with h | ⟨f', h, h1⟩
    · rw [hs] at h; cases h
    · rw [hs] at h; cases h; exact h1

/-- What a careful program finds in the tree of a mesh. -/
structure Kept (n : Node) (gs : List (Nat × List Int)) : Prop where
  parents : n.parentmesh = gs.map Prod.fst
  conn : n.parentconn = gs.map Prod.snd
  num : n.nParents = gs.length
  len : ∀ g ∈ gs, g.2.length = n.elems.length
  elems : n.isSet = true → n.elemind = n.elems
  set : gs ≠ [] → n.isSet = true

theorem kept_child {n : Node} {gs : List (Nat × List Int)} (c : Nat) (h : Kept n gs) : Kept (pushChild c n) gs :=
  ⟨h.parents, h.conn, h.num, h.len, h.elems, h.set⟩

theorem kept_set {n : Node} {gs : List (Nat × List Int)} (h : Kept n gs) : Kept (setElems n) gs := by
  obtain ⟨h1, h2, h3, h4, h5, h6, h7⟩ := setElems_same n
  refine ⟨by rw [h3, h.parents], by rw [h5, h.conn], by rw [h6, h.num], by rw [h1]; exact h.len, fun _ => ?_,
    fun _ => h7⟩
  unfold setElems
  split
  · next hs => exact h.elems hs
  · rfl

theorem kept_map {n : Node} {gs : List (Nat × List Int)} (p : Nat) (ind : List Int) (h : Kept n gs)
    (hs : n.isSet = true) (hl : ind.length = n.elemind.length) : Kept (addMap p ind n) (gs ++ [(p, ind)]) := by
  refine ⟨by simp [addMap, h.parents], by simp [addMap, h.conn], by simp [addMap, h.parents], ?_, h.elems,
    fun _ => hs⟩
  intro g hg
  rcases List.mem_append.mp hg with hg | hg
  · exact h.len g hg
  · rw [List.mem_singleton] at hg
    subst hg
    show ind.length = n.elems.length
    rw [hl, h.elems hs]

theorem careful_family {f : Fam} {G : Given} (h : Careful f G) : Family f := by
  induction h with
  | start => exact .start
  | create _ hx hs ih => exact .step ih (op := .create _ _ _) hx (by simp) hs
  | add _ hc hp hs ih => exact .step ih (op := .add _ _ _) ⟨hc, hp⟩ (by simp) hs
  | child _ hc _ hp hs ih => exact .step ih (op := .child _ _ _) ⟨by rw [hc]; simp, hp⟩ (by simp) hs
  | destroy _ hx _ hs ih => exact .step ih (op := .destroy _) (by show _ ≠ _; rw [hx]; simp) (by simp) hs

theorem kept_left {x q : Nat} {nx n : Node} {gs : List (Nat × List Int)} (hno : nx.childmesh = []) (h : Kept n gs)
    : Kept (leftNode x nx q n) gs := by
  have : leftNode x nx q n = { n with childmesh := (eraseChild x)^[nx.parentmesh.count q] n.childmesh } := by
    unfold leftNode
    rw [hno]
    have : ∀ k, (eraseChild x)^[k] [] = [] := by
      intro k
      induction k with
      | zero => rfl
      | succ k ih => rw [Function.iterate_succ_apply]; exact ih
    rw [this]
    rfl
  rw [this]
  exact ⟨h.parents, h.conn, h.num, h.len, h.elems, h.set⟩

theorem careful_kept {f : Fam} {G : Given} (h : Careful f G) : ∀ c n, f c = some n → Kept n (G c) := by
  induction h with
  | start => intro c n h; cases h
  | @create f G f' x elems volus _ hx hs ih =>
    cases hs
    intro c n hc
    beta_reduce
    by_cases e : c = x
    · subst e
      rw [put_same] at hc
      cases hc
      rw [if_pos rfl]
      exact ⟨rfl, rfl, rfl, by simp, by simp, by simp⟩
    · rw [put_other _ _ e] at hc
      rw [if_neg e]
      exact ih c n hc
  | @add f G f' c p ind _ hc hp hs ih =>
    obtain ⟨nc, hc⟩ := Option.ne_none_iff_exists'.mp hc
    simp only [step] at hs
    rw [add_eq ind hc hp] at hs
    split at hs
    · next hl =>
      cases hs
      intro q n hq
      beta_reduce at hq ⊢
      cases hf : f q with
      | none => rw [hf] at hq; cases hq
      | some n0 =>
        rw [hf] at hq
        simp only [Option.map_some, Option.some.injEq] at hq
        subst hq
        by_cases e : q = c
        · subst e
          rw [hc] at hf
          cases hf
          rw [if_pos rfl, if_pos rfl]
          have := kept_map p ind (kept_set (ih q nc hc)) (setElems_same nc).2.2.2.2.2.2 hl
          split
          · exact kept_child _ this
          · exact this
        · rw [if_neg e, if_neg e]
          split
          · exact kept_child _ (ih q n0 hf)
          · exact ih q n0 hf
    · cases hs
  | @child f G f' c p ind nc _ hc hset hp hs ih =>
    simp only [step] at hs
    rw [child_eq ind hc hp] at hs
    by_cases hl : ind.length = ((if c = p then setElems else id) nc).elemind.length
    · rw [if_pos hl] at hs
      cases hs
      intro q n hq
      beta_reduce at hq ⊢
      cases hf : f q with
      | none => rw [hf] at hq; cases hq
      | some n0 =>
        rw [hf] at hq
        simp only [Option.map_some, Option.some.injEq] at hq
        subst hq
        by_cases e : q = c
        · subst e
          rw [hc] at hf
          cases hf
          rw [if_pos rfl, if_pos rfl]
          by_cases e2 : q = p
          · rw [if_pos e2] at hl ⊢
            exact kept_map p ind (kept_child _ (kept_set (ih q nc hc))) (setElems_same nc).2.2.2.2.2.2 hl
          · rw [if_neg e2] at hl ⊢
            exact kept_map p ind (ih q nc hc) hset hl
        · rw [if_neg e, if_neg e]
          split
          · exact kept_child _ (kept_set (ih q n0 hf))
          · exact ih q n0 hf
    · rw [if_neg hl] at hs; cases hs
  | @destroy f G f' x nx hcar hx hno hs ih =>
    obtain ⟨hg, ha⟩ := family_inv (careful_family hcar)
    obtain ⟨f1, h1, -, -, h2⟩ := destroy_inv hx hg ha
    rw [hs] at h1
    cases h1
    subst h2
    intro q n hq
    beta_reduce
    by_cases e : q = x
    · rw [e, put_same] at hq; cases hq
    · rw [put_other _ _ e] at hq
      rw [if_neg e]
      cases hf : f q with
      | none => rw [hf] at hq; cases hq
      | some n0 =>
        rw [hf] at hq
        simp only [Option.map_some, Option.some.injEq] at hq
        subst hq
        exact kept_left hno (ih q n0 hf)

/-! ### The parent map -/

/-- `currind` with `parentpos` of the generations `gs` (cells and map of each parent). -/
def pairsOf (elems : List Int) : Nat → List (List Cell × List Int) → List (Int × Int)
  | _, [] => []
  | off, g :: gs =>
    elems.zip (g.2.map fun i => posOf Cell.index g.1 i + off) ++ pairsOf elems (off + g.1.length) gs

/-- `parentcases` of the generations from `ii`. -/
def casesOf : Nat → List (List Cell × List Int) → List (Int × Int)
  | _, [] => []
  | ii, g :: gs => g.1.map (fun v => ((ii : Int), v.index)) ++ casesOf (ii + 1) gs

def valsOf (gs : List (List Cell × List Int)) : List ℚ := gs.flatMap fun g => g.1.map fun v => v.volume * v.target

theorem parentPos_eq {vols : List Cell} {conn : List Int} {off : Nat} : ∀ (l : List Int) (j : Nat),
    j + l.length ≤ conn.length →
    parentPos vols conn off l j = .ok (l.zip ((conn.drop j).map fun i => posOf Cell.index vols i + off))
  | [], _, _ => by simp [parentPos]
  | e :: l, j, h => by
    rw [List.length_cons] at h
    have hj : j < conn.length := by omega
    unfold parentPos
    rw [List.getElem?_eq_getElem hj]
    simp only
    rw [parentPos_eq l (j + 1) (by omega), List.drop_eq_getElem_cons hj]
    rfl

theorem connPos_eq {vols : List Cell} {conn : List Int} {off : Nat} {l : List Int} (h : l.length ≤ conn.length) :
    connPos vols (some conn) off l = .ok (l.zip (conn.map fun i => posOf Cell.index vols i + off)) := by
  unfold connPos
  cases l with
  | nil => rfl
  | cons e l =>
    simp only
    rw [parentPos_eq _ _ (by simpa using h)]
    simp

theorem parentLoop_eq {f : Fam} {n : Node} : ∀ (gs : List (List Cell × List Int)) (ii : Nat) (r : ParentMap),
    (∀ k (hk : k < gs.length), ∃ p m, n.parentmesh[ii + k]? = some p ∧ f p = some m ∧ m.volus = gs[k].1 ∧
      n.parentconn[ii + k]? = some gs[k].2 ∧ n.elemind.length ≤ gs[k].2.length) →
    parentLoop f n gs.length ii r = .ok
      { pairs := r.pairs ++ pairsOf n.elemind r.cases.length gs, cases := r.cases ++ casesOf ii gs,
        vals := r.vals ++ valsOf gs }
  | [], ii, r, _ => by
    simp [parentLoop, pairsOf, casesOf, valsOf]
  | g :: gs, ii, r, h => by
    obtain ⟨p, m, h1, h2, h3, h4, h5⟩ := h 0 (by simp)
    simp only [Nat.add_zero, List.getElem_cons_zero] at h1 h3 h4 h5
    rw [List.length_cons]
    unfold parentLoop
    have hget : vecGet n.parentmesh (ii : Int) = .ok p := by
      unfold vecGet
      rw [if_neg (by omega)]
      simp [h1]
    rw [hget]
    simp only [Except.bind, deref, h2, h4, h3]
    rw [connPos_eq h5]
    simp only
    rw [parentLoop_eq gs (ii + 1)]
    · simp [pairsOf, casesOf, valsOf, List.append_assoc]
    · intro k hk
      obtain ⟨p, m, h1, h2, h3, h4, h5⟩ := h (k + 1) (by simp; omega)
      exact ⟨p, m, by rw [← h1]; congr 1; omega, h2, h3, by rw [Nat.add_assoc, Nat.add_comm 1 k, h4]; rfl, h5⟩

/-- Every cell the generations name exists once. -/
def Valid (gs : List (List Cell × List Int)) : Prop :=
  ∀ g ∈ gs, (g.1.map Cell.index).Nodup ∧ ∀ i ∈ g.2, ∃ v ∈ g.1, v.index = i

theorem Valid.tail {g : List Cell × List Int} {gs : List (List Cell × List Int)} (h : Valid (g :: gs)) : Valid gs :=
  fun x hx => h x (List.mem_cons_of_mem _ hx)

theorem posOf_at {vs : List Cell} (hn : (vs.map Cell.index).Nodup) {p : Nat} (hp : p < vs.length) :
    posOf Cell.index vs vs[p].index = p := by
  obtain ⟨q, h1, hq, h2⟩ := posOf_mem (ix := Cell.index) (l := vs) (k := vs[p].index)
    ⟨vs[p], List.getElem_mem hp, rfl⟩
  rw [h1]
  have := (List.Nodup.getElem_inj_iff hn (i := q) (j := p) (hi := by simpa using hq) (hj := by simpa using hp)).mp
    (by simpa using h2)
  rw [this]

theorem casesOf_length : ∀ (gs : List (List Cell × List Int)) (ii jj : Nat),
    (casesOf ii gs).length = (casesOf jj gs).length
  | [], _, _ => rfl
  | g :: gs, ii, jj => by simp [casesOf, casesOf_length gs (ii + 1) (jj + 1)]

theorem mem_casesOf {k i : Int} : ∀ (gs : List (List Cell × List Int)) (ii : Nat),
    (k, i) ∈ casesOf ii gs ↔ ∃ (a : Nat) (g : List Cell × List Int) (v : Cell),
      k = (ii : Int) + a ∧ gs[a]? = some g ∧ v ∈ g.1 ∧ v.index = i
  | [], ii => by simp [casesOf]
  | g :: gs, ii => by
    unfold casesOf
    rw [List.mem_append, mem_casesOf gs (ii + 1), List.mem_map]
    constructor
    · rintro (⟨v, hv, h⟩ | ⟨a, g', v, h1, h2, h3, h4⟩)
      · cases h
        exact ⟨0, g, v, by simp, rfl, hv, rfl⟩
      · exact ⟨a + 1, g', v, by rw [h1]; push_cast; ring, by simpa using h2, h3, h4⟩
    · rintro ⟨a, g', v, h1, h2, h3, h4⟩
      cases a with
      | zero =>
        simp only [List.getElem?_cons_zero, Option.some.injEq] at h2
        subst h2
        exact .inl ⟨v, h3, by rw [h1, h4]; simp⟩
      | succ a => exact .inr ⟨a, g', v, by rw [h1]; push_cast; ring, by simpa using h2, h3, h4⟩

theorem nodup_casesOf : ∀ (gs : List (List Cell × List Int)) (ii : Nat), Valid gs → (casesOf ii gs).Nodup
  | [], _, _ => List.nodup_nil
  | g :: gs, ii, h => by
    unfold casesOf
    rw [List.nodup_append]
    refine ⟨?_, nodup_casesOf gs (ii + 1) h.tail, ?_⟩
    · have := (h g (by simp)).1
      have h2 : g.1.map (fun v => ((ii : Int), v.index)) = (g.1.map Cell.index).map fun i => ((ii : Int), i) := by
        rw [List.map_map]; rfl
      rw [h2]
      exact this.map fun _ _ h => by cases h; rfl
    · rintro ⟨k, i⟩ h1 ⟨k', i'⟩ h2 h3
      rw [List.mem_map] at h1
      obtain ⟨v, -, h1⟩ := h1
      obtain ⟨a, -, -, h4, -⟩ := (mem_casesOf gs (ii + 1)).mp h2
      cases h1
      cases h3
      push_cast at h4
      omega

/-- The case at a position. -/
theorem casesOf_at {k i : Int} {g : List Cell × List Int} {gs : List (List Cell × List Int)} {ii q : Nat}
    (h : (casesOf ii (g :: gs))[q]? = some (k, i)) :
    (k = ii ∧ ∃ hq : q < g.1.length, g.1[q].index = i) ∨
    ((ii : Int) + 1 ≤ k ∧ g.1.length ≤ q ∧ (casesOf (ii + 1) gs)[q - g.1.length]? = some (k, i)) := by
  unfold casesOf at h
  by_cases hq : q < g.1.length
  · left
    rw [List.getElem?_append_left (by simpa using hq), List.getElem?_map, List.getElem?_eq_getElem hq] at h
    cases h
    exact ⟨rfl, hq, rfl⟩
  · right
    rw [List.getElem?_append_right (by simpa using hq), List.length_map] at h
    obtain ⟨a, -, -, h4, -⟩ := (mem_casesOf gs (ii + 1)).mp (List.mem_of_getElem? h)
    push_cast at h4
    exact ⟨by omega, by omega, h⟩

theorem valsOf_get : ∀ (gs : List (List Cell × List Int)) (ii q : Nat) (x : ℚ), Valid gs →
    ((valsOf gs)[q]? = some x ↔ ∃ (a : Nat) (g : List Cell × List Int) (v : Cell), gs[a]? = some g ∧ v ∈ g.1 ∧
      (casesOf ii gs)[q]? = some ((ii : Int) + a, v.index) ∧ x = v.volume * v.target)
  | [], ii, q, x, _ => by simp [valsOf]
  | g :: gs, ii, q, x, hv => by
    have hd : valsOf (g :: gs) = g.1.map (fun v => v.volume * v.target) ++ valsOf gs := rfl
    rw [hd]
    have ih := fun q x => valsOf_get gs (ii + 1) q x hv.tail
    by_cases hq : q < g.1.length
    · rw [List.getElem?_append_left (by simpa using hq), List.getElem?_map, List.getElem?_eq_getElem hq,
        Option.map_some, Option.some.injEq]
      constructor
      · intro h
        refine ⟨0, g, g.1[q], rfl, List.getElem_mem hq, ?_, h.symm⟩
        unfold casesOf
        rw [List.getElem?_append_left (by simpa using hq), List.getElem?_map, List.getElem?_eq_getElem hq]
        simp
      · rintro ⟨a, g', v, h1, h2, h3, h4⟩
        rcases casesOf_at h3 with ⟨h5, _, h6⟩ | ⟨_, h6, _⟩
        · have : a = 0 := by omega
          subst this
          simp only [List.getElem?_cons_zero, Option.some.injEq] at h1
          subst h1
          have := inj_of_nodup (hv g (by simp)).1 (List.getElem_mem hq) h2 h6
          rw [this, h4]
        · omega
    · rw [List.getElem?_append_right (by simpa using hq), List.length_map, ih]
      have hc : (casesOf ii (g :: gs))[q]? = (casesOf (ii + 1) gs)[q - g.1.length]? := by
        rw [casesOf, List.getElem?_append_right (by simpa using hq), List.length_map]
      rw [hc]
      constructor
      · rintro ⟨a, g', v, h1, h2, h3, h4⟩
        exact ⟨a + 1, g', v, by simpa using h1, h2, by rw [h3]; push_cast; congr 2; ring, h4⟩
      · rintro ⟨a, g', v, h1, h2, h3, h4⟩
        cases a with
        | zero =>
          obtain ⟨a, -, -, h5, -⟩ := (mem_casesOf gs (ii + 1)).mp (List.mem_of_getElem? h3)
          push_cast at h5
          omega
        | succ a => exact ⟨a, g', v, by simpa using h1, h2, by rw [h3]; push_cast; congr 2; ring, h4⟩

theorem pairsOf_length {elems : List Int} : ∀ (gs : List (List Cell × List Int)) (off : Nat),
    (∀ g ∈ gs, g.2.length = elems.length) → (pairsOf elems off gs).length = gs.length * elems.length
  | [], _, _ => by simp [pairsOf]
  | g :: gs, off, h => by
    rw [pairsOf, List.length_append, pairsOf_length gs _ fun x hx => h x (List.mem_cons_of_mem _ hx), List.length_zip,
      List.length_map, h g (by simp), Nat.min_self, List.length_cons]
    ring

theorem pairsOf_get {elems : List Int} {e i : Int} {g : List Cell × List Int} :
    ∀ (gs : List (List Cell × List Int)) (ii off k j : Nat), Valid gs → (∀ g ∈ gs, g.2.length = elems.length) →
    gs[k]? = some g → elems[j]? = some e → g.2[j]? = some i →
    ∃ q : Nat, (pairsOf elems off gs)[k * elems.length + j]? = some (e, ((off + q : Nat) : Int)) ∧
      (casesOf ii gs)[q]? = some ((ii : Int) + k, i)
  | [], _, _, _, _, _, _, h, _, _ => by simp at h
  | g0 :: gs, ii, off, 0, j, hv, hl, h1, h2, h3 => by
    simp only [List.getElem?_cons_zero, Option.some.injEq] at h1
    subst h1
    obtain ⟨p, h4, hp, h5⟩ := posOf_mem (ix := Cell.index) ((hv g0 (by simp)).2 i (List.mem_of_getElem? h3))
    refine ⟨p, ?_, ?_⟩
    · have : j < (elems.zip (g0.2.map fun i => posOf Cell.index g0.1 i + off)).length := by
        have h6 := (List.getElem?_eq_some_iff.mp h2).1
        have h7 := (List.getElem?_eq_some_iff.mp h3).1
        simp
        omega
      rw [Nat.zero_mul, Nat.zero_add, pairsOf, List.getElem?_append_left this, List.getElem?_zip_eq_some.mpr]
      refine ⟨h2, ?_⟩
      rw [List.getElem?_map, h3, Option.map_some, h4]
      push_cast
      congr 1
      ring
    · rw [casesOf, List.getElem?_append_left (by simpa using hp), List.getElem?_map, List.getElem?_eq_getElem hp,
        Option.map_some, h5]
      simp
  | g0 :: gs, ii, off, k + 1, j, hv, hl, h1, h2, h3 => by
    have hl' : ∀ g ∈ gs, g.2.length = elems.length := fun x hx => hl x (List.mem_cons_of_mem _ hx)
    obtain ⟨q, h4, h5⟩ := pairsOf_get gs (ii + 1) (off + g0.1.length) k j hv.tail hl' (by simpa using h1) h2 h3
    refine ⟨g0.1.length + q, ?_, ?_⟩
    · have hz : (elems.zip (g0.2.map fun i => posOf Cell.index g0.1 i + off)).length = elems.length := by
        simp [hl g0 (by simp)]
      rw [pairsOf, List.getElem?_append_right (by rw [hz, Nat.add_mul]; omega), hz]
      have : (k + 1) * elems.length + j - elems.length = k * elems.length + j := by
        rw [Nat.add_mul, Nat.one_mul]; omega
      rw [this, h4]
      congr 3
      ring
    · rw [casesOf, List.getElem?_append_right (by simp), List.length_map, Nat.add_sub_cancel_left, h5]
      push_cast
      congr 2
      ring

/-! ### What the map adds up to -/

theorem pairsOf_ge {elems : List Int} : ∀ (gs : List (List Cell × List Int)) (off : Nat), Valid gs →
    ∀ x ∈ pairsOf elems off gs, (off : Int) ≤ x.2
  | [], _, _, x, h => by simp [pairsOf] at h
  | g :: gs, off, hv, x, h => by
    rw [pairsOf, List.mem_append] at h
    rcases h with h | h
    · have := (List.of_mem_zip (a := x.1) (b := x.2) h).2
      rw [List.mem_map] at this
      obtain ⟨i, hi, h⟩ := this
      obtain ⟨p, h4, -, -⟩ := posOf_mem (ix := Cell.index) ((hv g (by simp)).2 i hi)
      omega
    · have := pairsOf_ge gs (off + g.1.length) hv.tail x h
      push_cast at this
      omega

theorem pairsOf_lt {elems : List Int} {ii : Nat} : ∀ (gs : List (List Cell × List Int)) (off : Nat), Valid gs →
    ∀ x ∈ pairsOf elems off gs, x.2 < (off : Int) + (casesOf ii gs).length
  | [], _, _, x, h => by simp [pairsOf] at h
  | g :: gs, off, hv, x, h => by
    rw [pairsOf, List.mem_append] at h
    rw [casesOf, List.length_append, List.length_map, casesOf_length gs (ii + 1) ii]
    rcases h with h | h
    · have := (List.of_mem_zip (a := x.1) (b := x.2) h).2
      rw [List.mem_map] at this
      obtain ⟨i, hi, h⟩ := this
      obtain ⟨p, h4, h5, -⟩ := posOf_mem (ix := Cell.index) ((hv g (by simp)).2 i hi)
      push_cast
      omega
    · have := pairsOf_lt (ii := ii) gs (off + g.1.length) hv.tail x h
      push_cast at this ⊢
      omega

theorem count_zip_map {g : Int → Int} {e i : Int} {b : List Int} (hg : ∀ j ∈ b, g j = g i ↔ j = i) : ∀ (a : List Int),
    (a.zip (b.map g)).count (e, g i) = (a.zip b).count (e, i) := by
  intro a
  induction b generalizing a with
  | nil => simp
  | cons y b ih =>
    cases a with
    | nil => simp
    | cons x a =>
      have := ih (fun j hj => hg j (by simp [hj])) a
      simp only [List.map_cons, List.zip_cons_cons, List.count_cons, this, beq_iff_eq, Prod.mk.injEq, hg y (by simp)]

/-- A position is reached from a cell as often as the cell of the parent was given for it. -/
theorem count_pairsOf {elems : List Int} {e i : Int} {g : List Cell × List Int} :
    ∀ (gs : List (List Cell × List Int)) (ii off a q : Nat), Valid gs → gs[a]? = some g →
    (casesOf ii gs)[q]? = some ((ii : Int) + a, i) →
    (pairsOf elems off gs).count (e, ((off + q : Nat) : Int)) = (elems.zip g.2).count (e, i)
  | [], _, _, _, _, _, h, _ => by simp at h
  | g0 :: gs, ii, off, a, q, hv, h1, h2 => by
    rw [pairsOf, List.count_append]
    rcases casesOf_at h2 with ⟨h3, hq, h4⟩ | ⟨h3, hq, h4⟩
    · have : a = 0 := by omega
      subst this
      simp only [List.getElem?_cons_zero, Option.some.injEq] at h1
      subst h1
      have h0 := hv g0 (by simp)
      have hp : posOf Cell.index g0.1 i = q := by rw [← h4]; exact posOf_at h0.1 hq
      have hz : (pairsOf elems (off + g0.1.length) gs).count (e, ((off + q : Nat) : Int)) = 0 := by
        apply List.count_eq_zero_of_not_mem
        intro hm
        have := pairsOf_ge gs _ hv.tail _ hm
        push_cast at this
        omega
      rw [hz, Nat.add_zero]
      have : ((off + q : Nat) : Int) = (fun i => posOf Cell.index g0.1 i + (off : Int)) i := by
        simp only [hp]; push_cast; ring
      rw [this]
      refine count_zip_map (g := fun i => posOf Cell.index g0.1 i + (off : Int)) ?_ _
      intro j hj
      constructor
      · intro h
        obtain ⟨p, h5, h6, h7⟩ := posOf_mem (ix := Cell.index) (h0.2 j hj)
        have : p = q := by omega
        subst this
        rw [← h7, ← h4]
      · rintro rfl; rfl
    · cases a with
      | zero => simp at h3
      | succ a =>
        have hz : (elems.zip (g0.2.map fun i => posOf Cell.index g0.1 i + off)).count (e, ((off + q : Nat) : Int)) = 0 := by
          apply List.count_eq_zero_of_not_mem
          intro hm
          have := (List.of_mem_zip hm).2
          rw [List.mem_map] at this
          obtain ⟨j, hj, h⟩ := this
          obtain ⟨p, h5, h6, -⟩ := posOf_mem (ix := Cell.index) ((hv g0 (by simp)).2 j hj)
          push_cast at h
          omega
        have hw : off + q = off + g0.1.length + (q - g0.1.length) := by omega
        rw [hz, Nat.zero_add, hw]
        exact count_pairsOf gs (ii + 1) (off + g0.1.length) a (q - g0.1.length) hv.tail (by simpa using h1)
          (by rw [h4]; push_cast; congr 2; ring)

theorem addAll_get {x : ℚ} : ∀ (l : List (Int × Int)) (v : List ℚ), (∀ p ∈ l, 0 ≤ p.2 ∧ p.2 < v.length) →
    ∃ v', l.foldlM (m := Except Fault) (fun v p => addConstr x v p.2) v = .ok v' ∧ v'.length = v.length ∧
      ∀ q : Nat, q < v.length → v'.getD q 0 = v.getD q 0 + (l.map Prod.snd).count (q : Int) * x
  | [], v, _ => ⟨v, rfl, rfl, fun q _ => by simp⟩
  | p :: l, v, h => by
    obtain ⟨h0, h1⟩ := h p (by simp)
    have hs : addConstr x v p.2 = .ok (v.modify p.2.toNat (· + x)) := by
      unfold addConstr
      rw [if_neg (by omega), if_neg (by omega)]
    obtain ⟨v', h2, h3, h4⟩ := addAll_get l (v.modify p.2.toNat (· + x)) (by
      intro p hp
      rw [List.length_modify]
      exact h p (by simp [hp]))
    rw [List.length_modify] at h3 h4
    refine ⟨v', ?_, h3, ?_⟩
    · rw [List.foldlM_cons, hs]; exact h2
    · intro q hq
      rw [h4 q hq, List.map_cons, List.count_cons]
      have hm : (v.modify p.2.toNat (· + x)).getD q 0 = v.getD q 0 + if p.2 = (q : Int) then x else 0 := by
        rw [List.getD_eq_getElem?_getD, List.getD_eq_getElem?_getD, List.getElem?_modify, List.getElem?_eq_getElem hq]
        by_cases e : p.2 = (q : Int)
        · simp [e]
        · have e' : p.2.toNat ≠ q := by omega
          simp [e, e']
      rw [hm]
      by_cases e : p.2 = (q : Int)
      · simp [e]; ring
      · simp [e]

/-- The constraints after all contributions. -/
theorem accumulate_get {pairs : List (Int × Int)} : ∀ (w : List (Int × ℚ)) (v : List ℚ),
    (∀ p ∈ pairs, 0 ≤ p.2 ∧ p.2 < v.length) →
    ∃ v', accumulate pairs w v = .ok v' ∧ v'.length = v.length ∧
      ∀ q : Nat, q < v.length → v'.getD q 0 = v.getD q 0 + (w.map fun c => (pairs.count (c.1, (q : Int)) : ℚ) * c.2).sum
  | [], v, _ => ⟨v, rfl, rfl, fun q _ => by simp⟩
  | c :: w, v, h => by
    obtain ⟨v1, h1, h2, h3⟩ := addAll_get (x := c.2) (pairs.filter (·.1 = c.1)) v fun p hp => h p (List.mem_filter.mp hp).1
    obtain ⟨v', h4, h5, h6⟩ := accumulate_get w v1 (by rw [h2]; exact h)
    refine ⟨v', ?_, by rw [h5, h2], ?_⟩
    · unfold accumulate
      rw [List.foldlM_cons, h1]
      exact h4
    · intro q hq
      rw [h6 q (by rw [h2]; exact hq), h3 q hq, List.map_cons, List.sum_cons]
      have : ((pairs.filter (·.1 = c.1)).map Prod.snd).count (q : Int) = pairs.count (c.1, (q : Int)) := by
        rw [List.count, List.countP_map, List.countP_filter, List.count]
        apply List.countP_congr
        rintro ⟨a, b⟩ -
        simp [and_comm]
      rw [this]
      ring

/-! ### Values given to the parents -/

/-- The last value that is given to a cell. -/
def lastFill (n : Node) (p : Nat) (j : Int) : List (Int × Int) → List ℚ → ℚ → ℚ
  | (k, i) :: cs, x :: xs, d =>
    lastFill n p j cs xs (if vecGet n.parentmesh k = .ok p ∧ i = j then x else d)
  | _, _, d => d

theorem mapToParents_eq {n : Node} : ∀ (cs : List (Int × Int)) (xs : List ℚ) (f : Fam), cs.length ≤ xs.length →
    (∀ c ∈ cs, ∃ p m, vecGet n.parentmesh c.1 = .ok p ∧ f p = some m ∧ (m.volus.map Cell.index).Nodup ∧
      ∃ v ∈ m.volus, v.index = c.2) →
    mapToParents n cs xs f = .ok fun p => (f p).map fun m =>
      { m with volus := m.volus.map fun v => { v with fill := lastFill n p v.index cs xs v.fill } }
  | [], xs, f, _, _ => by
    unfold mapToParents
    congr 1
    funext p
    cases f p with
    | none => rfl
    | some m =>
      simp only [lastFill, Option.map_some, Option.some.injEq]
      rw [List.map_id'']
      intro v
      rfl
  | c :: cs, [], _, h, _ => by simp at h
  | (k, i) :: cs, x :: xs, f, hl, h => by
    obtain ⟨p, m, h1, h2, h3, h4⟩ := h (k, i) (by simp)
    unfold mapToParents
    rw [h1]
    simp only [Except.bind, deref, h2]
    rw [modAt_posOf h3 h4]
    simp only
    rw [mapToParents_eq cs xs _ (by simpa using hl)]
    · congr 1
      funext q
      by_cases e : q = p
      · subst e
        rw [put_same, h2]
        simp only [Option.map_some, Option.some.injEq]
        rw [List.map_map]
        congr 1
        apply List.map_congr_left
        intro v _
        simp only [Function.comp, lastFill, h1, true_and]
        by_cases e : v.index = i
        · simp [e]
        · simp [e, Ne.symm e]
      · rw [put_other _ _ e]
        cases f q with
        | none => rfl
        | some m' =>
          simp only [Option.map_some, Option.some.injEq]
          congr 1
          apply List.map_congr_left
          intro v _
          simp only [lastFill, h1]
          rw [if_neg]
          rintro ⟨h, -⟩
          exact e (by cases h; rfl)
    · intro c hc
      obtain ⟨p', m', h5, h6, h7, h8⟩ := h c (List.mem_cons_of_mem _ hc)
      by_cases e : p' = p
      · subst e
        rw [h2] at h6
        cases h6
        refine ⟨p', _, h5, put_same _ _ _, ?_, ?_⟩
        · simp only
          rw [map_if_index (f := fun v : Cell => { v with fill := x }) (fun a => rfl)]
          exact h7
        · obtain ⟨v, hv, h8⟩ := h8
          refine ⟨_, List.mem_map.mpr ⟨v, hv, rfl⟩, ?_⟩
          split <;> exact h8
      · exact ⟨p', m', h5, by rw [put_other _ _ e]; exact h6, h7, h8⟩

/-- A cell named by no case keeps its value. -/
theorem lastFill_none {n : Node} {p : Nat} {j : Int} : ∀ (cs : List (Int × Int)) (xs : List ℚ) (d : ℚ),
    (∀ c ∈ cs, ¬ (vecGet n.parentmesh c.1 = .ok p ∧ c.2 = j)) → lastFill n p j cs xs d = d
  | [], _, _, _ => by simp [lastFill]
  | _ :: _, [], _, _ => by simp [lastFill]
  | (k, i) :: cs, x :: xs, d, h => by
    unfold lastFill
    rw [if_neg (h (k, i) (by simp))]
    exact lastFill_none cs xs d fun c hc => h c (List.mem_cons_of_mem _ hc)

/-- A cell named by one case takes its value. -/
theorem lastFill_one {n : Node} {p : Nat} {j k : Int} : ∀ (cs : List (Int × Int)) (xs : List ℚ) (d : ℚ) (_ : cs.Nodup)
    (_ : cs.length ≤ xs.length)
    (_ : ∀ c ∈ cs, vecGet n.parentmesh c.1 = .ok p → c.1 = k), vecGet n.parentmesh k = .ok p →
    ∀ (q : Nat), cs[q]? = some (k, j) → lastFill n p j cs xs d = xs.getD q 0
  | [], _, _, _, _, _, _, q, h => by simp at h
  | c :: _, [], _, _, h, _, _, _, _ => by simp at h
  | (k', i) :: cs, x :: xs, d, hn, hl, hu, hk, 0, h => by
    simp only [List.getElem?_cons_zero, Option.some.injEq] at h
    cases h
    unfold lastFill
    rw [if_pos ⟨hk, rfl⟩, lastFill_none]
    · rfl
    · rintro ⟨k2, i2⟩ hc ⟨h1, h2⟩
      have := hu _ (List.mem_cons_of_mem _ hc) h1
      simp only at this h2
      subst this h2
      exact (List.nodup_cons.mp hn).1 hc
  | (k', i) :: cs, x :: xs, d, hn, hl, hu, hk, q + 1, h => by
    unfold lastFill
    rw [lastFill_one cs xs _ (List.nodup_cons.mp hn).2 (by simpa using hl)
      (fun c hc => hu c (List.mem_cons_of_mem _ hc)) hk q (by simpa using h)]
    rfl

/-! ### Careful programs -/

/-- The cells of a mesh. -/
def volsAt (f : Fam) (p : Nat) : List Cell := ((f p).map Node.volus).getD []

/-- The generations with the cells of the parents. -/
def gens (f : Fam) (gs : List (Nat × List Int)) : List (List Cell × List Int) := gs.map fun g => (volsAt f g.1, g.2)

theorem gens_valid {f : Fam} {gs : List (Nat × List Int)} (h : CellsExist f gs) : Valid (gens f gs) := by
  intro g hg
  obtain ⟨g0, h0, rfl⟩ := List.mem_map.mp hg
  obtain ⟨m, h1, h2, h3⟩ := h g0 h0
  simp only [volsAt, h1, Option.map_some, Option.getD_some]
  exact ⟨h2, h3⟩

theorem gens_get {f : Fam} {gs : List (Nat × List Int)} {a : Nat} {x : List Cell × List Int} :
    (gens f gs)[a]? = some x ↔ ∃ g, gs[a]? = some g ∧ x = (volsAt f g.1, g.2) := by
  unfold gens
  rw [List.getElem?_map]
  cases gs[a]? with
  | none => simp
  | some g => simp [eq_comm]

/-- The parent map of a mesh in a careful program. -/
theorem careful_map {f : Fam} {G : Given} {c : Nat} {n : Node} (h : Careful f G) (hc : f c = some n)
    (he : CellsExist f (G c)) : returnParentMap f c = .ok
      { pairs := pairsOf n.elemind 0 (gens f (G c)), cases := casesOf 0 (gens f (G c)), vals := valsOf (gens f (G c)) } := by
  have hk := careful_kept h c n hc
  unfold returnParentMap
  simp only [deref, hc, Except.bind]
  have hl : n.nParents = (gens f (G c)).length := by rw [hk.num]; simp [gens]
  rw [hl, parentLoop_eq]
  · simp
  · intro k hk'
    have hk2 : k < (G c).length := by simpa [gens] using hk'
    have hg : (gens f (G c))[k] = (volsAt f (G c)[k].1, (G c)[k].2) := by simp [gens]
    obtain ⟨m, h1, -, -⟩ := he (G c)[k] (List.getElem_mem hk2)
    refine ⟨(G c)[k].1, m, ?_, h1, ?_, ?_, ?_⟩
    · rw [hk.parents, Nat.zero_add, List.getElem?_map, List.getElem?_eq_getElem hk2]; rfl
    · rw [hg]; simp [volsAt, h1]
    · rw [hk.conn, Nat.zero_add, List.getElem?_map, List.getElem?_eq_getElem hk2, hg]; rfl
    · rw [hg, hk.len _ (List.getElem_mem hk2), hk.elems (hk.set (List.ne_nil_of_length_pos (by omega)))]

theorem careful_reports {f : Fam} {G : Given} {c : Nat} {n : Node} (h : Careful f G) (hc : f c = some n)
    (he : CellsExist f (G c)) : Reports f n.elems (G c)
      { pairs := pairsOf n.elemind 0 (gens f (G c)), cases := casesOf 0 (gens f (G c)), vals := valsOf (gens f (G c)) } := by
  have hk := careful_kept h c n hc
  have hv := gens_valid he
  by_cases h0 : G c = []
  · rw [h0]
    exact ⟨List.nodup_nil, by simp [casesOf, gens], by simp [valsOf, gens], by simp [pairsOf, gens], by simp⟩
  rw [hk.elems (hk.set h0)]
  have hl : ∀ g ∈ gens f (G c), g.2.length = n.elems.length := by
    intro g hg
    obtain ⟨g0, h1, rfl⟩ := List.mem_map.mp hg
    exact hk.len g0 h1
  have hm : ∀ {g : Nat × List Int} {a : Nat}, (G c)[a]? = some g → ∃ m, f g.1 = some m ∧ volsAt f g.1 = m.volus := by
    intro g a hg
    obtain ⟨m, h1, -, -⟩ := he g (List.mem_of_getElem? hg)
    exact ⟨m, h1, by simp [volsAt, h1]⟩
  refine ⟨nodup_casesOf _ _ hv, ?_, ?_, ?_, ?_⟩
  · intro k i
    simp only
    rw [mem_casesOf]
    constructor
    · rintro ⟨a, x, v, h1, h2, h3, h4⟩
      obtain ⟨g, h5, rfl⟩ := gens_get.mp h2
      obtain ⟨m, h6, h7⟩ := hm h5
      exact ⟨a, g, m, v, by simpa using h1, h5, h6, by rw [← h7]; exact h3, h4⟩
    · rintro ⟨a, g, m, v, h1, h2, h3, h4, h5⟩
      exact ⟨a, (volsAt f g.1, g.2), v, by simpa using h1, gens_get.mpr ⟨g, h2, rfl⟩, by simpa [volsAt, h3] using h4, h5⟩
  · intro q x
    simp only
    rw [valsOf_get _ 0 q x hv]
    constructor
    · rintro ⟨a, y, v, h2, h3, h4, h8⟩
      obtain ⟨g, h5, rfl⟩ := gens_get.mp h2
      obtain ⟨m, h6, h7⟩ := hm h5
      exact ⟨a, g, m, v, h5, h6, by rw [← h7]; exact h3, by simpa using h4, h8⟩
    · rintro ⟨a, g, m, v, h2, h3, h4, h5, h6⟩
      exact ⟨a, (volsAt f g.1, g.2), v, gens_get.mpr ⟨g, h2, rfl⟩, by simpa [volsAt, h3] using h4, by simpa using h5, h6⟩
  · simp only
    rw [pairsOf_length _ _ hl]
    simp [gens]
  · intro k j g e i h1 h2 h3
    obtain ⟨q, h4, h5⟩ := pairsOf_get (gens f (G c)) 0 0 k j hv hl (gens_get.mpr ⟨g, h1, rfl⟩) h2 h3
    exact ⟨q, by simpa using h4, by simpa using h5⟩

theorem countVolu_eq {f : Fam} : ∀ (gs : List (Nat × List Int)) (k ii : Nat), (∀ g ∈ gs, ∃ m, f g.1 = some m) →
    (gs.map Prod.fst).foldlM (m := Except Fault) (fun k p => (deref f p).map fun m => k + m.volus.length) k
      = .ok (k + (casesOf ii (gens f gs)).length)
  | [], _, _, _ => by simp [gens, casesOf]; rfl
  | g :: gs, k, ii, h => by
    obtain ⟨m, hm⟩ := h g (by simp)
    have hd : (deref f g.1).map (fun m => k + m.volus.length) = .ok (k + m.volus.length) := by
      simp [deref, hm, Except.map]
    rw [List.map_cons, List.foldlM_cons, hd]
    refine (countVolu_eq gs (k + m.volus.length) (ii + 1) fun x hx => h x (List.mem_cons_of_mem _ hx)).trans ?_
    have : gens f (g :: gs) = (volsAt f g.1, g.2) :: gens f gs := rfl
    rw [this, casesOf, List.length_append, List.length_map]
    simp only [volsAt, hm, Option.map_some, Option.getD_some]
    rw [Nat.add_assoc]

theorem careful_sum {f : Fam} {G : Given} {c : Nat} {n : Node} (h : Careful f G) (hc : f c = some n)
    (he : CellsExist f (G c)) (hd : ((G c).map Prod.fst).Nodup) (w : List (Int × ℚ)) :
    ∃ r v f', returnParentMap f c = .ok r ∧ countVoluParent f n = .ok r.cases.length ∧
      accumulate r.pairs w (List.replicate r.cases.length 0) = .ok v ∧ mapToParents n r.cases v f = .ok f' ∧
      (∀ g ∈ G c, ∀ m, f g.1 = some m → f' g.1 = some { m with volus := m.volus.map fun v =>
        { v with fill := Share n.elems g.2 w v.index } }) ∧
      ∀ p, p ∉ (G c).map Prod.fst → f' p = f p := by
  have hk := careful_kept h c n hc
  have hv := gens_valid he
  have hn := nodup_casesOf _ 0 hv
  have hpar : ∀ (k : Int) (p : Nat), vecGet n.parentmesh k = .ok p ↔ ∃ (a : Nat) (g : Nat × List Int), k = a ∧
      (G c)[a]? = some g ∧ g.1 = p := by
    intro k p
    unfold vecGet
    rw [hk.parents]
    by_cases h0 : k < 0
    · rw [if_pos h0]
      constructor
      · intro h; cases h
      · rintro ⟨a, g, rfl, -⟩; omega
    · rw [if_neg h0, List.getElem?_map]
      constructor
      · intro h
        cases h2 : (G c)[k.toNat]? with
        | none => rw [h2] at h; cases h
        | some g =>
          rw [h2] at h
          refine ⟨k.toNat, g, by omega, h2, ?_⟩
          cases h
          rfl
      · rintro ⟨a, g, rfl, h2, rfl⟩
        rw [Int.toNat_natCast, h2]
        rfl
  have hrange : ∀ p ∈ pairsOf n.elemind 0 (gens f (G c)),
      0 ≤ p.2 ∧ p.2 < (List.replicate (casesOf 0 (gens f (G c))).length (0 : ℚ)).length := by
    intro p hp
    have h1 := pairsOf_ge _ 0 hv p hp
    have h2 := pairsOf_lt (ii := 0) _ 0 hv p hp
    rw [List.length_replicate]
    push_cast at h1 h2
    omega
  obtain ⟨v, h1, h2, h3⟩ := accumulate_get w _ hrange
  rw [List.length_replicate] at h2 h3
  have hcase : ∀ cc ∈ casesOf 0 (gens f (G c)), ∃ p m, vecGet n.parentmesh cc.1 = .ok p ∧ f p = some m ∧
      (m.volus.map Cell.index).Nodup ∧ ∃ v ∈ m.volus, v.index = cc.2 := by
    rintro ⟨k, i⟩ hcc
    obtain ⟨a, x, v, h4, h5, h6, h7⟩ := (mem_casesOf _ 0).mp hcc
    obtain ⟨g, h8, rfl⟩ := gens_get.mp h5
    obtain ⟨m, h9, h10, -⟩ := he g (List.mem_of_getElem? h8)
    refine ⟨g.1, m, (hpar _ _).mpr ⟨a, g, by simpa using h4, h8, rfl⟩, h9, h10, v, ?_, h7⟩
    simpa [volsAt, h9] using h6
  have hmap := mapToParents_eq _ v f (by rw [h2]) hcase
  refine ⟨_, v, _, careful_map h hc he, ?_, h1, hmap, ?_, ?_⟩
  · unfold countVoluParent
    rw [hk.parents]
    refine (countVolu_eq (G c) 0 0 ?_).trans (by simp)
    intro g hg
    obtain ⟨m, h4, -⟩ := he g hg
    exact ⟨m, h4⟩
  · intro g hg m hm
    obtain ⟨a, ha⟩ := List.mem_iff_getElem?.mp hg
    simp only [hm, Option.map_some, Option.some.injEq]
    congr 1
    apply List.map_congr_left
    intro vc hvc
    have hin : ((a : Int), vc.index) ∈ casesOf 0 (gens f (G c)) :=
      (mem_casesOf _ 0).mpr ⟨a, _, vc, by simp, gens_get.mpr ⟨g, ha, rfl⟩, by simpa [volsAt, hm] using hvc, rfl⟩
    obtain ⟨q, hq⟩ := List.mem_iff_getElem?.mp hin
    have hq' := (List.getElem?_eq_some_iff.mp hq).1
    have huniq : ∀ cc ∈ casesOf 0 (gens f (G c)), vecGet n.parentmesh cc.1 = .ok g.1 → cc.1 = (a : Int) := by
      rintro ⟨k, i⟩ - hk2
      obtain ⟨b, g', h4, h5, h6⟩ := (hpar _ _).mp hk2
      have hb := (List.getElem?_eq_some_iff.mp h5).1
      have ha' := (List.getElem?_eq_some_iff.mp ha).1
      have : b = a := by
        apply (List.Nodup.getElem_inj_iff hd (hi := by simpa using hb) (hj := by simpa using ha')).mp
        rw [List.getElem_map, List.getElem_map, (List.getElem?_eq_some_iff.mp h5).2, (List.getElem?_eq_some_iff.mp ha).2, h6]
      subst this
      exact h4
    have hone := lastFill_one (casesOf 0 (gens f (G c))) v vc.fill hn (by rw [h2]) huniq
      ((hpar _ _).mpr ⟨a, g, rfl, ha, rfl⟩) q hq
    rw [hone, h3 q hq']
    have hz : (List.replicate (casesOf 0 (gens f (G c))).length (0 : ℚ)).getD q 0 = 0 := by
      rw [List.getD_eq_getElem?_getD, List.getElem?_replicate, if_pos hq']; rfl
    rw [hz, zero_add]
    unfold Share
    congr 2
    apply List.map_congr_left
    intro x _
    have := count_pairsOf (elems := n.elemind) (e := x.1) (gens f (G c)) 0 0 a q hv (gens_get.mpr ⟨g, ha, rfl⟩)
      (by simpa using hq)
    rw [Nat.zero_add] at this
    rw [this]
    have hset := hk.elems (hk.set (List.ne_nil_of_mem hg))
    rw [hset]
  · intro p hp
    cases hf : f p with
    | none => rfl
    | some m =>
      simp only [Option.map_some, Option.some.injEq]
      have : ∀ vc : Cell, lastFill n p vc.index (casesOf 0 (gens f (G c))) v vc.fill = vc.fill := by
        intro vc
        apply lastFill_none
        rintro ⟨k, i⟩ - ⟨h4, -⟩
        obtain ⟨b, g', -, h5, h6⟩ := (hpar _ _).mp h4
        exact hp (List.mem_map.mpr ⟨g', List.mem_of_getElem? h5, h6⟩)
      simp only [this]
      rw [List.map_id'']
      intro v
      rfl

end RSVS.Lineage
