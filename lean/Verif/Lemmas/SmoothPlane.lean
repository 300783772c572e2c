import Verif.Lemmas.SmoothStep
import Verif.Lemmas.SnakeCheck
import Mathlib.Data.List.Perm.Basic
import Mathlib.Algebra.BigOperators.Group.List.Basic

namespace RSVS.Smooth

open RSVS RSVS.Mesh RSVS.Spec RSVS.SnakeCheck

variable {K : Type} [Field K] [LinearOrder K]

theorem isearch_self {α : Type} {ix : α → Int} {l : List α} (hn : (l.map ix).Nodup) {a : α} (ha : a ∈ l) :
    isearch ix l (ix a) = .ok a := by
  obtain ⟨b, h1, h2, h3⟩ := elemAt_posOf_ok (ix := ix) (l := l) (k := ix a) ⟨a, ha, rfl⟩
  have h1' : isearch ix l (ix a) = .ok b := h1
  rw [h1', inj_of_nodup hn h2 ha h3]

variable {conn : Mesh} {inds : List Int} {snaxs : List (Snax K)}

/-- The edges of a snaxel. -/
def edgesAt (conn : Mesh) (s : Int) : List Int :=
  match isearch Vert.index conn.verts s with
  | .ok x => x.edgeind
  | .error _ => []

/-- The ends of an edge. -/
def endsAt (conn : Mesh) (e : Int) : List Int :=
  match isearch Edge.index conn.edges e with
  | .ok x => x.vertind
  | .error _ => []

theorem edgesAt_spec (h : PlaneReady conn inds snaxs) {s : Int} (hs : s ∈ inds) :
    ∃ x ∈ conn.verts, x.index = s ∧ isearch Vert.index conn.verts s = .ok x ∧ edgesAt conn s = x.edgeind := by
  obtain ⟨x, hx, rfl⟩ := h.hasVert s hs
  have := isearch_self h.unique.verts hx
  exact ⟨x, hx, rfl, this, by unfold edgesAt; rw [this]⟩

theorem endsAt_spec (h : PlaneReady conn inds snaxs) {y : Edge} (hy : y ∈ conn.edges) :
    isearch Edge.index conn.edges y.index = .ok y ∧ endsAt conn y.index = y.vertind := by
  have := isearch_self h.unique.edges hy
  exact ⟨this, by unfold endsAt; rw [this]⟩

theorem mem_edgesAt (h : PlaneReady conn inds snaxs) {s : Int} (hs : s ∈ inds) (e : Int) :
    e ∈ edgesAt conn s ↔ ∃ y ∈ conn.edges, y.index = e ∧ s ∈ y.vertind := by
  obtain ⟨x, hx, rfl, _, h1⟩ := edgesAt_spec h hs
  rw [h1]
  constructor
  · intro he
    obtain ⟨y, hy, rfl⟩ := h.hasEdge x hx e he
    exact ⟨y, hy, rfl, (h.bothWays x hx y hy).1 he⟩
  · rintro ⟨y, hy, rfl, h2⟩
    exact (h.bothWays x hx y hy).2 h2

theorem nodup_edgesAt (h : PlaneReady conn inds snaxs) {s : Int} (hs : s ∈ inds) : (edgesAt conn s).Nodup := by
  obtain ⟨x, hx, rfl, _, h1⟩ := edgesAt_spec h hs
  rw [h1]
  exact h.edgeinds x hx

/-- The links, listed. -/
def linkList (conn : Mesh) (inds : List Int) : List Link :=
  inds.flatMap fun s => (edgesAt conn s).flatMap fun e =>
    ((endsAt conn e).filter fun v => decide (v ∉ inds)).map fun v => ⟨s, e, v⟩

theorem links_ok (h : PlaneReady conn inds snaxs) : links conn inds = .ok (linkList conn inds) := by
  unfold links
  rw [foldlM_add (g := fun s => (edgesAt conn s).flatMap fun e =>
    ((endsAt conn e).filter fun v => decide (v ∉ inds)).map fun v => (⟨s, e, v⟩ : Link)) []]
  · simp [linkList]
  intro s hs acc
  obtain ⟨x, hx, hxs, hi, h1⟩ := edgesAt_spec h hs
  rw [hi, h1]
  change List.foldlM (m := Except Fault) _ acc x.edgeind = _
  rw [foldlM_add (g := fun e => ((endsAt conn e).filter fun v => decide (v ∉ inds)).map fun v => (⟨s, e, v⟩ : Link)) acc]
  intro e he acc
  obtain ⟨y, hy, rfl⟩ := h.hasEdge x hx e he
  obtain ⟨h2, h3⟩ := endsAt_spec h hy
  rw [h2, h3]
  refine congrArg Except.ok ?_
  beta_reduce
  generalize y.vertind = V
  induction V generalizing acc with
  | nil => simp
  | cons v V ih =>
    rw [List.foldl_cons, ih, List.filter_cons]
    by_cases hv : v ∈ inds <;> simp [hv]

theorem mem_linkList (h : PlaneReady conn inds snaxs) (l : Link) : l ∈ linkList conn inds ↔ IsLink conn inds l := by
  unfold linkList IsLink
  constructor
  · intro hl
    obtain ⟨s, hs, hl⟩ := List.mem_flatMap.1 hl
    obtain ⟨e, he, hl⟩ := List.mem_flatMap.1 hl
    obtain ⟨v, hv, rfl⟩ := List.mem_map.1 hl
    obtain ⟨hv1, hv2⟩ := List.mem_filter.1 hv
    obtain ⟨y, hy, rfl, h1⟩ := (mem_edgesAt h hs e).1 he
    rw [(endsAt_spec h hy).2] at hv1
    exact ⟨hs, of_decide_eq_true hv2, y, hy, rfl, h1, hv1⟩
  · rintro ⟨h1, h2, y, hy, h3, h4, h5⟩
    refine List.mem_flatMap.2 ⟨l.snax, h1, List.mem_flatMap.2 ⟨l.edge, (mem_edgesAt h h1 _).2 ⟨y, hy, h3, h4⟩, ?_⟩⟩
    refine List.mem_map.2 ⟨l.vert, List.mem_filter.2 ⟨?_, decide_eq_true h2⟩, rfl⟩
    rw [← h3, (endsAt_spec h hy).2]
    exact h5

theorem nodup_linkList (h : PlaneReady conn inds snaxs) : (linkList conn inds).Nodup := by
  unfold linkList
  rw [List.nodup_flatMap]
  refine ⟨fun s hs => ?_, h.once.imp fun {a b} hab => ?_⟩
  · rw [List.nodup_flatMap]
    refine ⟨fun e he => ?_, (nodup_edgesAt h hs).imp fun {a b} hab => ?_⟩
    · obtain ⟨y, hy, rfl, _⟩ := (mem_edgesAt h hs e).1 he
      rw [(endsAt_spec h hy).2]
      exact ((h.ends y hy).filter _).map fun a b hab => (Link.mk.inj hab).2.2
    · change List.Disjoint _ _
      intro l h1 h2
      obtain ⟨_, _, rfl⟩ := List.mem_map.1 h1
      obtain ⟨_, _, h3⟩ := List.mem_map.1 h2
      exact hab (Link.mk.inj h3).2.1.symm
  · change List.Disjoint _ _
    intro l h1 h2
    obtain ⟨_, _, h1⟩ := List.mem_flatMap.1 h1
    obtain ⟨_, _, h2⟩ := List.mem_flatMap.1 h2
    obtain ⟨_, _, rfl⟩ := List.mem_map.1 h1
    obtain ⟨_, _, h3⟩ := List.mem_map.1 h2
    exact hab (Link.mk.inj h3).1.symm

theorem mem_ext (h : PlaneReady conn inds snaxs) (s : Int) :
    s ∈ (linkList conn inds).map Link.snax ↔ HasLink conn inds s := by
  unfold HasLink
  rw [List.mem_map]
  simp only [mem_linkList h]

theorem hasLink_inds {s : Int} (h : HasLink conn inds s) : s ∈ inds := by
  obtain ⟨l, h1, rfl⟩ := h
  exact h1.1

section
open Classical

/-- The edges to process, listed. -/
noncomputable def processList (conn : Mesh) (inds : List Int) : List Int :=
  inds.flatMap fun s => (edgesAt conn s).filter fun e => decide (∃ y ∈ conn.edges, y.index = e ∧ BorderEdge conn inds y)

theorem edgeProcess_ok (h : PlaneReady conn inds snaxs) :
    edgeProcess conn inds ((linkList conn inds).map Link.snax) = .ok (processList conn inds) := by
  unfold edgeProcess
  rw [foldlM_add (g := fun s => (edgesAt conn s).filter fun e => decide (∃ y ∈ conn.edges, y.index = e ∧
    BorderEdge conn inds y)) []]
  · simp [processList]
  intro s hs acc
  obtain ⟨x, hx, hxs, hi, h1⟩ := edgesAt_spec h hs
  rw [hi, h1]
  change List.foldlM (m := Except Fault) _ acc x.edgeind = _
  rw [foldlM_add (g := fun e => if (∃ y ∈ conn.edges, y.index = e ∧ BorderEdge conn inds y) then [e] else []) acc]
  · refine congrArg (fun l => Except.ok (acc ++ l)) ?_
    generalize x.edgeind = E
    induction E with
    | nil => rfl
    | cons e E ih =>
      rw [List.flatMap_cons, ih, List.filter_cons]
      by_cases he : ∃ y ∈ conn.edges, y.index = e ∧ BorderEdge conn inds y <;> simp only [he] <;> simp
  intro e he acc
  obtain ⟨y, hy, rfl⟩ := h.hasEdge x hx e he
  obtain ⟨h2, h3⟩ := endsAt_spec h hy
  have hb : (∃ z ∈ conn.edges, z.index = y.index ∧ BorderEdge conn inds z) ↔ BorderEdge conn inds y := by
    constructor
    · rintro ⟨z, hz, hzy, hzb⟩
      rwa [inj_of_nodup h.unique.edges hz hy hzy] at hzb
    · exact fun hb => ⟨y, hy, rfl, hb⟩
  rw [h2]
  have hlen := h.twoVerts y hy
  match hvi : y.vertind, hlen with
  | [a, b], _ =>
    change Except.bind (vecGet y.vertind 0) _ = _
    rw [hvi]
    change (.ok (if a ∈ _ ∧ b ∈ _ then acc ++ [y.index] else acc) : Res _) = _
    have : (a ∈ (linkList conn inds).map Link.snax ∧ b ∈ (linkList conn inds).map Link.snax) ↔ BorderEdge conn inds y := by
      rw [mem_ext h, mem_ext h]
      unfold BorderEdge
      rw [hvi]
      simp
    by_cases hbe : BorderEdge conn inds y
    · rw [if_pos (this.2 hbe), if_pos (hb.2 hbe)]
    · rw [if_neg (fun h' => hbe (this.1 h')), if_neg (fun h' => hbe (hb.1 h')), List.append_nil]

theorem sum_two {a b : Int} (hab : a ≠ b) : ∀ I : List Int,
    (I.map fun s => if s = a ∨ s = b then 1 else 0).sum = I.count a + I.count b
  | [] => rfl
  | s :: I => by
    rw [List.map_cons, List.sum_cons, sum_two hab I, List.count_cons, List.count_cons]
    by_cases h1 : s = a
    · subst h1
      simp [hab]
      omega
    · by_cases h2 : s = b
      · subst h2
        simp [h1]
        omega
      · simp [h1, h2]

/-- Each edge between snaxels with links is processed twice, once from each end, and no other edge is. -/
theorem process_perm (h : PlaneReady conn inds snaxs) :
    (processList conn inds).Perm (((conn.edges.filter fun y => decide (BorderEdge conn inds y)).map Edge.index) ++
      ((conn.edges.filter fun y => decide (BorderEdge conn inds y)).map Edge.index)) := by
  rw [List.perm_iff_count]
  intro e
  rw [List.count_append]
  have hn : ((conn.edges.filter fun y => decide (BorderEdge conn inds y)).map Edge.index).Nodup :=
    List.Nodup.sublist (List.Sublist.map _ List.filter_sublist) h.unique.edges
  by_cases he : ∃ y ∈ conn.edges, y.index = e ∧ BorderEdge conn inds y
  · obtain ⟨y, hy, rfl, hb⟩ := id he
    have h1 : y.index ∈ (conn.edges.filter fun y => decide (BorderEdge conn inds y)).map Edge.index :=
      List.mem_map.2 ⟨y, List.mem_filter.2 ⟨hy, decide_eq_true hb⟩, rfl⟩
    rw [List.count_eq_one_of_mem hn h1]
    unfold processList
    rw [List.count_flatMap]
    match hvi : y.vertind, h.twoVerts y hy with
    | [a, b], _ =>
      have hab : a ≠ b := by
        have := h.ends y hy
        rw [hvi] at this
        simpa using this
      have ha : a ∈ inds := hasLink_inds (hb a (by simp [hvi]))
      have hb' : b ∈ inds := hasLink_inds (hb b (by simp [hvi]))
      have : inds.map (List.count y.index ∘ fun s => (edgesAt conn s).filter fun e => decide (∃ y ∈ conn.edges, y.index = e ∧
          BorderEdge conn inds y)) = inds.map fun s => if s = a ∨ s = b then 1 else 0 := by
        refine List.map_congr_left fun s hs => ?_
        simp only [Function.comp]
        have hmem : y.index ∈ (edgesAt conn s).filter (fun e => decide (∃ y ∈ conn.edges, y.index = e ∧
            BorderEdge conn inds y)) ↔ s = a ∨ s = b := by
          rw [List.mem_filter, decide_eq_true_iff, mem_edgesAt h hs]
          constructor
          · rintro ⟨⟨z, hz, hzy, hsz⟩, _⟩
            rw [inj_of_nodup h.unique.edges hz hy hzy, hvi] at hsz
            simpa using hsz
          · intro hsab
            exact ⟨⟨y, hy, rfl, by rw [hvi]; simpa using hsab⟩, he⟩
        by_cases hsab : s = a ∨ s = b
        · rw [if_pos hsab, List.count_eq_one_of_mem ((nodup_edgesAt h hs).filter _) (hmem.2 hsab)]
        · rw [if_neg hsab, List.count_eq_zero_of_not_mem (fun h' => hsab (hmem.1 h'))]
      rw [this, sum_two hab, List.count_eq_one_of_mem h.once ha, List.count_eq_one_of_mem h.once hb']
  · rw [List.count_eq_zero_of_not_mem, List.count_eq_zero_of_not_mem]
    · intro hm
      obtain ⟨y, hy, rfl⟩ := List.mem_map.1 hm
      obtain ⟨hy1, hy2⟩ := List.mem_filter.1 hy
      exact he ⟨y, hy1, rfl, of_decide_eq_true hy2⟩
    · intro hm
      unfold processList at hm
      obtain ⟨s, _, hm⟩ := List.mem_flatMap.1 hm
      exact he (of_decide_eq_true (List.mem_filter.1 hm).2)

end

theorem set_add {ls : List Link} (hn : (ls.map Link.snax).Nodup) (f : Int → K) (c : K) {p : Nat} {a : Int}
    (hp : (ls.map Link.snax)[p]? = some a) : (ls.map fun l => f l.snax).set p (f a + c) =
      ls.map fun l => f l.snax + if l.snax = a then c else 0 := by
  refine List.ext_getElem (by simp) fun q h1 h2 => ?_
  have hq : q < ls.length := by simpa using h2
  obtain ⟨hpl, hpa⟩ := List.getElem?_eq_some_iff.1 hp
  have hpl' : p < ls.length := by simpa using hpl
  rw [List.getElem_set]
  by_cases hqp : p = q
  · subst hqp
    simp only [List.getElem_map] at hpa ⊢
    simp [hpa]
  · have hne : ls[q].snax ≠ a := by
      intro h3
      refine hqp ?_
      exact (List.Nodup.getElem_inj_iff hn (i := p) (hi := hpl) (j := q) (hj := by simpa using hq)).1
        (by rw [hpa]; simp [h3])
    simp [hqp, hne]

theorem planeEdge_ok (h : PlaneReady conn inds snaxs) {eq : Int → Int → Int → Int → Res (K × K)} {ls : List Link}
    (hn : (ls.map Link.snax).Nodup) {find : Int → Int} (hf : ∀ k, GoodPos id (ls.map Link.snax) k (find k))
    {y : Edge} (hy : y ∈ conn.edges) (hends : ∀ v ∈ y.vertind, v ∈ ls.map Link.snax) {val : Edge → K × K}
    (hval : ∀ a b, y.vertind = [a, b] → ∀ la ∈ ls, ∀ lb ∈ ls, la.snax = a → lb.snax = b →
      eq a b la.vert lb.vert = .ok (val y)) (f : Int → K) :
    planeEdge conn eq ls find (ls.map fun l => f l.snax) y.index = .ok (ls.map fun l => f l.snax + shareOf val y l.snax) := by
  have hpos : ∀ v ∈ y.vertind, ∃ p : Nat, find v = p ∧ (ls.map Link.snax)[p]? = some v := by
    intro v hv
    rcases hf v with ⟨_, h2⟩ | ⟨p, h1, e, h2, h3⟩
    · exact absurd rfl (h2 v (hends v hv))
    · exact ⟨p, h1, by rw [h2]; exact congrArg some h3⟩
  match hvi : y.vertind, h.twoVerts y hy with
  | [a, b], _ =>
    obtain ⟨p, hpf, hpa⟩ := hpos a (by simp [hvi])
    obtain ⟨q, hqf, hqb⟩ := hpos b (by simp [hvi])
    rw [List.getElem?_map, Option.map_eq_some_iff] at hpa hqb
    obtain ⟨la, hla, hlaa⟩ := hpa
    obtain ⟨lb, hlb, hlbb⟩ := hqb
    unfold planeEdge
    rw [(endsAt_spec h hy).1]
    change Except.bind (vecGet y.vertind 0) _ = _
    rw [hvi]
    change Except.bind (vecGet ls (find a)) _ = _
    rw [hpf, hqf, Order.vecGet_nat hla]
    change Except.bind (vecGet ls (q : Int)) _ = _
    rw [Order.vecGet_nat hlb]
    change Except.bind (eq a b la.vert lb.vert) _ = _
    rw [hval a b hvi la (List.mem_of_getElem? hla) lb (List.mem_of_getElem? hlb) hlaa hlbb]
    change Except.bind (vecGet (ls.map fun l => f l.snax) (p : Int)) _ = _
    rw [Order.vecGet_nat (a := f a) (by rw [List.getElem?_map, hla, Option.map_some, hlaa])]
    change Except.map _ (vecGet ((ls.map fun l => f l.snax).set (Int.toNat (p : Int)) (f a + (val y).1)) (q : Int)) = _
    rw [Int.toNat_natCast, Int.toNat_natCast, set_add hn f _ (by rw [List.getElem?_map, hla, Option.map_some, hlaa]),
      Order.vecGet_nat (a := f b + if b = a then (val y).1 else 0)
        (by rw [List.getElem?_map, hlb, Option.map_some, hlbb])]
    refine congrArg Except.ok ?_
    beta_reduce
    rw [set_add hn (fun s => f s + if s = a then (val y).1 else 0) _
      (by rw [List.getElem?_map, hlb, Option.map_some, hlbb])]
    refine List.map_congr_left fun l _ => ?_
    unfold shareOf
    rw [hvi]
    simp only [List.getElem?_cons_zero, List.getElem?_cons_succ, Option.some.injEq, add_assoc, eq_comm]

/-- The sum of the parts of the edges with given indices. -/
def shares (conn : Mesh) (val : Edge → K × K) (es : List Int) (s : Int) : K :=
  (es.map fun e => match isearch Edge.index conn.edges e with
    | .ok y => shareOf val y s
    | .error _ => 0).sum

theorem planeEdges_ok (h : PlaneReady conn inds snaxs) {eq : Int → Int → Int → Int → Res (K × K)} {ls : List Link}
    (hn : (ls.map Link.snax).Nodup) {find : Int → Int} (hf : ∀ k, GoodPos id (ls.map Link.snax) k (find k))
    {val : Edge → K × K} : ∀ {es : List Int} (f : Int → K), (∀ e ∈ es, ∃ y ∈ conn.edges, y.index = e ∧
      (∀ v ∈ y.vertind, v ∈ ls.map Link.snax) ∧ ∀ a b, y.vertind = [a, b] → ∀ la ∈ ls, ∀ lb ∈ ls, la.snax = a → lb.snax = b →
        eq a b la.vert lb.vert = .ok (val y)) →
    es.foldlM (m := Except Fault) (planeEdge conn eq ls find) (ls.map fun l => f l.snax) =
      .ok (ls.map fun l => f l.snax + shares conn val es l.snax)
  | [], f, _ => by simp [pure, Except.pure, shares]
  | e :: es, f, he => by
    obtain ⟨y, hy, rfl, h1, h2⟩ := he e (by simp)
    rw [List.foldlM_cons, planeEdge_ok h hn hf hy h1 h2 f]
    refine (planeEdges_ok h hn hf (fun s => f s + shareOf val y s) fun e' he' => he e' (by simp [he'])).trans ?_
    refine congrArg _ (List.map_congr_left fun l _ => ?_)
    unfold shares
    rw [List.map_cons, List.sum_cons, (endsAt_spec h hy).1, add_assoc]

theorem setD_ok {l : List (Snax K)} (hn : (l.map Snax.index).Nodup) {i : Int} (hi : ∃ s ∈ l, s.index = i) (d : K) :
    setD l i d = .ok (l.map fun s => if s.index = i then { s with d := d } else s) := by
  unfold setD modAt
  rcases posOf_cases (ix := Snax.index) l i with ⟨_, hno⟩ | ⟨p, hp, hpl, hpi⟩
  · obtain ⟨s, hs, hsi⟩ := hi
    exact absurd hsi (hno s hs)
  · rw [hp, if_neg (by omega), if_pos (by simpa using hpl), Int.toNat_natCast]
    refine congrArg _ (List.ext_getElem (by simp) fun q h1 h2 => ?_)
    have hq : q < l.length := by simpa using h2
    rw [List.getElem_modify]
    by_cases hqp : p = q
    · subst hqp
      simp [hpi]
    · have hne : l[q].index ≠ i := by
        intro h3
        refine hqp ?_
        exact (List.Nodup.getElem_inj_iff hn (i := p) (hi := by simpa using hpl) (j := q) (hj := by simpa using hq)).1
          (by simp [h3, hpi])
      simp [hqp, hne]

theorem setDs_ok : ∀ {ps : List (Int × K)} {l : List (Snax K)} (g : Int → K), (l.map Snax.index).Nodup →
    (∀ p ∈ ps, (∃ s ∈ l, s.index = p.1) ∧ p.2 = g p.1) →
      ps.foldlM (m := Except Fault) (fun l p => setD l p.1 (p.2 / 2)) l =
        .ok (l.map fun s => if s.index ∈ ps.map Prod.fst then { s with d := g s.index / 2 } else s)
  | [], l, g, _, _ => by simp [pure, Except.pure]
  | p :: ps, l, g, hn, hp => by
    obtain ⟨h1, h2⟩ := hp p (by simp)
    rw [List.foldlM_cons, setD_ok hn h1]
    have hidx : ∀ s : Snax K, (if s.index = p.1 then { s with d := p.2 / 2 } else s).index = s.index := by
      intro s; split <;> rfl
    have hmap : (l.map fun s => if s.index = p.1 then { s with d := p.2 / 2 } else s).map Snax.index = l.map Snax.index := by
      rw [List.map_map]
      exact List.map_congr_left fun s _ => hidx s
    refine (setDs_ok g (by rw [hmap]; exact hn) ?_).trans ?_
    · intro q hq
      obtain ⟨⟨s, hs, hsq⟩, h3⟩ := hp q (by simp [hq])
      exact ⟨⟨_, List.mem_map.2 ⟨s, hs, rfl⟩, (hidx s).trans hsq⟩, h3⟩
    · rw [List.map_map]
      refine congrArg _ (List.map_congr_left fun s _ => ?_)
      simp only [Function.comp, hidx, List.map_cons, List.mem_cons]
      by_cases h3 : s.index ∈ ps.map Prod.fst
      · by_cases h4 : s.index = p.1
        · rw [if_pos h3, if_pos h4, if_pos (.inl h4)]
        · rw [if_pos h3, if_neg h4, if_pos (.inr h3)]
      · by_cases h4 : s.index = p.1
        · rw [if_neg h3, if_pos h4, if_pos (.inl h4), h2, h4]
        · simp [h3, h4]

end RSVS.Smooth
