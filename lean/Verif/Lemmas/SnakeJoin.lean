import Verif.Spec.SnakeJoin
import Verif.Lemmas.MeshSwitch
import Verif.Lemmas.MeshCrop
import Verif.Lemmas.OrderMesh

/-!
# Helper lemmas on joining snakes and merging snaxels
-/

namespace RSVS

open RSVS.Spec RSVS.Mesh

/-! ### Joining -/

theorem compareInternal_eq {tf of_ : Bool} : ∀ {a b : List Bool}, a.length = b.length →
    ∃ r, Snake.compareInternal tf of_ a b = .ok r ∧
      (r = true ↔ ∀ (i : Nat) (x y : Bool), a[i]? = some x → b[i]? = some y → ¬ ((x ^^ tf) = true ∧ (y ^^ of_) = true))
  | [], _, _ => ⟨true, rfl, by simp⟩
  | x :: a, [], h => by simp at h
  | x :: a, y :: b, h => by
    unfold Snake.compareInternal
    by_cases hc : ((x ^^ tf) && (y ^^ of_)) = true
    · rw [if_pos hc]
      refine ⟨false, rfl, ?_⟩
      simp only [Bool.false_eq_true, false_iff]
      intro h2
      exact h2 0 x y rfl rfl (by simpa using hc)
    · rw [if_neg hc]
      obtain ⟨r, h1, h2⟩ := compareInternal_eq (tf := tf) (of_ := of_) (a := a) (b := b) (by simpa using h)
      refine ⟨r, h1, h2.trans ?_⟩
      constructor
      · intro h3 i p q hp hq
        cases i with
        | zero => cases hp; cases hq; simpa using hc
        | succ i => exact h3 i p q hp hq
      · intro h3 i p q hp hq
        exact h3 (i + 1) p q hp hq

theorem joinOr_eq {tf of_ : Bool} : ∀ {a b : List Bool}, a.length = b.length →
    Snake.joinOr tf of_ a b = .ok (List.zipWith (fun x y => ((x ^^ tf) || (y ^^ of_)) ^^ tf) a b)
  | [], _, _ => by simp [Snake.joinOr]
  | x :: a, [], h => by simp at h
  | x :: a, y :: b, h => by
    unfold Snake.joinOr
    rw [joinOr_eq (by simpa using h)]
    rfl

theorem joinAnd_eq {tf of_ : Bool} : ∀ {a b : List Bool}, a.length = b.length →
    Snake.joinAnd tf of_ a b = .ok (List.zipWith (fun x y => ((x ^^ tf) && (y ^^ of_)) ^^ tf) a b)
  | [], _, _ => by simp [Snake.joinAnd]
  | x :: a, [], h => by simp at h
  | x :: a, y :: b, h => by
    unfold Snake.joinAnd
    rw [joinAnd_eq (by simpa using h)]
    rfl

/-! ### Merging -/

/-- The loop with the snaxels that are stopped in the place of the marks. -/
def mergeSimple : Impacts → MergeState → Res MergeState
  | [], s => .ok s
  | (a, b) :: r, s =>
    if b > 0 ∧ a ∉ s.stop ∧ b ∉ s.stop then
      (s.conn.switchVert a b).bind fun conn =>
      mergeSimple r { conn := conn, stop := s.stop ++ [b], remove := s.remove ++ [a] }
    else mergeSimple r s

theorem mergeLoop_eq : ∀ (rest pre : Impacts) (done : Nat → Bool) (s : MergeState),
    (∀ j, pre.length ≤ j → (done j = true ↔ ∃ p, (pre ++ rest)[j]? = some p ∧ (p.1 ∈ s.stop ∨ p.2 ∈ s.stop))) →
    mergeLoop (pre ++ rest) rest pre.length done s = mergeSimple rest s
  | [], _, _, _, _ => rfl
  | (a, b) :: r, pre, done, s, h => by
    have h0 := h pre.length (Nat.le_refl _)
    have hg : (pre ++ (a, b) :: r)[pre.length]? = some (a, b) := by simp
    rw [hg] at h0
    have h0' : done pre.length = true ↔ a ∈ s.stop ∨ b ∈ s.stop := by
      rw [h0]
      constructor
      · rintro ⟨p, hp, h⟩; cases hp; exact h
      · intro h; exact ⟨_, rfl, h⟩
    have ha : pre ++ (a, b) :: r = (pre ++ [(a, b)]) ++ r := by simp
    have hlen : pre.length + 1 = (pre ++ [(a, b)]).length := by simp
    unfold mergeLoop mergeSimple
    by_cases hd : done pre.length = true
    · rw [if_pos hd, if_neg (by have := h0'.mp hd; tauto), ha, hlen]
      apply mergeLoop_eq
      intro j hj
      rw [← ha]
      exact h j (by simp at hj; omega)
    · rw [if_neg hd]
      have hn : a ∉ s.stop ∧ b ∉ s.stop := by
        rw [h0'] at hd
        tauto
      by_cases hb : b > 0
      · simp only
        rw [if_pos hb, if_pos ⟨hb, hn⟩]
        congr 1
        funext conn
        rw [ha, hlen]
        apply mergeLoop_eq
        intro j hj
        rw [← ha]
        have hj' : pre.length < j := by simp at hj; omega
        have h1 := h j (by omega)
        rw [Bool.or_eq_true, if_neg (by omega), h1]
        constructor
        · rintro (⟨p, h2, h3⟩ | h2)
          · exact ⟨p, h2, by simp; tauto⟩
          · cases hp : (pre ++ (a, b) :: r)[j]? with
            | none => rw [hp] at h2; simp at h2
            | some p =>
              rw [hp] at h2
              exact ⟨p, rfl, by simp at h2 ⊢; tauto⟩
        · rintro ⟨p, h2, h3⟩
          simp only [List.mem_append, List.mem_singleton] at h3
          by_cases h4 : p.1 ∈ s.stop ∨ p.2 ∈ s.stop
          · exact .inl ⟨p, h2, h4⟩
          · right
            rw [h2]
            simp
            tauto
      · simp only
        rw [if_neg hb, if_neg (by tauto), ha, hlen]
        apply mergeLoop_eq
        intro j hj
        rw [← ha]
        have hj' : pre.length < j := by simp at hj; omega
        rw [if_neg (by omega)]
        exact h j (by omega)

/-- The reports come in pairs, of which `F` lists the first ones. -/
inductive Blocks : Impacts → Impacts → Prop
  | nil : Blocks [] []
  | pair {a b r F} : a ≠ b → Blocks r F → Blocks ((a, b) :: (b, a) :: r) ((a, b) :: F)
  | single {a k r F} : k ≤ 0 → Blocks r F → Blocks ((a, k) :: r) F

theorem Blocks.append {a b F G : Impacts} (h : Blocks a F) (h' : Blocks b G) : Blocks (a ++ b) (F ++ G) := by
  induction h with
  | nil => exact h'
  | pair hab _ ih => exact .pair hab ih
  | single hk _ ih => exact .single hk ih

theorem Blocks.mem {L F : Impacts} (h : Blocks L F) : ∀ f ∈ F, f ∈ L := by
  induction h with
  | nil => intro f hf; exact hf
  | pair _ _ ih =>
    intro f hf
    rcases List.mem_cons.mp hf with rfl | hf
    · simp
    · simp [ih f hf]
  | single _ _ ih => intro f hf; simp [ih f hf]

theorem Blocks.first {L F : Impacts} (h : Blocks L F) (hp : ∃ p ∈ L, 0 < p.2) : F ≠ [] := by
  induction h with
  | nil => simp at hp
  | pair _ _ _ => simp
  | single hk _ ih =>
    apply ih
    obtain ⟨p, h1, h2⟩ := hp
    rcases List.mem_cons.mp h1 with rfl | h1
    · exact absurd h2 (by simp; exact hk)
    · exact ⟨p, h1, h2⟩

/-- What holds while snaxels are merged. -/
structure MergeInv (impacts : Impacts) (m : Mesh) (s : MergeState) (into : Int → Int) : Prop where
  sound : Sound s.conn
  two : TwoVerts s.conn
  once : ListedOnce s.conn
  loops : ∀ e ∈ s.conn.edges, ∀ x, e.vertind = [x, x] → x ∈ s.stop
  moved : ∀ x, into x ≠ x → x ∈ s.remove ∧ into x ∈ s.stop ∧ (x, into x) ∈ impacts
  gone : ∀ x ∈ s.remove, into x ≠ x ∧ HasVert m x
  apart : ∀ x ∈ s.stop, x ∉ s.remove
  hit : ∀ x ∈ s.stop, HasVert m x ∧ ∃ a, (a, x) ∈ impacts
  verts : s.conn.verts.map Vert.index = m.verts.map Vert.index
  coord : ∀ x ∈ s.conn.verts, ∃ y ∈ m.verts, y.index = x.index ∧ y.coord = x.coord
  edges : s.conn.edges.map Edge.index = m.edges.map Edge.index
  edgeVert : ∀ e v, EdgeVert s.conn e v ↔ ∃ u, EdgeVert m e u ∧ into u = v
  edgeSurf : ∀ e i, EdgeSurf s.conn e i ↔ EdgeSurf m e i
  surfs : s.conn.surfs = m.surfs
  volus : s.conn.volus = m.volus

theorem hasVert_of_map {m m' : Mesh} (h : m'.verts.map Vert.index = m.verts.map Vert.index) (i : Int) :
    HasVert m' i ↔ HasVert m i := ⟨mem_of_index_eq h.symm, mem_of_index_eq h⟩

theorem swapEnd_loop {old new x : Int} {e : Edge} (hl : e.vertind.length = 2)
    (h : (swapEnd old new e).vertind = [x, x]) : x = new := by
  obtain ⟨i, v, s, b⟩ := e
  simp only at hl
  match v, hl with
  | [p, q], _ =>
    simp only [swapEnd] at h
    split at h
    · simp at h; exact h.2.symm
    · simp at h; exact h.1.symm

/-- Merging one snaxel into another. -/
theorem merge_step {impacts : Impacts} {m : Mesh} {s : MergeState} {into : Int → Int} (h : MergeInv impacts m s into)
    {a b : Int} (hab : a ≠ b) (ha : HasVert m a) (hb : HasVert m b) (hin : (a, b) ∈ impacts)
    (ha' : a ∉ s.stop) (hr : b ∉ s.remove) :
    ∃ conn, s.conn.switchVert a b = .ok conn ∧
      MergeInv impacts m { conn := conn, stop := s.stop ++ [b], remove := s.remove ++ [a] }
        (if a ∈ s.remove then into else fun x => if x = a then b else into x) := by
  obtain ⟨ov, hov, hi⟩ := (hasVert_of_map h.verts a).mpr ha
  have hnew := (hasVert_of_map h.verts b).mpr hb
  have hloop : ∀ e ∈ s.conn.edges, e.vertind ≠ [a, a] := fun e he h1 => ha' (h.loops e he a h1)
  obtain ⟨m', h1, h3, h4, h5⟩ := switchVert_merged h.sound h.two hab hnew hov hi (h.once ov hov) hloop
  have heq := switchVert_eq h.sound h.two hab hnew hov hi (h.once ov hov)
  rw [h1] at heq
  have hm' := Except.ok.inj heq
  have hverts : m'.verts.map Vert.index = s.conn.verts.map Vert.index := by
    rw [hm']
    simp only
    rw [map_index_if (by intro a; split <;> rfl), mergedVerts_index]
  have hfix : ∀ x, x ∉ s.remove → into x = x := fun x hx => by
    by_contra hc; exact hx (h.moved x hc).1
  refine ⟨m', h1, ?_⟩
  refine
    { sound := sound_of_vertMerged h.sound h4 hnew ⟨ov, hov, hi⟩ h3, two := h5, once := ?_, loops := ?_, moved := ?_,
      gone := ?_, apart := ?_, hit := ?_, verts := hverts.trans h.verts, coord := ?_, edges := ?_, edgeVert := ?_,
      edgeSurf := fun e i => (h3.edgeSurf e i).trans (h.edgeSurf e i), surfs := ?_, volus := ?_ }
  · intro v hv
    simp only [hm', mergedVerts, List.map_map, List.mem_map] at hv
    obtain ⟨w, hw, rfl⟩ := hv
    simp only [Function.comp]
    have hnd := h.once w hw
    by_cases e1 : w.index = b
    · simp only [e1, if_true]
      exact RSVS.Order.nodup_sortUnique _
    · by_cases e2 : w.index = a
      · have : a ≠ b := hab
        simp only [e2, if_true, if_false, this]
        exact hnd.filter _
      · simp only [e1, e2, if_false]
        exact hnd
  · intro e he x hx
    simp only [hm', mergedEdges, List.mem_map] at he
    obtain ⟨w, hw, rfl⟩ := he
    simp only [List.mem_append, List.mem_singleton]
    split at hx
    · exact .inr (swapEnd_loop (h.two w hw) hx)
    · exact .inl (h.loops w hw x hx)
  · intro x hx
    simp only [List.mem_append, List.mem_singleton]
    by_cases hc : a ∈ s.remove
    · rw [if_pos hc] at hx ⊢
      obtain ⟨h6, h7, h8⟩ := h.moved x hx
      exact ⟨.inl h6, .inl h7, h8⟩
    · rw [if_neg hc] at hx ⊢
      by_cases hxa : x = a
      · simp only [hxa, if_true] at hx ⊢
        exact ⟨.inr trivial, .inr trivial, hin⟩
      · simp only [hxa, if_false] at hx ⊢
        obtain ⟨h6, h7, h8⟩ := h.moved x hx
        exact ⟨.inl h6, .inl h7, h8⟩
  · intro x hx
    simp only [List.mem_append, List.mem_singleton] at hx
    by_cases hc : a ∈ s.remove
    · rw [if_pos hc]
      rcases hx with hx | rfl
      · exact h.gone x hx
      · exact h.gone x hc
    · rw [if_neg hc]
      by_cases hxa : x = a
      · simp only [hxa, if_true]
        exact ⟨hab.symm, ha⟩
      · simp only [hxa, if_false]
        rcases hx with hx | hx
        · exact h.gone x hx
        · exact absurd hx hxa
  · intro x hx
    simp only [List.mem_append, List.mem_singleton] at hx ⊢
    rcases hx with hx | rfl
    · have := h.apart x hx
      rintro (h6 | rfl)
      · exact this h6
      · exact ha' hx
    · rintro (h6 | h6)
      · exact hr h6
      · exact hab h6.symm
  · intro x hx
    simp only [List.mem_append, List.mem_singleton] at hx
    rcases hx with hx | rfl
    · exact h.hit x hx
    · exact ⟨hb, a, hin⟩
  · intro x hx
    simp only [hm', mergedVerts, List.map_map, List.mem_map] at hx
    obtain ⟨w, hw, rfl⟩ := hx
    obtain ⟨y, hy, h6, h7⟩ := h.coord w hw
    refine ⟨y, hy, ?_, ?_⟩
    · rw [h6]; simp only [Function.comp]; repeat' split
      all_goals rfl
    · rw [h7]; simp only [Function.comp]; repeat' split
      all_goals rfl
  · rw [← h.edges, hm']
    exact mergedEdges_index _ _ _ _
  · intro e v
    rw [h3.edgeVert, h.edgeVert, h.edgeVert]
    by_cases hc : a ∈ s.remove
    · rw [if_pos hc]
      have hno : ∀ u, into u ≠ a := by
        intro u hu
        by_cases hua : into u = u
        · rw [hua] at hu
          subst hu
          exact (h.gone u hc).1 hua
        · exact ha' (hu ▸ (h.moved u hua).2.1)
      constructor
      · rintro (⟨h6, -⟩ | ⟨-, u, -, h7⟩)
        · exact h6
        · exact absurd h7 (hno u)
      · rintro ⟨u, h6, rfl⟩
        exact .inl ⟨⟨u, h6, rfl⟩, hno u⟩
    · rw [if_neg hc]
      have hfa := hfix a hc
      constructor
      · rintro (⟨⟨u, h6, rfl⟩, h7⟩ | ⟨rfl, u, h6, h7⟩)
        · refine ⟨u, h6, ?_⟩
          rw [if_neg]
          rintro rfl
          exact h7 hfa
        · have : u = a := by
            by_contra hne
            by_cases hua : into u = u
            · exact hne (hua.symm.trans h7)
            · exact ha' (h7 ▸ (h.moved u hua).2.1)
          exact ⟨u, h6, by rw [if_pos this]⟩
      · rintro ⟨u, h6, h7⟩
        by_cases hua : u = a
        · rw [if_pos hua] at h7
          exact .inr ⟨h7.symm, u, h6, by rw [hua]; exact hfa⟩
        · rw [if_neg hua] at h7
          refine .inl ⟨⟨u, h6, h7⟩, ?_⟩
          rintro rfl
          by_cases hu2 : into u = u
          · exact hua (hu2.symm.trans h7)
          · exact ha' (h7 ▸ (h.moved u hu2).2.1)
  · rw [← h.surfs, hm']
  · rw [← h.volus, hm']

theorem merge_blocks {impacts : Impacts} {m : Mesh} {L F : Impacts} (h : Blocks L F) :
    ∀ {s : MergeState} {into : Int → Int}, MergeInv impacts m s into → F.Pairwise (fun p q => q.2 ≠ p.1) →
    (∀ f ∈ F, f.2 ∉ s.remove) → (∀ f ∈ F, f ∈ impacts ∧ HasVert m f.1 ∧ HasVert m f.2 ∧ 0 < f.2) →
    ∃ s' into', mergeSimple L s = .ok s' ∧ MergeInv impacts m s' into' ∧
      (∀ x ∈ s.remove, x ∈ s'.remove) ∧ (F ≠ [] → s.stop = [] → s'.remove ≠ []) := by
  induction h with
  | nil =>
    intro s into h _ _ _
    exact ⟨s, into, rfl, h, fun _ h => h, fun h => absurd rfl h⟩
  | @single a k r F hk _ ih =>
    intro s into h hp hr hf
    obtain ⟨s', into', h1, h2⟩ := ih h hp hr hf
    exact ⟨s', into', by rw [mergeSimple, if_neg (by omega)]; exact h1, h2⟩
  | @pair a b r F hab _ ih =>
    intro s into h hp hr hf
    obtain ⟨hin, hva, hvb, hpos⟩ := hf (a, b) (by simp)
    have hp' := List.pairwise_cons.mp hp
    by_cases hc : a ∉ s.stop ∧ b ∉ s.stop
    · obtain ⟨conn, h1, h2⟩ := merge_step h hab hva hvb hin hc.1 (hr (a, b) (by simp))
      obtain ⟨s', into', h3, h4, h5, -⟩ := ih h2 hp'.2 (by
        intro f hF
        simp only [List.mem_append, List.mem_singleton, not_or]
        exact ⟨hr f (by simp [hF]), hp'.1 f hF⟩) (fun f hF => hf f (by simp [hF]))
      refine ⟨s', into', ?_, h4, fun x hx => h5 x (by simp [hx]), fun _ _ hn => ?_⟩
      · rw [mergeSimple, if_pos ⟨hpos, hc⟩, h1]
        simp only [Except.bind]
        rw [mergeSimple, if_neg (by simp)]
        exact h3
      · have := h5 a (by simp)
        rw [hn] at this
        cases this
    · obtain ⟨s', into', h3, h4, h5, -⟩ := ih h hp'.2 (fun f hF => hr f (by simp [hF]))
        (fun f hF => hf f (by simp [hF]))
      refine ⟨s', into', ?_, h4, h5, fun _ hn => ?_⟩
      · rw [mergeSimple, if_neg (by tauto), mergeSimple, if_neg (by tauto)]
        exact h3
      · exact absurd ⟨by rw [hn]; simp, by rw [hn]; simp⟩ hc

/-! ### Detection -/

section
variable {K : Type} [Field K] [LinearOrder K]

/-- No report is into what an earlier one removes. -/
def InOrder (F : Impacts) : Prop := F.Pairwise fun p q => q.2 ≠ p.1

theorem impactPairs_blocks {eps : K} {a : Snax K} : ∀ {r : List (Snax K)}, a.index ∉ r.map Snax.index →
    ∃ F, Blocks (impactPairs eps a r) F ∧ ∀ f ∈ F, f.1 = a.index ∧ f.2 ∈ r.map Snax.index
  | [], _ => ⟨[], .nil, by simp⟩
  | b :: r, h => by
    simp only [List.map_cons, List.mem_cons, not_or] at h
    obtain ⟨F, h1, h2⟩ := impactPairs_blocks (eps := eps) h.2
    unfold impactPairs
    by_cases hc : (a.orderedge - b.orderedge).natAbs = 1 ∧ approxEq eps (impactDt eps a b) 0 = true
    · rw [if_pos hc]
      refine ⟨(a.index, b.index) :: F, .pair h.1 h1, ?_⟩
      intro f hf
      rcases List.mem_cons.mp hf with rfl | hf
      · simp
      · exact ⟨(h2 f hf).1, by simp only [List.map_cons, List.mem_cons]; exact .inr (h2 f hf).2⟩
    · rw [if_neg hc]
      exact ⟨F, h1, fun f hf => ⟨(h2 f hf).1, by simp only [List.map_cons, List.mem_cons]; exact .inr (h2 f hf).2⟩⟩

theorem impactEnd_blocks (eps : K) (n : Nat) (a : Snax K) : Blocks (impactEnd eps n a) [] := by
  unfold impactEnd
  split
  · exact .single (by decide) .nil
  · split
    · exact .single (by decide) .nil
    · exact .nil

theorem impactAlone_blocks (eps : K) (a : Snax K) : Blocks (impactAlone eps a) [] := by
  unfold impactAlone
  split
  · exact .single (by decide) .nil
  · split
    · exact .single (by decide) .nil
    · exact .nil

theorem detect_blocks {eps : K} {n : Nat} : ∀ {l : List (Snax K)}, (l.map Snax.index).Nodup →
    ∃ F, Blocks (detectImpactLoop eps n l) F ∧ InOrder F ∧
      ∀ f ∈ F, f.1 ∈ l.map Snax.index ∧ f.2 ∈ l.map Snax.index
  | [], _ => ⟨[], .nil, .nil, by simp⟩
  | a :: r, h => by
    simp only [List.map_cons, List.nodup_cons] at h
    obtain ⟨F, h1, h2⟩ := impactPairs_blocks (eps := eps) h.1
    obtain ⟨G, h3, h4, h5⟩ := detect_blocks (eps := eps) (n := n) h.2
    refine ⟨(F ++ []) ++ G, (h1.append (impactEnd_blocks eps n a)).append h3, ?_, ?_⟩
    · rw [List.append_nil]
      refine List.pairwise_append.mpr ⟨?_, h4, ?_⟩
      · apply List.pairwise_of_forall_mem_list
        intro p hp q hq hc
        rw [(h2 p hp).1] at hc
        exact h.1 (hc ▸ (h2 q hq).2)
      · intro p hp q hq hc
        rw [(h2 p hp).1] at hc
        exact h.1 (hc ▸ (h5 q hq).2)
    · intro f hf
      simp only [List.map_cons, List.mem_cons]
      rcases List.mem_append.mp hf with hf | hf
      · rw [List.append_nil] at hf
        exact ⟨.inl (h2 f hf).1, .inr (h2 f hf).2⟩
      · exact ⟨.inr (h5 f hf).1, .inr (h5 f hf).2⟩

/-- `i` is the index of a snaxel at a position that is not marked. -/
def Unmarked (l : List (Snax K)) (done : Nat → Bool) (i : Int) : Prop :=
  ∃ k a, l[k]? = some a ∧ done k = false ∧ a.index = i

omit [Field K] [LinearOrder K] in
theorem position_unique {l : List (Snax K)} (h : (l.map Snax.index).Nodup) {i j : Nat} {a b : Snax K}
    (ha : l[i]? = some a) (hb : l[j]? = some b) (he : a.index = b.index) : i = j := by
  obtain ⟨hi, rfl⟩ := List.getElem?_eq_some_iff.mp ha
  obtain ⟨hj, rfl⟩ := List.getElem?_eq_some_iff.mp hb
  exact (List.Nodup.getElem_inj_iff h (hi := by simpa using hi) (hj := by simpa using hj)).mp (by simpa using he)

omit [Field K] [LinearOrder K] in
theorem subs_nodup {l : List (Snax K)} (h : (l.map Snax.index).Nodup) : ∀ {p : List Nat}, p.Nodup →
    (((p.filterMap (l[·]?))).map Snax.index).Nodup
  | [], _ => by simp
  | i :: p, hp => by
    rw [List.nodup_cons] at hp
    have ih := subs_nodup h hp.2
    cases hi : l[i]? with
    | none => rw [List.filterMap_cons_none hi]; exact ih
    | some a =>
      rw [List.filterMap_cons_some hi, List.map_cons, List.nodup_cons]
      refine ⟨?_, ih⟩
      intro hm
      obtain ⟨b, hb, hbi⟩ := List.mem_map.mp hm
      obtain ⟨j, hj, hb⟩ := List.mem_filterMap.mp hb
      exact hp.1 (position_unique h hi hb hbi.symm ▸ hj)

theorem impactLoop_blocks {eps : K} {l : List (Snax K)} {subs : Int → List Nat} (hl : (l.map Snax.index).Nodup)
    (hs : ListsEdges l subs) : ∀ (is : List Nat) (done : Nat → Bool), (∀ i ∈ is, i < l.length) →
    (∀ i j a b, l[i]? = some a → l[j]? = some b → a.edgeind = b.edgeind → done i = done j) →
    ∃ L F, impactLoop eps l subs is done = .ok L ∧ Blocks L F ∧ InOrder F ∧
      ∀ f ∈ F, Unmarked l done f.1 ∧ Unmarked l done f.2
  | [], _, _, _ => ⟨[], [], rfl, .nil, .nil, by simp⟩
  | i :: is, done, hi, hd => by
    have hi' : ∀ i ∈ is, i < l.length := fun j hj => hi j (by simp [hj])
    unfold impactLoop
    by_cases hc : done i = true
    · rw [if_pos hc]
      exact impactLoop_blocks hl hs is done hi' hd
    · rw [if_neg hc]
      have hlt := hi i (by simp)
      have hget : l[i]? = some l[i] := List.getElem?_eq_getElem hlt
      rw [hget]
      simp only
      generalize l[i] = a at hget
      have hmem : i ∈ subs a.edgeind := (hs a.edgeind).2 i |>.mpr ⟨a, hget, rfl⟩
      have hdone : ∀ k ∈ subs a.edgeind, done k = false := by
        intro k hk
        obtain ⟨b, hb, hbe⟩ := ((hs a.edgeind).2 k).mp hk
        rw [hd k i b a hb hget hbe]
        simpa using hc
      have hd' : ∀ j k b c, l[j]? = some b → l[k]? = some c → b.edgeind = c.edgeind →
          (if j ∈ subs a.edgeind then true else done j) = (if k ∈ subs a.edgeind then true else done k) := by
        intro j k b c hb hcc he
        have : j ∈ subs a.edgeind ↔ k ∈ subs a.edgeind := by
          rw [(hs a.edgeind).2, (hs a.edgeind).2, hb, hcc]
          simp [he]
        simp only [this, hd j k b c hb hcc he]
      have hun : ∀ x, Unmarked l (fun x => if x ∈ subs a.edgeind then true else done x) x → Unmarked l done x := by
        rintro x ⟨k, b, h1, h2, h3⟩
        simp only at h2
        split at h2
        · cases h2
        · exact ⟨k, b, h1, h2, h3⟩
      by_cases h1 : (subs a.edgeind).length = 1
      · rw [if_pos h1]
        obtain ⟨j, hj⟩ := List.length_eq_one_iff.mp h1
        have hij : i = j := by rw [hj] at hmem; simpa using hmem
        have hfun : (fun x => if x = i then true else done x) = fun x => if x ∈ subs a.edgeind then true else done x := by
          funext x
          rw [hj, hij]
          simp
        rw [hfun]
        obtain ⟨L, F, h2, h3, h4, h5⟩ := impactLoop_blocks hl hs is _ hi' hd'
        rw [h2]
        exact ⟨_, [] ++ F, rfl, (impactAlone_blocks eps a).append h3, h4,
          fun f hf => ⟨hun _ (h5 f hf).1, hun _ (h5 f hf).2⟩⟩
      · have h2 : (subs a.edgeind).length > 1 := by
          have := List.length_pos_of_mem hmem
          omega
        rw [if_neg h1, if_pos h2]
        obtain ⟨L, F, h3, h4, h5, h6⟩ := impactLoop_blocks hl hs is _ hi' hd'
        obtain ⟨G, g1, g2, g3⟩ := detect_blocks (eps := eps)
          (n := ((subs a.edgeind).filterMap (l[·]?)).length) (subs_nodup hl (hs a.edgeind).1)
        have hG : ∀ x ∈ ((subs a.edgeind).filterMap (l[·]?)).map Snax.index,
            ∃ k b, l[k]? = some b ∧ k ∈ subs a.edgeind ∧ b.index = x := by
          intro x hx
          obtain ⟨b, hb, hbi⟩ := List.mem_map.mp hx
          obtain ⟨k, hk, hb⟩ := List.mem_filterMap.mp hb
          exact ⟨k, b, hb, hk, hbi⟩
        rw [h3]
        refine ⟨_, G ++ F, rfl, g1.append h4, List.pairwise_append.mpr ⟨g2, h5, ?_⟩, ?_⟩
        · intro p hp q hq hcon
          obtain ⟨k, b, h7, h8, h9⟩ := hG _ (g3 p hp).1
          obtain ⟨k', b', h7', h8', h9'⟩ := (h6 q hq).2
          have := position_unique hl h7' h7 (by rw [h9', h9]; exact hcon)
          subst this
          simp [h8] at h8'
        · intro f hf
          rcases List.mem_append.mp hf with hf | hf
          · obtain ⟨k, b, h7, h8, h9⟩ := hG _ (g3 f hf).1
            obtain ⟨k', b', h7', h8', h9'⟩ := hG _ (g3 f hf).2
            exact ⟨⟨k, b, h7, hdone k h8, h9⟩, ⟨k', b', h7', hdone k' h8', h9'⟩⟩
          · exact ⟨hun _ (h6 f hf).1, hun _ (h6 f hf).2⟩

theorem detection_blocks (eps : K) {l : List (Snax K)} {subs : Int → List Nat} (hl : (l.map Snax.index).Nodup)
    (hs : ListsEdges l subs) : ∃ L F, snaxImpactDetection eps l subs = .ok L ∧ Blocks L F ∧ InOrder F ∧
      ∀ f ∈ F, f.1 ∈ l.map Snax.index ∧ f.2 ∈ l.map Snax.index := by
  obtain ⟨L, F, h1, h2, h3, h4⟩ := impactLoop_blocks (eps := eps) hl hs (List.range l.length) (fun _ => false)
    (by simp) (by simp)
  refine ⟨L, F, h1, h2, h3, fun f hf => ?_⟩
  obtain ⟨⟨k, a, ha, -, hai⟩, ⟨k', b, hb, -, hbi⟩⟩ := h4 f hf
  exact ⟨hai ▸ List.mem_map_of_mem (List.mem_of_getElem? ha), hbi ▸ List.mem_map_of_mem (List.mem_of_getElem? hb)⟩

theorem blocks_nonpos : ∀ {l : Impacts}, (∀ p ∈ l, p.2 ≤ 0) → Blocks l []
  | [], _ => .nil
  | (a, k) :: _, h => .single (h (a, k) (by simp)) (blocks_nonpos fun p hp => h p (by simp [hp]))

end

/-! ### The whole function -/

theorem stopSnax_eq {K : Type} [Zero K] : ∀ (stop : List Int) (l : List (Snax K)),
    (l.map Snax.index).Nodup → (∀ b ∈ stop, b ∈ l.map Snax.index) →
    stopSnax stop l = .ok (l.map fun x => if x.index ∈ stop then { x with v := 0 } else x)
  | [], l, _, _ => by simp [stopSnax]
  | b :: r, l, hn, h => by
    have hb := h b (by simp)
    unfold stopSnax
    rw [modAt_posOf hn (List.mem_map.mp hb)]
    simp only [Except.bind]
    have hi : (l.map fun a => if a.index = b then { a with v := 0 } else a).map Snax.index = l.map Snax.index := by
      rw [List.map_map]
      apply List.map_congr_left
      intro a _
      simp only [Function.comp]
      split <;> rfl
    rw [stopSnax_eq r _ (by rw [hi]; exact hn) (fun x hx => by rw [hi]; exact h x (by simp [hx])), List.map_map]
    congr 1
    apply List.map_congr_left
    intro a _
    simp only [Function.comp, List.mem_cons]
    by_cases h1 : a.index = b
    · simp [h1]
    · simp [h1]

theorem removeIdx_index {α : Type} {ix : α → Int} (l : List α) (d : List Int) :
    (removeIdx ix l d).map ix = (l.map ix).filter fun i => i ∉ d := by
  unfold removeIdx
  rw [List.filter_map]
  congr 1
  apply List.filter_congr
  intro a _
  simp

theorem merge_all {K : Type} [Zero K] {s : Snake K} {impacts F : Impacts} (hs : Sound s.conn) (h2 : TwoVerts s.conn)
    (hl : NoLoops s.conn) (ho : ListedOnce s.conn) (hi : InStep s) (hb : Blocks impacts F) (hF : InOrder F)
    (hm : ∀ f ∈ F, f.1 ∈ s.snaxs.map Snax.index ∧ f.2 ∈ s.snaxs.map Snax.index) :
    ∃ s' into, mergeAllContactVertices s impacts = .ok s' ∧ MergedInto impacts s s' into ∧ Sound s'.conn ∧
      InStep s' := by
  have hmem : ∀ i, i ∈ s.snaxs.map Snax.index ↔ HasVert s.conn i := by
    intro i; rw [hi.verts]; simp [HasVert]
  have hnd : (s.snaxs.map Snax.index).Nodup := by rw [hi.verts]; exact hs.unique.verts
  have inv0 : MergeInv impacts s.conn { conn := s.conn } id :=
    { sound := hs, two := h2, once := ho, loops := fun e he x hx => absurd hx (hl e he x)
      moved := fun x hx => absurd rfl hx, gone := by simp, apart := by simp, hit := by simp, verts := rfl
      coord := fun x hx => ⟨x, hx, rfl, rfl⟩, edges := rfl, edgeVert := by simp, edgeSurf := fun _ _ => Iff.rfl
      surfs := rfl, volus := rfl }
  obtain ⟨m, into, e1, inv, -, hprog⟩ := merge_blocks hb inv0 hF (by simp) (fun f hf =>
    ⟨hb.mem f hf, (hmem _).mp (hm f hf).1, (hmem _).mp (hm f hf).2, hs.pos.verts _ ((hmem _).mp (hm f hf).2)⟩)
  have e0 : mergeLoop impacts impacts 0 (fun _ => false) { conn := s.conn } = .ok m := by
    rw [← e1]
    exact mergeLoop_eq impacts [] _ _ (by simp)
  have e2 := stopSnax_eq m.stop s.snaxs hnd (fun b hb' => (hmem b).mpr (inv.hit b hb').1)
  have hrem : ∀ x, x ∈ m.remove ↔ into x ≠ x := fun x => ⟨fun h => (inv.gone x h).1, fun h => (inv.moved x h).1⟩
  have hidem : ∀ x, into x ≠ x → into (into x) = into x := by
    intro x hx
    by_contra hc
    exact inv.apart _ (inv.moved x hx).2.1 ((hrem _).mpr hc)
  have hfix : ∀ u, into (into u) = into u := by
    intro u
    by_cases hu : into u = u
    · rw [hu]; exact hu
    · exact hidem u hu
  have hfilter : ∀ l : List Int, (l.filter fun i => i ∉ m.remove) = l.filter fun i => into i = i := by
    intro l
    apply List.filter_congr
    intro i _
    have := hrem i
    by_cases h : into i = i <;> simp_all
  have hst : ((s.snaxs.map fun x => if x.index ∈ m.stop then { x with v := 0 } else x).map Snax.index) =
      s.snaxs.map Snax.index := by
    rw [List.map_map]
    apply List.map_congr_left
    intro a _
    simp only [Function.comp]
    split <;> rfl
  have hfree : ∀ k ∈ m.remove, VertFree m.conn k := by
    intro k hk
    refine ⟨ne_of_gt (hs.pos.verts k (inv.gone k hk).2), fun e he => ?_⟩
    obtain ⟨u, -, hu⟩ := (inv.edgeVert e k).mp he
    exact (hrem k).mp hk (hu ▸ hfix u)
  have hsound := remove_sound (vd := m.remove) (ed := []) (sd := []) (cd := []) inv.sound hfree (by simp) (by simp)
    (by simp)
  have hnil : ∀ {α : Type} (ix : α → Int) (l : List α), removeIdx ix l [] = l := by
    intro α ix l; simp [removeIdx]
  rw [hnil, hnil, hnil] at hsound
  refine ⟨_, into, by rw [mergeAllContactVertices, e0]; simp only [Except.bind, e2, Except.map]; rfl, ?_, hsound, ?_⟩
  · refine
      { reported := fun a ha => ⟨(inv.moved a ha).2.2, (inv.gone a (inv.moved a ha).1).2,
          (inv.hit _ (inv.moved a ha).2.1).1, hidem a ha⟩
        progress := ?_, snaxs := ?_, verts := ?_, kept := ?_, stopped := ?_, coord := ?_, edges := inv.edges
        edgeVert := inv.edgeVert, edgeSurf := inv.edgeSurf, surfs := inv.surfs, volus := inv.volus
        layers := ⟨rfl, rfl⟩, rest := ⟨rfl, rfl, rfl⟩ }
    · intro hp
      obtain ⟨a, ha⟩ := List.exists_mem_of_ne_nil _ (hprog (hb.first hp) rfl)
      exact ⟨a, (hrem a).mp ha⟩
    · simp only
      rw [removeIdx_index, hst, hfilter]
    · simp only
      rw [removeIdx_index, inv.verts, hfilter]
    · intro x hx
      obtain ⟨hx, -⟩ := mem_removeIdx.mp hx
      obtain ⟨y, hy, rfl⟩ := List.mem_map.mp hx
      refine ⟨y, hy, ?_⟩
      by_cases hc : y.index ∈ m.stop
      · rw [if_pos hc]
        exact .inr ⟨rfl, (inv.hit _ hc).2⟩
      · rw [if_neg hc]
        exact .inl rfl
    · intro x hx a ha hxa
      obtain ⟨hx, -⟩ := mem_removeIdx.mp hx
      obtain ⟨y, hy, rfl⟩ := List.mem_map.mp hx
      have hy' : y.index = into a := by
        rw [← hxa]; split <;> rfl
      rw [if_pos (hy' ▸ (inv.moved a ha).2.1)]
    · intro x hx
      exact inv.coord x (mem_removeIdx.mp hx).1
  · refine ⟨?_, ?_, ?_⟩
    · simp only
      rw [removeIdx_index, hst, removeIdx_index, inv.verts, hi.verts]
    · simp only
      rw [inv.edges, hi.edges]
    · simp only
      rw [inv.surfs, hi.surfs]

end RSVS
