import Verif.Spec.CellVolume
import Verif.Lemmas.Mesh
import Mathlib.Algebra.BigOperators.Group.List.Basic
import Mathlib.Tactic.Ring

/-!
# C140: the volumes of the cells of a mesh
-/

namespace RSVS.CellVolume

open RSVS.Mesh RSVS.Spec RSVS.Lineage

/-- A value for each cell, in the order of the cells. -/
def perCell (volus : List Cell) (F : Int → ℚ) : List ℚ := volus.map fun v => F v.index

theorem filter_key : ∀ (l : List (Int × Int)), (l.map Prod.fst).Nodup → ∀ a p, (a, p) ∈ l → l.filter (fun x => x.1 = a) = [(a, p)]
  | [], _, _, _, h => by simp at h
  | (b, q) :: l, hn, a, p, h => by
    rw [List.map_cons, List.nodup_cons] at hn
    rcases List.mem_cons.1 h with h | h
    · cases h
      rw [List.filter_cons_of_pos (by simp), List.filter_eq_nil_iff.2]
      intro x hx hxa
      exact hn.1 (List.mem_map.2 ⟨x, hx, by simpa using hxa⟩)
    · rw [List.filter_cons_of_neg, filter_key l hn.2 a p h]
      intro hb
      exact hn.1 (List.mem_map.2 ⟨_, h, by simpa using Eq.symm (by simpa using hb : b = a)⟩)

theorem map_keys (volus : List Cell) : (meshConstrMap volus).map Prod.fst = volus.map Cell.index := by
  unfold meshConstrMap
  rw [List.map_map]
  apply List.ext_getElem
  · simp
  · intro i h1 h2
    simp

theorem accumulate_one {volus : List Cell} (hn : (volus.map Cell.index).Nodup) (F : Int → ℚ) (c : Int) (x : ℚ) :
    ((meshConstrMap volus).filter (·.1 = c)).foldlM (m := Except Fault) (fun v p => addConstr x v p.2) (perCell volus F) =
      .ok (perCell volus fun d => F d + if d = c then x else 0) := by
  by_cases h : ∃ i, ∃ h : i < volus.length, volus[i].index = c
  · obtain ⟨i, hi, rfl⟩ := h
    have hmem : (volus[i].index, (i : Int)) ∈ meshConstrMap volus := by
      unfold meshConstrMap
      exact List.mem_map.2 ⟨(volus[i], i), by rw [List.mem_zipIdx_iff_getElem?]; exact List.getElem?_eq_getElem hi, rfl⟩
    rw [filter_key _ (by rw [map_keys]; exact hn) _ _ hmem]
    have hlen : (perCell volus F).length = volus.length := by simp [perCell]
    rw [List.foldlM_cons]
    unfold addConstr
    simp only
    rw [if_neg (by omega), if_neg (by rw [hlen]; omega)]
    change Except.ok _ = _
    congr 1
    apply List.ext_getElem
    · simp [perCell]
    · intro j h1 h2
      have hj : j < volus.length := by simpa [perCell] using h2
      rw [List.getElem_modify]
      simp only [Int.toNat_natCast]
      simp only [perCell, List.getElem_map]
      by_cases hij : i = j
      · subst hij; simp
      · rw [if_neg hij, if_neg, add_zero]
        intro he
        have : (volus.map Cell.index)[j]'(by simpa using hj) = (volus.map Cell.index)[i]'(by simpa using hi) := by simpa using he
        exact hij ((hn.getElem_inj_iff).1 this).symm
  · have hf : (meshConstrMap volus).filter (·.1 = c) = [] := by
      rw [List.filter_eq_nil_iff]
      intro p hp hpc
      have : p.1 ∈ volus.map Cell.index := by rw [← map_keys]; exact List.mem_map_of_mem hp
      obtain ⟨v, hv, he⟩ := List.mem_map.1 this
      obtain ⟨i, hi, rfl⟩ := List.mem_iff_getElem.1 hv
      exact h ⟨i, hi, he.trans (by simpa using hpc)⟩
    rw [hf]
    change Except.ok _ = _
    congr 1
    unfold perCell
    apply List.map_congr_left
    intro v hv
    simp only
    rw [if_neg, add_zero]
    intro he
    obtain ⟨i, hi, rfl⟩ := List.mem_iff_getElem.1 hv
    exact h ⟨i, hi, he⟩

theorem triangle_ok {volus : List Cell} (hn : (volus.map Cell.index).Nodup) {cells : List Int} (hc : cells.length ≤ 2) (F : Int → ℚ) (x : ℚ) :
    ((contributions cells x).bind fun w => accumulate (meshConstrMap volus) w (perCell volus F)) =
      .ok (perCell volus fun d => F d + ((if cells[1]? = some d then x else 0) - (if cells[0]? = some d then x else 0))) := by
  match cells, hc with
  | [], _ =>
    change Except.ok _ = _
    simp
  | [a], _ =>
    unfold contributions
    simp only [Except.bind]
    unfold accumulate
    rw [List.foldlM_cons]
    simp only
    rw [accumulate_one hn]
    change Except.ok _ = _
    congr 2
    funext d
    by_cases h : a = d
    · subst h; simp
    · simp [h, Ne.symm h]
  | [a, b], _ =>
    unfold contributions
    simp only [Except.bind]
    unfold accumulate
    rw [List.foldlM_cons]
    simp only
    rw [accumulate_one hn]
    change List.foldlM (m := Except Fault) _ _ _ = _
    rw [List.foldlM_cons]
    simp only
    rw [accumulate_one hn]
    change Except.ok _ = _
    congr 2
    funext d
    simp only [List.getElem?_cons_zero, List.getElem?_cons_succ, Option.some.injEq, eq_comm (a := d)]
    split_ifs <;> ring

theorem facet_ok {volus : List Cell} (hn : (volus.map Cell.index).Nodup) {cells : List Int} (hc : cells.length ≤ 2) : ∀ (tris : List ℚ) (F : Int → ℚ),
    tris.foldlM (m := Except Fault) (fun v x => (contributions cells x).bind fun w => accumulate (meshConstrMap volus) w v) (perCell volus F) =
      .ok (perCell volus fun d => F d + ((if cells[1]? = some d then tris.sum else 0) - (if cells[0]? = some d then tris.sum else 0)))
  | [], F => by
    change Except.ok _ = _
    simp
  | x :: tris, F => by
    rw [List.foldlM_cons, triangle_ok hn hc]
    change List.foldlM (m := Except Fault) _ _ _ = _
    rw [facet_ok hn hc tris]
    congr 2
    funext d
    rw [List.sum_cons]
    split_ifs <;> ring

theorem calculate_ok {volus : List Cell} (hn : (volus.map Cell.index).Nodup) : ∀ (facets : List Facet), (∀ f ∈ facets, f.voluind.length ≤ 2) → ∀ F,
    facets.foldlM (m := Except Fault) (fun v f => f.tris.foldlM (m := Except Fault) (fun v x =>
      (contributions f.voluind x).bind fun w => accumulate (meshConstrMap volus) w v) v) (perCell volus F) =
      .ok (perCell volus fun d => F d + enclosed facets d)
  | [], _, F => by
    change Except.ok _ = _
    simp [enclosed]
  | f :: facets, hf, F => by
    rw [List.foldlM_cons, facet_ok hn (hf f (by simp))]
    change List.foldlM (m := Except Fault) _ _ _ = _
    rw [calculate_ok hn facets fun f h => hf f (by simp [h])]
    congr 2
    funext d
    unfold enclosed
    rw [List.map_cons, List.sum_cons]
    ring

theorem mapSelf_ok {F : Int → ℚ} : ∀ (done todo : List Cell), ((done ++ todo).map Cell.index).Nodup →
    mapVolu2Self (done ++ todo) (todo.map Cell.index) (perCell todo F) = .ok (done ++ todo.map fun v => { v with volume := F v.index })
  | done, [], _ => by simp [mapVolu2Self]
  | done, v :: todo, hn => by
    rw [List.map_cons]
    unfold perCell
    rw [List.map_cons]
    unfold mapVolu2Self
    rw [modAt_posOf (ix := Cell.index) hn ⟨v, by simp, rfl⟩]
    simp only [Except.bind]
    have hne : ∀ w ∈ done ++ todo, w.index ≠ v.index := by
      intro w hw he
      have hp : (v.index :: (done ++ todo).map Cell.index).Nodup := by
        have := (List.perm_middle (a := v) (l₁ := done) (l₂ := todo)).map Cell.index
        rw [List.map_cons] at this
        exact this.nodup_iff.1 hn
      exact (List.nodup_cons.1 hp).1 (he ▸ List.mem_map_of_mem hw)
    have hmap : (done ++ v :: todo).map (fun a => if a.index = v.index then { a with volume := F v.index } else a) =
        (done ++ [{ v with volume := F v.index }]) ++ todo := by
      rw [List.map_append, List.map_cons, if_pos rfl, List.append_assoc]
      congr 1
      · rw [List.map_congr_left (g := id), List.map_id]
        intro w hw
        exact if_neg (hne w (by simp [hw]))
      · rw [List.singleton_append]
        congr 1
        rw [List.map_congr_left (g := id), List.map_id]
        intro w hw
        exact if_neg (hne w (by simp [hw]))
    rw [hmap]
    have := mapSelf_ok (F := F) (done ++ [{ v with volume := F v.index }]) todo (by simpa using hn)
    unfold perCell at this
    rw [this]
    simp

/-- **C140**: each cell gets the volume inside its surfaces, and nothing else of it changes. -/
theorem C140_volumes {volus : List Cell} {facets : List Facet} (hn : (volus.map Cell.index).Nodup) (hf : ∀ f ∈ facets, f.voluind.length ≤ 2) :
    setVolumes volus facets = .ok (volus.map fun v => { v with volume := enclosed facets v.index }) := by
  unfold setVolumes calculateMesh
  have h0 : (volus.map fun _ => (0 : ℚ)) = perCell volus fun _ => 0 := rfl
  rw [h0, calculate_ok hn facets hf]
  simp only [Except.bind, map_keys]
  have := mapSelf_ok (F := fun d => 0 + enclosed facets d) [] volus (by simpa using hn)
  rw [List.nil_append] at this
  rw [this]
  simp

theorem sum_pick {volus : List Cell} (hn : (volus.map Cell.index).Nodup) (a : Int) (x : ℚ) :
    (volus.map fun v => if some a = some v.index then x else 0).sum = if a ∈ volus.map Cell.index then x else 0 := by
  induction volus with
  | nil => simp
  | cons v volus ih =>
    rw [List.map_cons, List.nodup_cons] at hn
    rw [List.map_cons, List.sum_cons, ih hn.2, List.map_cons]
    by_cases h : a = v.index
    · rw [h, if_pos rfl, if_neg hn.1, if_pos (by simp), add_zero]
    · rw [if_neg (by simpa using h), zero_add]
      simp only [List.mem_cons, h, false_or]

/-- **C140**, all cells together: the surfaces between two cells cancel, and the volumes of the cells add up to what is inside the surfaces with a cell on one side only.
0 stands for no cell. -/
theorem C140_total {volus : List Cell} {facets : List Facet} (hn : (volus.map Cell.index).Nodup) (h0 : 0 ∉ volus.map Cell.index)
    (hf : ∀ f ∈ facets, ∃ a b, f.voluind = [a, b] ∧ (a = 0 ∨ a ∈ volus.map Cell.index) ∧ (b = 0 ∨ b ∈ volus.map Cell.index)) :
    ∃ volus', setVolumes volus facets = .ok volus' ∧ (volus'.map Cell.volume).sum =
      (facets.map fun f => if f.voluind[0]? = some 0 ∧ f.voluind[1]? ≠ some 0 then f.tris.sum
        else if f.voluind[0]? ≠ some 0 ∧ f.voluind[1]? = some 0 then -f.tris.sum else 0).sum := by
  refine ⟨_, C140_volumes hn fun f h => ?_, ?_⟩
  · obtain ⟨a, b, h, -⟩ := hf f h
    rw [h]; rfl
  · rw [List.map_map]
    change (volus.map fun v => enclosed facets v.index).sum = _
    induction facets with
    | nil => simp [enclosed]
    | cons f facets ih =>
      have hstep : ∀ c, enclosed (f :: facets) c = ((if f.voluind[1]? = some c then f.tris.sum else 0) - (if f.voluind[0]? = some c then f.tris.sum else 0)) +
          enclosed facets c := fun c => by unfold enclosed; rw [List.map_cons, List.sum_cons]
      simp only [hstep]
      rw [List.sum_map_add, ih fun f h => hf f (by simp [h]), List.map_cons, List.sum_cons]
      congr 1
      obtain ⟨a, b, he, ha, hb⟩ := hf f (by simp)
      have e0 : f.voluind[0]? = some a := by rw [he]; rfl
      have e1 : f.voluind[1]? = some b := by rw [he]; rfl
      rw [e0, e1]
      have hsub : (volus.map fun v => (if some b = some v.index then f.tris.sum else 0) - (if some a = some v.index then f.tris.sum else 0)).sum =
          (volus.map fun v => if some b = some v.index then f.tris.sum else 0).sum - (volus.map fun v => if some a = some v.index then f.tris.sum else 0).sum := by
        clear ih hstep hn h0 ha hb hf
        induction volus with
        | nil => simp
        | cons v volus ih => simp only [List.map_cons, List.sum_cons, ih]; ring
      rw [hsub, sum_pick hn, sum_pick hn]
      rcases ha with rfl | ha <;> rcases hb with rfl | hb
      · simp [h0]
      · have : b ≠ 0 := fun h => h0 (h ▸ hb)
        rw [if_pos hb, if_neg h0]
        simp [this]
      · have : a ≠ 0 := fun h => h0 (h ▸ ha)
        rw [if_neg h0, if_pos ha]
        simp [this]
      · have h1 : b ≠ 0 := fun h => h0 (h ▸ hb)
        have h2 : a ≠ 0 := fun h => h0 (h ▸ ha)
        rw [if_pos hb, if_pos ha]
        simp [h1, h2]

/-- Two cells, 5 and 3, with a surface between them and one outside each. -/
example : setVolumes [{ index := 5 }, { index := 3 }] [⟨[5, 3], [1, 1 / 2]⟩, ⟨[0, 5], [4]⟩, ⟨[3, 0], [-2]⟩] =
    .ok [{ index := 5, volume := 5 / 2 }, { index := 3, volume := 7 / 2 }] := by decide +kernel

example : ∃ volus', setVolumes [{ index := 5 }, { index := 3 }] [⟨[5, 3], [1, 1 / 2]⟩, ⟨[0, 5], [4]⟩, ⟨[3, 0], [-2]⟩] = .ok volus' ∧
    (volus'.map Cell.volume).sum = 6 := by
  obtain ⟨v, h1, h2⟩ := C140_total (volus := [{ index := 5 }, { index := 3 }]) (facets := [⟨[5, 3], [1, 1 / 2]⟩, ⟨[0, 5], [4]⟩, ⟨[3, 0], [-2]⟩])
    (by decide) (by decide) (by
      intro f hf
      simp only [List.mem_cons, List.not_mem_nil, or_false] at hf
      rcases hf with rfl | rfl | rfl
      · exact ⟨5, 3, rfl, by simp, by simp⟩
      · exact ⟨0, 5, rfl, by simp, by simp⟩
      · exact ⟨3, 0, rfl, by simp, by simp⟩)
  exact ⟨v, h1, h2.trans (by decide +kernel)⟩

end RSVS.CellVolume
