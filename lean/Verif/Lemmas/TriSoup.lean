import Verif.Spec.TriSoup
import Verif.Lemmas.Mesh

/-!
# Lemmas on the mesh of separate triangles
-/

namespace RSVS.TriSoup

open RSVS.Mesh RSVS.Spec RSVS.Triang

/-- The volumes of a list which list surface `s`. -/
def Lists (l : List Volu) (c s : Int) : Prop := ∃ x ∈ l, x.index = c ∧ s ∈ x.surfind

theorem addSurf_eq {s c : Int} {l : List Volu} (hn : (l.map Volu.index).Nodup) :
    addSurf s l c = l.map fun x => if x.index = c then { x with surfind := x.surfind ++ [s] } else x := by
  unfold addSurf
  by_cases h : ∃ a ∈ l, a.index = c
  · have h1 := modAt_posOf hn h fun x => { x with surfind := x.surfind ++ [s] }
    obtain ⟨p, h2, h3, -⟩ := posOf_mem h
    rw [h2] at h1 ⊢
    unfold modAt at h1
    rw [if_neg (by omega), Int.toNat_natCast, if_pos h3] at h1
    simp only [Int.natCast_nonneg, if_true, Int.toNat_natCast]
    exact Except.ok.inj h1
  · have : posOf Volu.index l c = -1 := by
      rcases posOf_cases (ix := Volu.index) l c with ⟨h1, _⟩ | ⟨p, -, hp, h2⟩
      · exact h1
      · exact absurd ⟨_, List.getElem_mem hp, h2⟩ h
    rw [this]
    simp only [show ¬ (0 : Int) ≤ -1 by omega, if_false]
    symm
    rw [List.map_congr_left (g := id), List.map_id]
    intro x hx
    exact if_neg fun hc => h ⟨x, hx, hc⟩

theorem addSurf_index {s c : Int} {l : List Volu} (hn : (l.map Volu.index).Nodup) : (addSurf s l c).map Volu.index = l.map Volu.index := by
  rw [addSurf_eq hn, List.map_map]
  apply List.map_congr_left
  intro x _
  simp only [Function.comp]
  split <;> rfl

theorem addSurf_lists {s c : Int} {l : List Volu} (hn : (l.map Volu.index).Nodup) (c' s' : Int) :
    Lists (addSurf s l c) c' s' ↔ Lists l c' s' ∨ (c' ∈ l.map Volu.index ∧ s' = s ∧ c' = c) := by
  rw [addSurf_eq hn]
  constructor
  · rintro ⟨x, hx, h1, h2⟩
    obtain ⟨y, hy, rfl⟩ := List.mem_map.1 hx
    by_cases hc : y.index = c
    · rw [if_pos hc] at h1 h2
      rcases List.mem_append.1 h2 with h2 | h2
      · exact .inl ⟨y, hy, h1, h2⟩
      · exact .inr ⟨List.mem_map.2 ⟨y, hy, h1⟩, by simpa using h2, by rw [← h1]; exact hc⟩
    · rw [if_neg hc] at h1 h2
      exact .inl ⟨y, hy, h1, h2⟩
  · rintro (⟨y, hy, h1, h2⟩ | ⟨hm, rfl, rfl⟩)
    · refine ⟨_, List.mem_map_of_mem hy, ?_, ?_⟩
      · split <;> exact h1
      · split
        · exact List.mem_append_left _ h2
        · exact h2
    · obtain ⟨y, hy, h1⟩ := List.mem_map.1 hm
      exact ⟨_, List.mem_map_of_mem hy, by rw [if_pos h1]; exact h1, by rw [if_pos h1]; simp⟩

theorem addAll {s : Int} : ∀ (cs : List Int) (l : List Volu), (l.map Volu.index).Nodup →
    (cs.foldl (addSurf s) l).map Volu.index = l.map Volu.index ∧
    ∀ c' s', Lists (cs.foldl (addSurf s) l) c' s' ↔ Lists l c' s' ∨ (c' ∈ l.map Volu.index ∧ s' = s ∧ c' ∈ cs)
  | [], l, _ => ⟨rfl, by simp⟩
  | c :: cs, l, hn => by
    have hi := addSurf_index (s := s) (c := c) hn
    obtain ⟨h1, h2⟩ := addAll (s := s) cs (addSurf s l c) (by rw [hi]; exact hn)
    refine ⟨by rw [List.foldl_cons, h1, hi], fun c' s' => ?_⟩
    rw [List.foldl_cons, h2, addSurf_lists hn, hi, List.mem_cons]
    tauto

/-- The surface of the triangle at position `ii`. -/
def soupSurf (ii : Nat) (cells : List Int) : Surf :=
  { index := (ii : Int) + 1, edgeind := [(ii : Int) * 3 + 1, (ii : Int) * 3 + 2, (ii : Int) * 3 + 3], voluind := cells }

theorem surfLoop_ok {find : Int → List Int} : ∀ (ts : List Triangle) (ii : Nat) (volus : List Volu), (volus.map Volu.index).Nodup →
    (∀ t ∈ ts, ∃ l, soupCells find t = .ok l) →
    ∃ ss vs, surfLoop find ts ii volus = .ok (ss, vs) ∧ ss.length = ts.length ∧ vs.map Volu.index = volus.map Volu.index ∧
      (∀ (i : Nat) t, ts[i]? = some t → ∃ cells, soupCells find t = .ok cells ∧ ss[i]? = some (soupSurf (ii + i) cells)) ∧
      ∀ c s, Lists vs c s ↔ Lists volus c s ∨ (c ∈ volus.map Volu.index ∧ ∃ y ∈ ss, y.index = s ∧ c ∈ y.voluind)
  | [], _, volus, _, _ => ⟨[], volus, rfl, rfl, rfl, by simp, by simp⟩
  | t :: ts, ii, volus, hn, hc => by
    obtain ⟨cells, hcells⟩ := hc t (by simp)
    obtain ⟨a1, a2⟩ := addAll (s := (ii : Int) + 1) cells volus hn
    obtain ⟨ss, vs, h1, h2, h3, h4, h5⟩ := surfLoop_ok (find := find) ts (ii + 1) (cells.foldl (addSurf ((ii : Int) + 1)) volus) (by rw [a1]; exact hn)
      fun t ht => hc t (by simp [ht])
    refine ⟨soupSurf ii cells :: ss, vs, ?_, by simp [h2], by rw [h3, a1], ?_, ?_⟩
    · unfold surfLoop
      rw [hcells]
      simp only [Except.bind]
      rw [h1]
      rfl
    · intro i t' ht
      match i with
      | 0 =>
        simp at ht
        subst ht
        exact ⟨cells, hcells, by simp⟩
      | i + 1 =>
        obtain ⟨cl, q1, q2⟩ := h4 i t' (by simpa using ht)
        exact ⟨cl, q1, by rw [List.getElem?_cons_succ, q2, show ii + 1 + i = ii + (i + 1) by omega]⟩
    · intro c s
      rw [h5, a2, a1]
      constructor
      · rintro ((h | ⟨h, rfl, h'⟩) | ⟨h, y, hy, h'⟩)
        · exact .inl h
        · exact .inr ⟨h, _, List.mem_cons_self, rfl, h'⟩
        · exact .inr ⟨h, y, List.mem_cons_of_mem _ hy, h'⟩
      · rintro (h | ⟨h, y, hy, e1, e2⟩)
        · exact .inl (.inl h)
        · rcases List.mem_cons.1 hy with rfl | hy
          · exact .inl (.inr ⟨h, e1.symm, e2⟩)
          · exact .inr ⟨h, y, hy, e1, e2⟩

theorem mem_find {find : Int → List Int} {constr : List (Int × Int)} (hf : HashOf constr find) {c k : Int} : k ∈ find c ↔ (c, k) ∈ constr := by
  rw [(hf c).mem_iff, List.mem_map]
  constructor
  · rintro ⟨⟨a, b⟩, h, rfl⟩
    obtain ⟨h1, h2⟩ := List.mem_filter.1 h
    have h3 : a = c := by simpa using h2
    rw [← h3]
    exact h1
  · intro h
    exact ⟨(c, k), List.mem_filter.2 ⟨h, by simp⟩, rfl⟩

theorem soupCells_ok {find : Int → List Int} {constr : List (Int × Int)} (hf : HashOf constr find) {t : Triangle}
    (hc : ∃ p ∈ constr, p.1 ∈ t.celltarg) (hi : t.influence ≠ []) :
    ∃ l, soupCells find t = .ok l ∧ ∀ c, c ≠ 0 → (c ∈ l ↔ ∃ x ∈ t.celltarg, (x, c - 1) ∈ constr) := by
  obtain ⟨w, ws, hw⟩ := List.exists_cons_of_ne_nil hi
  unfold soupCells
  have hmem : ∀ c, c ∈ (t.celltarg.flatMap fun c => (find c).map fun (x : Int) => x + 1) ↔ ∃ x ∈ t.celltarg, (x, c - 1) ∈ constr := by
    intro c
    rw [List.mem_flatMap]
    constructor
    · rintro ⟨x, hx, h⟩
      obtain ⟨k, hk, rfl⟩ := List.mem_map.1 h
      exact ⟨x, hx, by rw [show k + 1 - 1 = k by omega]; exact (mem_find hf).1 hk⟩
    · rintro ⟨x, hx, hk⟩
      exact ⟨x, hx, List.mem_map.2 ⟨c - 1, (mem_find hf).2 hk, by omega⟩⟩
  have hne : (t.celltarg.flatMap fun c => (find c).map fun (x : Int) => x + 1) ≠ [] := by
    obtain ⟨⟨c, k⟩, hc, hcc⟩ := hc
    exact List.ne_nil_of_mem ((hmem (k + 1)).2 ⟨c, hcc, by rw [show k + 1 - 1 = k by omega]; exact hc⟩)
  revert hmem hne
  generalize (t.celltarg.flatMap fun c => (find c).map fun (x : Int) => x + 1) = l
  intro hmem hne
  have hw0 : vecGet t.influence 0 = .ok w := by rw [hw]; rfl
  simp only [hw0, Except.bind]
  match l, hne with
  | [a], _ =>
    by_cases h1 : w = 1
    · rw [if_pos h1]
      refine ⟨[0, a], rfl, fun c hc => ?_⟩
      rw [← hmem]; simp [hc]
    · rw [if_neg h1]
      refine ⟨[a, 0], rfl, fun c hc => ?_⟩
      rw [← hmem]; simp [hc]
  | a :: b :: r, _ =>
    by_cases h1 : w = 1
    · rw [if_pos h1]
      refine ⟨b :: a :: r, by simp [vecGet], fun c _ => ?_⟩
      rw [← hmem]; simp only [List.mem_cons]; tauto
    · rw [if_neg h1]
      exact ⟨a :: b :: r, by rw [if_neg (by simp)], fun c _ => hmem c⟩

theorem filter_single : ∀ (l : List (Int × Int)), (l.map Prod.fst).Nodup → ∀ a p, (a, p) ∈ l → l.filter (fun x => x.1 = a) = [(a, p)]
  | [], _, _, _, h => by simp at h
  | (b, q) :: l, hn, a, p, h => by
    rw [List.map_cons, List.nodup_cons] at hn
    rcases List.mem_cons.1 h with h | h
    · cases h
      rw [List.filter_cons_of_pos (by simp), List.filter_eq_nil_iff.2]
      intro x hx hxa
      exact hn.1 (List.mem_map.2 ⟨x, hx, by simpa using hxa⟩)
    · rw [List.filter_cons_of_neg, filter_single l hn.2 a p h]
      intro hb
      exact hn.1 (List.mem_map.2 ⟨_, h, by simpa using Eq.symm (by simpa using hb : b = a)⟩)

theorem find_single {find : Int → List Int} {constr : List (Int × Int)} (hf : HashOf constr find) (hn : (constr.map Prod.fst).Nodup) {a p : Int}
    (h : (a, p) ∈ constr) : find a = [p] := by
  have := hf a
  rw [filter_single constr hn a p h] at this
  exact List.perm_singleton.1 this

theorem soupCells_sides {find : Int → List Int} {constr : List (Int × Int)} (hf : HashOf constr find) (hn : (constr.map Prod.fst).Nodup) {t : Triangle} {a b p q : Int}
    (ht : t.celltarg = [a, b]) (ha : (a, p) ∈ constr) (hb : (b, q) ∈ constr) {l : List Int} (h : soupCells find t = .ok l) :
    l = if t.influence.head? = some 1 then [q + 1, p + 1] else [p + 1, q + 1] := by
  unfold soupCells at h
  rw [ht] at h
  simp only [List.flatMap_cons, List.flatMap_nil, find_single hf hn ha, find_single hf hn hb] at h
  match hi : t.influence with
  | [] => rw [hi] at h; cases h
  | w :: ws =>
    rw [hi] at h
    by_cases hw : w = 1
    · subst hw
      cases h
      rfl
    · have : vecGet (w :: ws) 0 = .ok w := rfl
      simp only [this, Except.bind, if_neg hw] at h
      cases h
      simp [hw]

theorem corner_ok {g : Points} {t : Triangle} {jj : Nat} {ty p : Int} {x : List ℚ} (h1 : t.pointtype[jj]? = some ty) (h2 : t.pointind[jj]? = some p)
    (h : LiesAt g ty p x) : ∃ y, corner g t jj = .ok y ∧ LiesAt g ty p y := by
  unfold corner
  have e1 : vecGet t.pointtype jj = .ok ty := by unfold vecGet; rw [if_neg (by omega), Int.toNat_natCast, h1]
  have e2 : vecGet t.pointind jj = .ok p := by unfold vecGet; rw [if_neg (by omega), Int.toNat_natCast, h2]
  rw [e1, e2]
  simp only [Except.bind]
  rcases h with ⟨rfl, v, hv, h3, -⟩ | ⟨rfl, v, hv, h3, -⟩ | ⟨rfl, hv⟩
  · obtain ⟨a, q1, q2, q3⟩ := elemAt_posOf_ok (ix := Vert.index) ⟨v, hv, h3⟩
    rw [if_pos rfl, q1]
    exact ⟨a.coord, rfl, .inl ⟨rfl, a, q2, q3, rfl⟩⟩
  · obtain ⟨a, q1, q2, q3⟩ := elemAt_posOf_ok (ix := Vert.index) ⟨v, hv, h3⟩
    rw [if_neg (by omega), if_pos rfl, q1]
    exact ⟨a.coord, rfl, .inr (.inl ⟨rfl, a, q2, q3, rfl⟩)⟩
  · obtain ⟨a, q1, q2, q3⟩ := elemAt_posOf_ok (ix := Prod.fst) ⟨(p, x), hv, rfl⟩
    rw [if_neg (by omega), if_neg (by omega), if_pos rfl, q1]
    refine ⟨a.2, rfl, .inr (.inr ⟨rfl, ?_⟩)⟩
    have q3' : a.1 = p := q3
    rw [← q3']
    exact q2

theorem coords_ok {g : Points} {constr : List (Int × Int)} : ∀ (ts : List Triangle), (∀ t ∈ ts, Usable g constr t) →
    ∃ xs, coords g ts = .ok xs ∧ xs.length = ts.length * 3 ∧
      ∀ (i : Nat) t, ts[i]? = some t → ∀ x y z p q r, t.pointtype = [x, y, z] → t.pointind = [p, q, r] →
        ∃ a b c, xs[i * 3]? = some a ∧ xs[i * 3 + 1]? = some b ∧ xs[i * 3 + 2]? = some c ∧ LiesAt g x p a ∧ LiesAt g y q b ∧ LiesAt g z r c
  | [], _ => ⟨[], rfl, rfl, by simp⟩
  | t :: ts, h => by
    obtain ⟨xs, h1, h2, h3⟩ := coords_ok ts fun t ht => h t (by simp [ht])
    obtain ⟨x, y, z, p, q, r, a0, b0, c0, e1, e2, l1, l2, l3⟩ := (h t (by simp)).corners
    obtain ⟨a, f1, g1⟩ := corner_ok (jj := 0) (by rw [e1]; rfl) (by rw [e2]; rfl) l1
    obtain ⟨b, f2, g2⟩ := corner_ok (jj := 1) (by rw [e1]; rfl) (by rw [e2]; rfl) l2
    obtain ⟨c, f3, g3⟩ := corner_ok (jj := 2) (by rw [e1]; rfl) (by rw [e2]; rfl) l3
    refine ⟨a :: b :: c :: xs, ?_, by simp [h2]; omega, ?_⟩
    · unfold coords
      rw [f1, f2, f3, h1]
      rfl
    · intro i t' ht x' y' z' p' q' r' k1 k2
      match i with
      | 0 =>
        simp at ht
        subst ht
        rw [e1] at k1
        rw [e2] at k2
        cases k1
        cases k2
        exact ⟨a, b, c, rfl, rfl, rfl, g1, g2, g3⟩
      | i + 1 =>
        obtain ⟨a', b', c', m1, m2, m3, m4⟩ := h3 i t' (by simpa using ht) x' y' z' p' q' r' k1 k2
        refine ⟨a', b', c', ?_, ?_, ?_, m4⟩
        · rw [show (i + 1) * 3 = i * 3 + 3 by omega]; exact m1
        · rw [show (i + 1) * 3 + 1 = i * 3 + 1 + 3 by omega]; exact m2
        · rw [show (i + 1) * 3 + 2 = i * 3 + 2 + 3 by omega]; exact m3

end RSVS.TriSoup
