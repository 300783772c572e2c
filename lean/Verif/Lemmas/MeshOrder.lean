import Mathlib.Data.List.Basic
import Verif.Lemmas.Mesh
import Verif.Lemmas.MeshDetach
import Verif.Spec.Mesh

/-!
# Helper lemmas on reordering and tightening
-/

namespace RSVS.Mesh

open RSVS.Spec

theorem posOf_getElem {α : Type} {ix : α → Int} {l : List α} (hn : (l.map ix).Nodup) (i : Nat)
    (hi : i < l.length) : posOf ix l (ix l[i]) = i := by
  obtain ⟨p, h1, hp, h2⟩ := posOf_mem (ix := ix) (l := l) ⟨l[i], List.getElem_mem hi, rfl⟩
  have h3 : (l.map ix)[p]'(by simpa using hp) = (l.map ix)[i]'(by simpa using hi) := by
    simpa using h2
  rw [hn.getElem_inj_iff] at h3
  rw [h1, h3]

theorem numbering_of_perm {α : Type} {ix : α → Int} {l l0 : List α} {has : Int → Prop}
    (hp : (l.map ix).Perm (l0.map ix)) (hn : (l0.map ix).Nodup)
    (hh : ∀ i, has i ↔ ∃ x ∈ l0, ix x = i) (hpos : ∀ i, has i → 0 < i) :
    Numbering has l0.length (fun r => posOf ix l r + 1) := by
  have hn' : (l.map ix).Nodup := hp.nodup_iff.mpr hn
  have hlen : l.length = l0.length := by simpa using hp.length_eq
  have key : ∀ a, has a → ∃ p : Nat, posOf ix l a = p ∧ ∃ h : p < l.length, ix l[p] = a := by
    intro a ha
    apply posOf_mem
    have : a ∈ l0.map ix := by
      obtain ⟨x, hx, hi⟩ := (hh a).mp ha
      exact List.mem_map.mpr ⟨x, hx, hi⟩
    have := hp.mem_iff.mpr this
    obtain ⟨x, hx, hi⟩ := List.mem_map.mp this
    exact ⟨x, hx, hi⟩
  refine ⟨?_, ?_, ?_⟩
  · have : posOf ix l 0 = -1 := by
      rw [posOf_eq_neg_one_iff]
      intro a ha h0
      have h1 : ix a ∈ l0.map ix := hp.mem_iff.mp (List.mem_map.mpr ⟨a, ha, rfl⟩)
      obtain ⟨x, hx, hi⟩ := List.mem_map.mp h1
      have := hpos 0 ((hh 0).mpr ⟨x, hx, by rw [hi, h0]⟩)
      omega
    show posOf ix l 0 + 1 = 0
    omega
  · intro a b ha hb hab
    obtain ⟨p, h1, h2, h3⟩ := key a ha
    obtain ⟨q, h4, h5, h6⟩ := key b hb
    have : p = q := by
      simp only [h1, h4] at hab
      omega
    subst this
    rw [← h3, h6]
  · intro a ha
    obtain ⟨p, h1, h2, h3⟩ := key a ha
    simp only [h1]
    omega

theorem mapIdx_index {α : Type} {ix : α → Int} {f : Nat → α → α} {l : List α} {n : Nat}
    (hl : l.length = n) (hf : ∀ i a, ix (f i a) = (i : Int) + 1) :
    (l.mapIdx f).map ix = (List.range n).map (fun i : Nat => (i : Int) + 1) := by
  apply List.ext_getElem
  · simp [hl]
  · intro i h1 h2
    simp [hf]

theorem renumber_renamed {m : Mesh} (hu : UniqueIndices m) (hp : PosIndices m)
    {verts : List Vert} {edges : List Edge} {surfs : List Surf} {volus : List Volu}
    (hv : verts.Perm m.verts)
    (he : (edges.map (fun e => { e with isBorder := false })).Perm
              (m.edges.map (fun e => { e with isBorder := false })))
    (hs : surfs.Perm m.surfs) (hc : volus.Perm m.volus) (d : Nat) :
    Renamed m (renumber verts edges surfs volus d)
      (fun r => posOf Vert.index verts r + 1) (fun r => posOf Edge.index edges r + 1)
      (fun r => posOf Surf.index surfs r + 1) (fun r => posOf Volu.index volus r + 1) := by
  have he' : (edges.map Edge.index).Perm (m.edges.map Edge.index) := by
    have := he.map Edge.index
    simpa [Function.comp_def] using this
  have nv : (verts.map Vert.index).Nodup := (hv.map _).nodup_iff.mpr hu.verts
  have ne : (edges.map Edge.index).Nodup := he'.nodup_iff.mpr hu.edges
  have ns : (surfs.map Surf.index).Nodup := (hs.map _).nodup_iff.mpr hu.surfs
  have nc : (volus.map Volu.index).Nodup := (hc.map _).nodup_iff.mpr hu.volus
  constructor
  · exact numbering_of_perm (hv.map _) hu.verts (fun i => Iff.rfl) hp.verts
  · exact numbering_of_perm he' hu.edges (fun i => Iff.rfl) hp.edges
  · exact numbering_of_perm (hs.map _) hu.surfs (fun i => Iff.rfl) hp.surfs
  · exact numbering_of_perm (hc.map _) hu.volus (fun i => Iff.rfl) hp.volus
  · exact mapIdx_index hv.length_eq (fun _ _ => rfl)
  · exact mapIdx_index (by simpa using he'.length_eq) (fun _ _ => rfl)
  · exact mapIdx_index hs.length_eq (fun _ _ => rfl)
  · exact mapIdx_index hc.length_eq (fun _ _ => rfl)
  · intro x hx
    obtain ⟨i, hi, rfl⟩ := List.mem_iff_getElem.mp (hv.mem_iff.mpr hx)
    rw [posOf_getElem nv i hi]
    unfold renumber
    simp only
    rw [List.mem_mapIdx]
    exact ⟨i, hi, rfl⟩
  · intro x hx
    have h1 : ({ x with isBorder := false } : Edge) ∈ edges.map (fun e => { e with isBorder := false }) :=
      he.mem_iff.mpr (List.mem_map.mpr ⟨x, hx, rfl⟩)
    obtain ⟨y, hy, hyx⟩ := List.mem_map.mp h1
    obtain ⟨i, hi, rfl⟩ := List.mem_iff_getElem.mp hy
    have e1 : edges[i].index = x.index := by
      have := congrArg Edge.index hyx; exact this
    have e2 : edges[i].vertind = x.vertind := by
      have := congrArg Edge.vertind hyx; exact this
    have e3 : edges[i].surfind = x.surfind := by
      have := congrArg Edge.surfind hyx; exact this
    refine ⟨edges[i].isBorder, ?_⟩
    rw [← e1, ← e2, ← e3, posOf_getElem ne i hi]
    unfold renumber
    simp only
    rw [List.mem_mapIdx]
    exact ⟨i, hi, rfl⟩
  · intro x hx
    obtain ⟨i, hi, rfl⟩ := List.mem_iff_getElem.mp (hs.mem_iff.mpr hx)
    rw [posOf_getElem ns i hi]
    unfold renumber
    simp only
    rw [List.mem_mapIdx]
    exact ⟨i, hi, rfl⟩
  · intro x hx
    obtain ⟨i, hi, rfl⟩ := List.mem_iff_getElem.mp (hc.mem_iff.mpr hx)
    rw [posOf_getElem nc i hi]
    unfold renumber
    simp only
    rw [List.mem_mapIdx]
    exact ⟨i, hi, rfl⟩

theorem mapM_tightenEdge :
    ∀ (l : List Edge), (∀ e ∈ l, e.vertind.length ≤ 2) →
      l.mapM tightenEdge = .ok (l.map (fun e => { e with surfind := sortUnique e.surfind })) := by
  intro l
  induction l with
  | nil => intro _; rfl
  | cons e l ih =>
    intro h
    have h1 : tightenEdge e = .ok { e with surfind := sortUnique e.surfind } := by
      unfold tightenEdge
      rw [if_neg (by have := h e (by simp); omega)]
    rw [List.mapM_cons, h1, ih (fun e he => h e (by simp [he]))]
    rfl

theorem mapM_tightenEdge_throws :
    ∀ (l : List Edge), (∃ e ∈ l, 2 < e.vertind.length) →
      l.mapM tightenEdge = .error .throws := by
  intro l
  induction l with
  | nil => simp
  | cons e l ih =>
    rintro ⟨x, hx, h2⟩
    rw [List.mapM_cons]
    by_cases he : e.vertind.length > 2
    · have h1 : tightenEdge e = .error .throws := by unfold tightenEdge; rw [if_pos he]
      rw [h1]; rfl
    · have h1 : tightenEdge e = .ok { e with surfind := sortUnique e.surfind } := by
        unfold tightenEdge; rw [if_neg he]
      rw [h1]
      rcases List.mem_cons.mp hx with rfl | hx
      · omega
      · rw [ih ⟨x, hx, h2⟩]; rfl

end RSVS.Mesh
