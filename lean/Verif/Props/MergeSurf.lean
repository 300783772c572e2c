import Verif.Lemmas.MergeTop
import Verif.Props.SpawnRemove

/-!
# C109: surfaces of the snake in one cell which share edges are merged
-/

namespace RSVS.Props

open RSVS RSVS.Spec RSVS.Mesh RSVS.MergeSurf

/-- **C109** `IdentifyMergSurfConnec`: for each cell of the parent mesh the surfaces of the snake in it
which are joined by a chain of shared edges are merged into one, and no others: after the edits two
surfaces are the same exactly when a chain joins them.  Each surface is removed at most once, no kept
surface is removed, and no edit is empty.  The recursion ends, nothing is read out of range, and all
this holds for any order in which the hash tables give the places of an edge or of a surface. -/
theorem C109_merge (m : Mesh) (cells : List (Int × Int)) (sibs : Int → List Nat)
    (findE : List Int → Int → List Nat) (findS : List Nat → Nat → List Nat)
    (hu : (m.surfs.map Surf.index).Nodup) (hc : cells.map Prod.fst = m.surfs.map Surf.index)
    (hs : ∀ c, AllPos Prod.snd cells c (sibs c))
    (hE : ∀ l k, AllPos (fun e => e) l k (findE l k)) (hS : ∀ l k, AllPos (fun e => e) l k (findS l k)) :
    ∃ l, identifyMergSurf m cells sibs findE findS = .ok l ∧ MergesRight m cells l :=
  merges hu ⟨hE, hS⟩ hc hs

/-- Nothing is edited when no two surfaces of a cell share an edge. -/
theorem C109_none (m : Mesh) (cells : List (Int × Int)) (sibs : Int → List Nat)
    (findE : List Int → Int → List Nat) (findS : List Nat → Nat → List Nat)
    (hu : (m.surfs.map Surf.index).Nodup) (hc : cells.map Prod.fst = m.surfs.map Surf.index)
    (hs : ∀ c, AllPos Prod.snd cells c (sibs c))
    (hE : ∀ l k, AllPos (fun e => e) l k (findE l k)) (hS : ∀ l k, AllPos (fun e => e) l k (findS l k))
    (hno : ∀ s t, Meets m cells s t → s = t) : identifyMergSurf m cells sibs findE findS = .ok [] := by
  obtain ⟨l, h1, h2⟩ := C109_merge m cells sibs findE findS hu hc hs hE hS
  rw [h1]
  congr 1
  cases l with
  | nil => rfl
  | cons d l =>
    exfalso
    obtain ⟨a1, _, a3⟩ := h2.removed d (by simp)
    obtain ⟨b1, b2⟩ := h2.kept d (by simp)
    obtain ⟨s, hs'⟩ := List.exists_mem_of_ne_nil _ a1
    have hch := (h2.chain s d.keep (a3 s hs') b1).mpr ⟨d.keep, Or.inl ⟨d, by simp, rfl, hs'⟩, Or.inr ⟨rfl, b2⟩⟩
    have heq : s = d.keep := by
      have : ∀ {t : Int}, MeetsChain m cells s t → s = t := by
        intro t ht
        induction ht with
        | refl => rfl
        | tail _ hbc ih => exact ih.trans (hno _ _ hbc)
      exact this hch
    exact b2 ⟨d, by simp, heq ▸ hs'⟩

/-- The positions of a key in a list, from the last to the first. -/
def lastFirst {α : Type} [DecidableEq α] (l : List α) (k : α) : List Nat :=
  ((List.range l.length).filter fun p => l[p]? == some k).reverse

theorem lastFirst_all {α : Type} [DecidableEq α] (l : List α) (k : α) : AllPos (fun e => e) l k (lastFirst l k) := by
  refine ⟨List.nodup_reverse.mpr (List.nodup_range.filter _), fun p => ?_⟩
  simp only [lastFirst, List.mem_reverse, List.mem_filter, List.mem_range, beq_iff_eq]
  constructor
  · rintro ⟨_, h⟩; exact ⟨k, h, rfl⟩
  · rintro ⟨e, he, rfl⟩; exact ⟨(List.getElem?_eq_some_iff.mp he).1, he⟩

/-- Two tetrahedra, each in its own cell. -/
example : identifyMergSurf twoParts.conn twoParts.snaxsurfs (siblingsIn twoParts.snaxsurfs) lastFirst lastFirst =
    .ok [⟨1, [2, 3, 4]⟩, ⟨5, [6, 7, 8]⟩] := by
  decide +kernel

/-- All eight triangles in one cell: still two surfaces are left. -/
example : identifyMergSurf twoParts.conn (twoParts.snaxsurfs.map fun x => (x.1, 3))
    (siblingsIn (twoParts.snaxsurfs.map fun x => (x.1, 3))) lastFirst lastFirst = .ok [⟨1, [2, 3, 4]⟩, ⟨5, [6, 7, 8]⟩] := by
  decide +kernel

example : ∃ l, identifyMergSurf twoParts.conn twoParts.snaxsurfs (siblingsIn twoParts.snaxsurfs) lastFirst lastFirst = .ok l ∧
    MergesRight twoParts.conn twoParts.snaxsurfs l :=
  C109_merge _ _ _ _ _ twoParts_sound.unique.surfs (by decide +kernel) (siblingsIn_all _) lastFirst_all lastFirst_all

/-- Each triangle of the first tetrahedron in a cell of its own. -/
example : identifyMergSurf tetra [(1, 1), (2, 2), (3, 3), (4, 4)] (siblingsIn [(1, 1), (2, 2), (3, 3), (4, 4)]) lastFirst lastFirst = .ok [] := by
  refine C109_none _ _ _ _ _ (by decide +kernel) (by decide +kernel) (siblingsIn_all _) lastFirst_all lastFirst_all ?_
  rintro s t ⟨c, h1, h2, _⟩
  simp at h1 h2
  omega

end RSVS.Props
