import Verif.Model.Triplet

/-! # What a sparse matrix filled by additions holds -/

namespace RSVS.Spec

variable {S : Type} [Zero S] [Add S]

/-- Sum of all values added at `(i, j)`, in the order in which they were added. -/
def sumAt (adds : List (Nat × Nat × S)) (i j : Nat) : S :=
  ((adds.filter (fun e => decide (e.1 = i ∧ e.2.1 = j))).map (fun e => e.2.2)).foldl (· + ·) 0

/-- The triplet matrix holds the values `a`: read one by one, listed, or copied to a dense
matrix. -/
structure Holds (t : RSVS.Triplet S) (nRow nCol : Nat) (a : Nat → Nat → S) : Prop where
  get : ∀ i j : Nat, i < nRow → j < nCol → t.get i j = .ok (a i j)
  entries : ∃ es, t.entries = .ok es ∧ (es.map fun e => (e.1, e.2.1)).Nodup ∧
    (∀ e ∈ es, e.1 < nRow ∧ e.2.1 < nCol ∧ e.2.2 = a e.1 e.2.1) ∧
    ∀ i j : Nat, i < nRow → j < nCol → a i j ≠ 0 → (i, j) ∈ es.map fun e => (e.1, e.2.1)
  dense : ∃ d, t.setEqual = .ok d ∧ ∀ i j : Nat, i < nRow → j < nCol → d i j = a i j

end RSVS.Spec
