import Verif.Model.Su2

/-!
# How a file in the SU2 format is read

Written from the format: a count is followed by this many lines.
-/

namespace RSVS.Spec

open RSVS.Su2

variable {K β : Type}

/-- The mesh in a file. -/
structure Su2Mesh (K : Type) where
  points : List (K × K × K)
  tets : List (Int × Int × Int × Int)
  marks : List (Int × List (Int × Int × Int))

/-- Reads `n` lines of the same kind. -/
def readN (p : Line K → Option β) : Nat → List (Line K) → Option (List β × List (Line K))
  | 0, l => some ([], l)
  | _ + 1, [] => none
  | n + 1, x :: l => (p x).bind fun b => (readN p n l).map fun r => (b :: r.1, r.2)

def asPoint : Line K → Option (K × K × K)
  | .point x y z => some (x, y, z)
  | _ => none

def asTet : Line K → Option (Int × Int × Int × Int)
  | .tet a b c d => some (a, b, c, d)
  | _ => none

def asTri : Line K → Option (Int × Int × Int)
  | .tri a b c => some (a, b, c)
  | _ => none

/-- Reads `n` markers. -/
def readMarks : Nat → List (Line K) → Option (List (Int × List (Int × Int × Int)) × List (Line K))
  | 0, l => some ([], l)
  | n + 1, .tag m :: .elems c :: l => if c < 0 then none else
      (readN asTri c.toNat l).bind fun r => (readMarks n r.2).map fun q => ((m, r.1) :: q.1, q.2)
  | _ + 1, _ => none

/-- Reads the file; nothing may be left over. -/
def readSu2 : List (Line K) → Option (Su2Mesh K)
  | .ndime 3 :: .npoin n :: l => if n < 0 then none else
      (readN asPoint n.toNat l).bind fun r => match r.2 with
        | .nelem m :: l => if m < 0 then none else
            (readN asTet m.toNat l).bind fun q => match q.2 with
              | .nmark k :: l => if k < 0 then none else
                  (readMarks k.toNat l).bind fun w => if w.2.isEmpty then some ⟨r.1, q.1, w.1⟩ else none
              | _ => none
        | _ => none
  | _ => none

/-- The arrays of the output are as long as the counts say. -/
structure Su2Valid (t : Out K) : Prop where
  points : t.numberofpoints * 3 ≤ t.pointlist.length
  corners : 4 ≤ t.numberofcorners
  tets : t.numberoftetrahedra * t.numberofcorners ≤ t.tetrahedronlist.length
  tris : t.numberoftrifaces * 3 ≤ t.trifacelist.length
  markers : t.numberoftrifaces ≤ t.trifacemarkerlist.length

end RSVS.Spec
