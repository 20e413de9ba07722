/-!
# Specification of writes to a region of memory
-/
namespace StdNN.Spec
variable {R : Type}

/-- The memory `m` after the values `v` have been stored from address `z` on; everything else is as before. -/
def store (m : List R) (z : Nat) (v : List R) : List R := m.take z ++ v ++ m.drop (z + v.length)

end StdNN.Spec
