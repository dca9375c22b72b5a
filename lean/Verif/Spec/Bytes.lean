/-! Numbers as sequences of bytes, independently of the model. -/

namespace Spec

/-- The `n` low-order bytes of `v`, least significant first. -/
def littleEndian : Nat → Nat → List (BitVec 8)
  | 0, _ => []
  | n + 1, v => BitVec.ofNat 8 v :: littleEndian n (v / 256)

/-- The `n` low-order bytes of `v`, most significant first. -/
def bigEndian (n v : Nat) : List (BitVec 8) := (littleEndian n v).reverse

def endian (little : Bool) (n v : Nat) : List (BitVec 8) := if little then littleEndian n v else bigEndian n v

end Spec
