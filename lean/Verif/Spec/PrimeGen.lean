/-! What a candidate for a prime of a given length is, independently of the code. -/
namespace Verif.Spec

/-- A number of `bits` random bits with the lowest bit and the two highest bits set. -/
def primeCandidate (bits V : Nat) : Nat := V ||| 1 ||| 2 ^ (bits - 1) ||| 2 ^ (bits - 2)

end Verif.Spec
