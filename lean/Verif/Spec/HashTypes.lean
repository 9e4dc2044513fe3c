/-!
# Tuples of words, the chaining values of the hash functions
-/
namespace Verif.HashS

/-- Eight words. -/
structure Regs (n : Nat) where
  (a b c d e f g h : BitVec n)
deriving DecidableEq

/-- Five words (SHA-1). -/
structure Regs5 where
  (a b c d e : BitVec 32)
deriving DecidableEq

/-- Four words (MD5). -/
structure Regs4 where
  (a b c d : BitVec 32)
deriving DecidableEq

end Verif.HashS
