import Verif.Spec.MemPk
import Verif.Spec.Pkcs
/-! What RSA in memory must do. -/
namespace Verif.Mem

/-- `ct` is the message `msg` in PKCS#1 blocks of `k` bytes, each raised to the power `x` modulo `N`; all but the last block hold
`k - 11` bytes of the message. -/
inductive RsaBlocks (k : Nat) (sign : Bool) (N x : Nat) : List Byte → List Byte → Prop
  | nil : RsaBlocks k sign N x [] []
  | cons {m eb c msg ct : List Byte} : m ≠ [] → m.length ≤ k - 11 → (msg ≠ [] → m.length = k - 11) → Pkcs.Block k sign m eb → c.length = k →
      beVal c = beVal eb ^ x % N → RsaBlocks k sign N x msg ct → RsaBlocks k sign N x (m ++ msg) (c ++ ct)

/-- `b` is the number `v ^ x` modulo `N` written with `k` bytes. -/
def PowerBytes (k N x v : Nat) (b : List Byte) : Prop := b.length = k ∧ beVal b = v ^ x % N

/-- An allocation request is going to fail. -/
def SomeFails (s : St) : Prop := ∃ k, s.tick ≤ k ∧ s.fails k = true

/-- The objects below `sp` are the same, and `j` more blocks are allocated. -/
def SameBut (sp : Nat) (j : Int) (s s' : St) : Prop := (∀ v, v < sp → s'.obj v = s.obj v) ∧ s'.live = s.live + j ∧ s'.fails = s.fails

end Verif.Mem
