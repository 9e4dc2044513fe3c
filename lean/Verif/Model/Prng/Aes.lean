import Verif.Model.Crypt.Aes
/-! Model of the AES based generator (src/prng/prng_aes.c). -/
namespace Verif.PrngAes

/-- `struct prng_bc_ctx` (src/prng/prng_aes.c:8-13). -/
structure St where
  aes : Aes.Ctx
  ix : Nat
  ctr : List Byte
  lo : List Byte
deriving DecidableEq

/-- `cry_prng_aes_init` (src/prng/prng_aes.c:18-40).  `seed = none` is a null pointer; the bytes `lo` keep their value,
which the caller passes. -/
def init (lo : List Byte) (seed : Option (List Byte)) : Option St :=
  let seed := seed.getD []
  let sz := min seed.length 16
  let key := seed.take sz ++ List.replicate (16 - sz) 0
  let seed := seed.drop sz
  let sz := min seed.length 16
  let ctr := seed.take sz ++ List.replicate (16 - sz) 0
  (Aes.keySet key).map fun aes => ⟨aes, 0, ctr, lo⟩

/-- `CTR_INC` (src/prng/prng_aes.c:42-46) from index `i - 1` down. -/
def ctrInc : Nat → List Byte → List Byte
  | 0, v => v
  | i + 1, v =>
    let v := v.modify i (· + 1)
    if v[i]? = some 0 then ctrInc i v else v

/-- The first loop of `cry_prng_aes_rand` (src/prng/prng_aes.c:54-57): bytes written, state, size left. -/
def residual (s : St) : Nat → List Byte × St × Nat
  | 0 => ([], s, 0)
  | siz + 1 =>
    if s.ix ≠ 0 then
      let r := residual { s with ix := (s.ix + 1) % 16 } siz
      (s.lo.getD s.ix 0 :: r.1, r.2)
    else ([], s, siz + 1)

/-- The main loop (src/prng/prng_aes.c:60-65), which is run `n = siz / 16` times. -/
def blocks (s : St) : Nat → List Byte × St
  | 0 => ([], s)
  | n + 1 =>
    let e := Aes.encrypt s.aes s.ctr
    let r := blocks { s with aes := e.2, ctr := ctrInc 16 s.ctr } n
    (e.1 ++ r.1, r.2)

/-- `cry_prng_aes_rand` (src/prng/prng_aes.c:48-76) once the generator is initialised: bytes and state. -/
def rand (s : St) (siz : Nat) : List Byte × St :=
  let (o1, s, siz) := residual s siz
  let (o2, s) := blocks s (siz / 16)
  let siz := siz % 16
  if siz ≠ 0 then
    let e := Aes.encrypt s.aes s.ctr
    (o1 ++ o2 ++ e.1.take siz, { s with aes := e.2, ctr := ctrInc 16 s.ctr, lo := e.1, ix := siz })
  else (o1 ++ o2, s)

/-- `cry_prng_aes_rand` (src/prng/prng_aes.c:48-76); `none` is the generator before its first initialisation, with the
static `lo` all zero. -/
def randAny (s : Option St) (siz : Nat) : Option (List Byte × St) :=
  match s with
  | some s => some (rand s siz)
  | none => (init (List.replicate 16 0) none).map fun s => rand s siz

end Verif.PrngAes
