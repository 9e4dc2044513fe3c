import Verif.Model.Mem.NumTheory
/-!
# Points of elliptic curves in memory
(src/ecp/ecp_core.c, ecp_list.c, ecp_dbl.c, ecp_add.c, ecp_mul.c, include/cry/ecp.h)

A `cry_ecp` at address `q` consists of the numbers `x`, `y`, `z` at `q`, `q + 1`, `q + 2`; a `cry_ecp_grp` at address `g`
of `p`, `a`, `b`, `g.x`, `g.y`, `g.z`, `n` at `g`, …, `g + 6` (include/cry/ecp.h:26-44).  Functions with local objects
take the address `sp` of the first of them.
-/
namespace Verif.Mem

/-- `cry_ecp_is_zero` (include/cry/ecp.h:77-78, include/cry/mpi.h `cry_mpi_is_zero`). -/
def ecpIsZero (q : Nat) : M Bool := do
  let h ← hdr (q + 2)
  pure (h.used == 0)

/-- `cry_ecp_set_zero` (include/cry/ecp.h:80-84), followed by `k`: the three statuses are not looked at. -/
def ecpSetZero (w q : Nat) (k : M Int) : M Int :=
  ign (setInt w q 1) <| ign (setInt w (q + 1) 1) <| ign (setInt w (q + 2) 0) k

/-- `cry_ecp_swap` (include/cry/ecp.h:86-90). -/
def ecpSwap (a b : Nat) : M Unit := do
  swap a b
  swap (a + 1) (b + 1)
  swap (a + 2) (b + 2)

/-- `cry_ecp_init` (src/ecp/ecp_core.c:3-11). -/
def ecpInit (w q : Nat) : M Int :=
  chk (initList [q, q + 1, q + 2]) (ecpSetZero w q (pure 0))

/-- `cry_ecp_clear` (src/ecp/ecp_core.c:13-16). -/
def ecpClear (q : Nat) : M Unit := clearList [q, q + 1, q + 2]

/-- `cry_ecp_init_int` (src/ecp/ecp_core.c:18-31). -/
def ecpInitInt (w q : Nat) (x y : Int) : M Int :=
  chk (ecpInit w q) do
    let st ← chk (setInt w q x) (chk (setInt w (q + 1) y) (setInt w (q + 2) 1))
    if st ≠ 0 then do
      ecpClear q
      pure st
    else pure st

/-- `cry_ecp_copy` (src/ecp/ecp_core.c:33-42). -/
def ecpCopy (d s : Nat) : M Int :=
  chk (copy d s) <| chk (copy (d + 1) (s + 1)) (copy (d + 2) (s + 2))

/-- `cry_ecp_grp_init` (src/ecp/ecp_core.c:45-55). -/
def ecpGrpInit (w g : Nat) : M Int :=
  chk (initList [g, g + 1, g + 2, g + 6, g + 3, g + 4, g + 5]) (ecpSetZero w (g + 3) (pure 0))

/-- `cry_ecp_grp_clear` (src/ecp/ecp_core.c:57-62). -/
def ecpGrpClear (g : Nat) : M Unit := clearList [g, g + 1, g + 2, g + 6, g + 3, g + 4, g + 5]

/-- `cry_ecp_clear_list` (src/ecp/ecp_list.c:18-25, src/misc.c:59-68). -/
def ecpClearList : List Nat → M Unit
  | [] => pure ()
  | q :: qs => do ecpClear q; ecpClearList qs

/-- Loop of `cry_list_init` on points (src/misc.c:31-57); `done` are the points initialised so far, in order. -/
def ecpInitListLoop (w : Nat) (done : List Nat) : List Nat → M Int
  | [] => pure 0
  | q :: qs => do
    let st ← ecpInit w q
    if st = 0 then ecpInitListLoop w (done ++ [q]) qs
    else
      ecpClearList done
      pure st

/-- `cry_ecp_init_list` (src/ecp/ecp_list.c:6-16). -/
def ecpInitList (w : Nat) (qs : List Nat) : M Int := ecpInitListLoop w [] qs

/-- The computation in `cry_ecp_dbl` (src/ecp/ecp_dbl.c:20-49).  `num`, `den`, `lam`, `r` at `sp`, `sp + 1`, `sp + 2`,
`sp + 3`. -/
def ecpDblBody (w sp pr p1 g : Nat) : M Int :=
  chk (setInt w sp 3) <|
  chk (mul w (sp + 6) sp sp p1) <|
  chk (mul w (sp + 6) sp sp p1) <|
  chk (mod w (sp + 6) sp sp g) <|
  chk (add (2 ^ w) sp sp (g + 1)) <|
  chk (mod w (sp + 6) sp sp g) <|
  chk (setInt w (sp + 1) 2) <|
  chk (mul w (sp + 6) (sp + 1) (sp + 1) (p1 + 1)) <|
  chk (inv w (sp + 6) (sp + 1) (sp + 1) g) <|
  chk (mod w (sp + 6) (sp + 1) (sp + 1) g) <|
  chk (mul w (sp + 6) (sp + 2) sp (sp + 1)) <|
  chk (mod w (sp + 6) (sp + 1) (sp + 1) g) <|
  chk (sqr w (sp + 6) (sp + 3) (sp + 2)) <|
  chk (mod w (sp + 6) (sp + 3) (sp + 3) g) <|
  chk (sub (2 ^ w) (sp + 3) (sp + 3) p1) <|
  chk (sub (2 ^ w) (sp + 3) (sp + 3) p1) <|
  chk (mod w (sp + 6) (sp + 3) (sp + 3) g) <|
  chk (sub (2 ^ w) (sp + 4) p1 (sp + 3)) <|
  chk (mul w (sp + 6) (sp + 4) (sp + 4) (sp + 2)) <|
  chk (mod w (sp + 6) (sp + 4) (sp + 4) g) <|
  chk (sub (2 ^ w) (sp + 4) (sp + 4) (p1 + 1)) <|
  chk (mod w (sp + 6) (sp + 4) (sp + 4) g) <|
  chk (setInt w (sp + 5) 1) do
    ecpSwap pr (sp + 3)
    pure 0

/-- `cry_ecp_dbl` (src/ecp/ecp_dbl.c:6-52). -/
def ecpDbl (w sp pr p1 g : Nat) : M Int := do
  decl sp 6
  if ← ecpIsZero p1 then
    if pr ≠ p1 then ecpCopy pr p1 else pure 0
  else
    chk (initList [sp, sp + 1, sp + 2, sp + 3, sp + 4, sp + 5]) do
      let st ← ecpDblBody w sp pr p1 g
      clearList [sp, sp + 1, sp + 2, sp + 3, sp + 4, sp + 5]
      pure st

/-- The computation in `cry_ecp_add` for points with different abscissae (src/ecp/ecp_add.c:46-63).  `num`, `den`, `lam`,
`r` at `sp`, `sp + 1`, `sp + 2`, `sp + 3`. -/
def ecpAddBody (w sp pr p1 p2 g : Nat) : M Int :=
  chk (inv w (sp + 6) (sp + 1) (sp + 1) g) <|
  chk (mul w (sp + 6) (sp + 2) sp (sp + 1)) <|
  chk (mod w (sp + 6) (sp + 2) (sp + 2) g) <|
  chk (sqr w (sp + 6) (sp + 3) (sp + 2)) <|
  chk (mod w (sp + 6) (sp + 3) (sp + 3) g) <|
  chk (sub (2 ^ w) (sp + 3) (sp + 3) p1) <|
  chk (sub (2 ^ w) (sp + 3) (sp + 3) p2) <|
  chk (mod w (sp + 6) (sp + 3) (sp + 3) g) <|
  chk (sub (2 ^ w) (sp + 4) p1 (sp + 3)) <|
  chk (mul w (sp + 6) (sp + 4) (sp + 4) (sp + 2)) <|
  chk (mod w (sp + 6) (sp + 4) (sp + 4) g) <|
  chk (sub (2 ^ w) (sp + 4) (sp + 4) (p1 + 1)) <|
  chk (mod w (sp + 6) (sp + 4) (sp + 4) g) <|
  chk (setInt w (sp + 5) 1) do
    ecpSwap pr (sp + 3)
    pure 0

/-- `cry_ecp_add` (src/ecp/ecp_add.c:7-67).  `num`, `den` at `sp`, `sp + 1`; `lam` and `r`, which are not touched before
their initialisation, come into being there. -/
def ecpAdd (w sp pr p1 p2 g : Nat) : M Int := do
  decl sp 2
  if ← ecpIsZero p1 then
    if pr ≠ p2 then ecpCopy pr p2 else pure 0
  else if ← ecpIsZero p2 then
    if pr ≠ p1 then ecpCopy pr p1 else pure 0
  else
    chk (initList [sp, sp + 1]) do
      let st ←
        chk (sub (2 ^ w) sp (p2 + 1) (p1 + 1)) <|
        chk (mod w (sp + 2) sp sp g) <|
        chk (sub (2 ^ w) (sp + 1) p2 p1) <|
        chk (mod w (sp + 2) (sp + 1) (sp + 1) g) do
          let hd ← hdr (sp + 1)
          if hd.used = 0 then do
            let hn ← hdr sp
            if hn.used = 0 then ecpDbl w (sp + 2) pr p1 g
            else ecpSetZero w pr (pure 0)
          else do
            decl (sp + 2) 4
            chk (initList [sp + 2, sp + 3, sp + 4, sp + 5]) do
              let st ← ecpAddBody w sp pr p1 p2 g
              clearList [sp + 2, sp + 3, sp + 4, sp + 5]
              pure st
      clearList [sp, sp + 1]
      pure st

/-- `if (!paf) CHK(cry_ecp_dbl(&r, &r, grp))` (src/ecp/ecp_mul.c:59-60 and 73-74); `r` at `sp`, called functions have their
locals from `sp + 27` on. -/
def ecpDblUnless (w sp g : Nat) (paf : Bool) : M Int :=
  if paf then pure 0 else ecpDbl w (sp + 27) sp sp g

/-- Addition or first copy (src/ecp/ecp_mul.c:82-87 and 90-95). -/
def ecpAddOrCopy (w sp q g : Nat) (paf : Bool) : M Int :=
  if paf then ecpCopy sp q else ecpAdd w (sp + 27) sp sp q g

/-- The loop reading the rest of a window, `while (w < 8)` (src/ecp/ecp_mul.c:67-78), then `k` with the window and the
position.  Below digit 0 the index wraps and the read is outside the object. -/
def ecpWindow (w sp g kk : Nat) (paf : Bool) (k : Nat → Nat → Nat → M Int) : Nat → Nat → Nat → Nat → M Int
  | 0, _, _, _ => hang
  | fuel + 1, i, j, v =>
    if v < 8 then
      if j = 0 ∧ i = 0 then ub
      else
        let i' := if j = 0 then i - 1 else i
        let j' := (if j = 0 then w else j) - 1
        chk (ecpDblUnless w sp g paf) do
          let d ← rd kk i'
          ecpWindow w sp g kk paf k fuel i' j' (2 * v + (if (d >>> j') &&& 1 ≠ 0 then 1 else 0))
    else k v i j

/-- The two nested loops (src/ecp/ecp_mul.c:54-98) at position `i`, `j` before the decrement of `j`; the outer one goes on
to the digit below when `j` is 0.  `win[v]` is at `sp + 3 + 3 v`. -/
def ecpMulLoop (w sp p1 g kk : Nat) : Nat → Nat → Nat → Bool → M Int
  | 0, _, _, _ => hang
  | fuel + 1, i, 0, paf => if i = 0 then pure 0 else ecpMulLoop w sp p1 g kk fuel (i - 1) w paf
  | fuel + 1, i, j + 1, paf =>
    chk (ecpDblUnless w sp g paf) do
      let d ← rd kk i
      if (d >>> j) &&& 1 ≠ 0 then
        if i ≠ 0 ∨ j ≥ 3 then
          ecpWindow w sp g kk paf (fun v i j =>
            chk (ecpAddOrCopy w sp (sp + 3 + 3 * (v &&& 7)) g paf) (ecpMulLoop w sp p1 g kk fuel i j false)) 4 i j 1
        else chk (ecpAddOrCopy w sp p1 g paf) (ecpMulLoop w sp p1 g kk fuel i j false)
      else ecpMulLoop w sp p1 g kk fuel i j paf

/-- The initialisation of the window points (src/ecp/ecp_mul.c:31-37); `done` are the ones initialised so far, the last
first, and on failure they are cleared in this order. -/
def ecpWinInit (w : Nat) (done : List Nat) : List Nat → M Int
  | [] => pure 0
  | q :: qs => do
    let st ← ecpInit w q
    if st ≠ 0 then do
      ecpClearList done
      pure st
    else ecpWinInit w (q :: done) qs

/-- The addresses of the window points. -/
def winAt (sp : Nat) : List Nat := [sp + 3, sp + 6, sp + 9, sp + 12, sp + 15, sp + 18, sp + 21, sp + 24]

/-- Filling the window (src/ecp/ecp_mul.c:38-48), then the loops and the final swap (src/ecp/ecp_mul.c:53-100). -/
def ecpMulBody (w sp pr p1 kk g : Nat) : M Int :=
  chk (ecpCopy (sp + 3) p1) <|
  chk (ecpDbl w (sp + 27) (sp + 3) (sp + 3) g) <|
  chk (ecpDbl w (sp + 27) (sp + 3) (sp + 3) g) <|
  chk (ecpDbl w (sp + 27) (sp + 3) (sp + 3) g) <|
  chk (ecpAdd w (sp + 27) (sp + 6) (sp + 3) p1 g) <|
  chk (ecpAdd w (sp + 27) (sp + 9) (sp + 6) p1 g) <|
  chk (ecpAdd w (sp + 27) (sp + 12) (sp + 9) p1 g) <|
  chk (ecpAdd w (sp + 27) (sp + 15) (sp + 12) p1 g) <|
  chk (ecpAdd w (sp + 27) (sp + 18) (sp + 15) p1 g) <|
  chk (ecpAdd w (sp + 27) (sp + 21) (sp + 18) p1 g) <|
  chk (ecpAdd w (sp + 27) (sp + 24) (sp + 21) p1 g) do
    let hk ← hdr kk
    chk (ecpMulLoop w sp p1 g kk (hk.used * (w + 1) + 1) hk.used 0 true) do
      ecpSwap pr sp
      pure 0

/-- `free` of the block of window points (src/ecp/ecp_mul.c:104). -/
def release : M Unit := fun s => .ok ((), { s with live := s.live - 1 })

/-- `cry_ecp_mul` (src/ecp/ecp_mul.c:12-107, `CRY_ECP_MUL_SLIDING_WIN`).  `r` at `sp`; the eight points of the block that
`malloc` returns are at `sp + 3`, …, `sp + 26`, and hold nothing before.  When `malloc` returns `NULL` the status is the
0 of `cry_ecp_init`. -/
def ecpMul (w sp pr p1 kk g : Nat) : M Int := do
  decl sp 27
  if ← ecpIsZero p1 then
    if pr ≠ p1 then ecpCopy pr p1 else pure 0
  else
    chk (ecpInit w sp) do
      let st ← (do
        if ← request 1 then do
          let st ← chk (ecpWinInit w [] (winAt sp)) (do
            let st ← ecpMulBody w sp pr p1 kk g
            ecpClearList (winAt sp)
            pure st)
          release
          pure st
        else pure 0)
      ecpClear sp
      pure st

end Verif.Mem
