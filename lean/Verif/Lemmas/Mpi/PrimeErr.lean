import Verif.Lemmas.Mpi.PrimeGen
import Verif.Props.Mpi.Prime
/-! The primality test reports no error on natural numbers (exhaustion of memory is not modelled). -/
namespace Verif.Mpi

theorem mrLoop_ne_err {w : Nat} (hw : DigitWidth w) {p : Mpi} {n : Nat} (hp : NatRep w p n) (hn : 0 < n) :
    ∀ (b : Nat) {z : Mpi} {v : Nat}, NatRep w z v → mrLoop w p b z ≠ .err
  | 0, z, v, hz => by
    obtain ⟨y, e, -⟩ := hz.add hw.pos (NatRep.one hw.pos)
    rw [mrLoop, e]; simp
  | b + 1, z, v, hz => by
    obtain ⟨y, e, -⟩ := hz.add hw.pos (NatRep.one hw.pos)
    obtain ⟨m, e2, n2⟩ := hz.mul hw.pos false hz
    obtain ⟨r, e3, n3⟩ := n2.mod hw hp hn
    rw [mrLoop]
    by_cases h : isOne z = true
    · rw [if_pos h]; simp
    · rw [if_neg h, e]
      dsimp only
      by_cases h2 : cmp y p = 0
      · rw [if_pos h2]; simp
      · rw [if_neg h2, e2]
        dsimp only
        rw [e3]
        exact mrLoop_ne_err hw hp hn b n3

theorem calcLoop_rep {w : Nat} (hw : 8 ≤ w) : ∀ (fuel : Nat) {m : Mpi} {v : Nat}, NatRep w m v → ∀ (ret : Nat) {b : Nat}
    {m' : Mpi}, calcLoop w fuel m ret = some (b, m') → ∃ v', NatRep w m' v'
  | 0, _, _, _, _, _, _, h => by simp [calcLoop] at h
  | fuel + 1, m, v, hm, ret, b, m', h => by
    rw [calcLoop] at h
    by_cases ho : isOdd m = true
    · rw [if_pos ho] at h
      cases h
      exact ⟨v, hm⟩
    · rw [if_neg ho] at h
      exact calcLoop_rep hw fuel (hm.shr hw 1) _ h

theorem passesMR_ne_err {w : Nat} (hw : DigitWidth w) {p : Mpi} {n : Nat} (hp : NatRep w p n) (hn : 0 < n)
    (bs : List Byte) (hl : bs.length = (countBits w p + 7) / 8) : passesMR w p bs ≠ .err := by
  have hw8 := hw.pos
  obtain ⟨m, e1, n1⟩ := hp.sub hw8 (NatRep.one hw8) (by omega)
  unfold passesMR
  rw [e1]
  dsimp only
  by_cases h1 : n = 1
  · subst h1
    have : m = ⟨false, []⟩ := n1.unique (NatRep.zero w)
    subst this
    rw [calcLoop_zero]; simp
  · cases hc : calcLoop w (countBits w p + 1) m 0 with
    | none => simp
    | some bm =>
      obtain ⟨b, m'⟩ := bm
      dsimp only
      rcases NatRep.randRange hw 8 hp hn bs hl with h | ⟨a, k, h, na, -⟩
      · rw [h]; simp
      · rw [h]
        dsimp only
        obtain ⟨mv, hm⟩ : ∃ mv, NatRep w m' mv := calcLoop_rep hw8 _ n1 _ hc
        obtain ⟨z, e3, n3⟩ := na.modExp hw hm hp (by omega)
        rw [e3]
        dsimp only
        by_cases h4 : isOne z = true
        · rw [if_pos h4]; simp
        · rw [if_neg h4]; exact mrLoop_ne_err hw hp hn b n3

theorem isPrime_ne_err {w : Nat} (hw : DigitWidth w) {p : Mpi} {n : Nat} (hp : NatRep w p n) (draw : Nat → List Byte)
    (hl : ∀ i, (draw i).length = (countBits w p + 7) / 8) : isPrime w draw p ≠ .err := by
  have hrep : 0 < n → ∀ k i, mrRepeat w p draw i k ≠ .err := by
    intro hn k
    induction k with
    | zero => intro i; simp [mrRepeat]
    | succ k ih =>
      intro i
      have := passesMR_ne_err hw hp hn (draw i) (hl i)
      rw [mrRepeat]
      cases h : passesMR w p (draw i) with
      | err => exact absurd h this
      | ub => simp
      | hang => simp
      | res b => cases b <;> simp [ih]
  have htr : ∀ ss : List Nat, (∀ s ∈ ss, 0 < s ∧ s < 2 ^ 63) → ∃ k, k ≤ 2 ∧ trialLoop w p ss = some k ∧ (n = 0 → ss ≠ [] → k ≠ 0) := by
    intro ss
    induction ss with
    | nil => intro _; exact ⟨0, by omega, rfl, fun _ h => absurd rfl h⟩
    | cons s ss ih =>
      intro hs
      obtain ⟨h0, h63⟩ := hs s (by simp)
      obtain ⟨k, hk, e, -⟩ := ih (fun t ht => hs t (by simp [ht]))
      obtain ⟨m, e1, n1⟩ := natRep_setInt hw h63
      rw [trialLoop, e1]
      dsimp only
      by_cases hc : cmp m p = 0
      · rw [if_pos hc]; exact ⟨2, le_refl _, rfl, fun _ _ => by omega⟩
      · rw [if_neg hc]
        obtain ⟨r, e2, n2⟩ := mod_rIsB hw hp n1 h0
        rw [e2]
        dsimp only
        by_cases hz : isZero r = true
        · rw [if_pos hz]; exact ⟨1, by omega, rfl, fun _ _ => by omega⟩
        · rw [if_neg hz]
          refine ⟨k, hk, e, fun hn0 _ => ?_⟩
          rw [n2.isZero_iff, hn0] at hz
          simp at hz
  obtain ⟨k, hk, e, h0⟩ := htr smallPrimes (fun s hs => by
    have := smallPrimes_range s hs; omega)
  unfold isPrime
  rw [e]
  rcases (show k = 0 ∨ k = 1 ∨ k = 2 by omega) with rfl | rfl | rfl
  · by_cases hn : n = 0
    · exact absurd rfl (h0 hn (by decide))
    · exact hrep (by omega) 5 0
  · simp
  · simp

end Verif.Mpi
