import Verif.Lemmas.Mem.Prime
import Verif.Lemmas.Mpi.PrimeGen
import Verif.Spec.PrimeGen
/-! The generation of primes in memory, when no allocation fails. -/
namespace Verif.Mem
open Verif.Mpi

variable {w : Nat} {K : Ctx} {A : Env} {sp : Nat} {s : St}

theorem setBit_run (hw : DigitWidth w) {S a bit n : Nat} (h : V w (n : Int) 0 (s.obj a)) (hb : (2 ^ w) ^ (bit / w) ≤ n) :
    ∃ s', setBit w a bit s = .ok ((), s') ∧ Step S s s' a ∧ V w ((n ||| 2 ^ bit : Nat) : Int) 0 (s'.obj a) := by
  have hw0 : 0 < w := by have := hw.pos; omega
  obtain ⟨m, m1, m2, m3⟩ := h
  have hr := NatRep.of_wf m1 m2
  have hlen : bit / w < m.digs.length := by
    have := Mpi.val_lt hr.norm.digits
    rw [hr.value] at this
    exact (Nat.pow_lt_pow_iff_right (by have := Nat.pow_le_pow_right (show 0 < 2 by omega) hw.pos; omega)).1 (hb.trans_lt this)
  obtain ⟨b1, b2, b3⟩ := Mpi.setBit_in hw0 hr.norm hlen
  obtain ⟨s', e, p, h'⟩ := wr_run (S := S) (g := m.neg) (qs := m.digs) (d := dig m.digs (bit / w) ||| 1 <<< (bit % w)) m3 hlen
  refine ⟨s', ?_, p, Mpi.setBit w m bit, ?_, ?_, h'⟩
  · unfold setBit
    rw [bind_ok (rd_run m3.1.reads hlen), e]
  · refine ⟨b2, fun hd => ?_⟩
    rw [b3]; exact hr.neg
  · unfold Mpi.Mpi.toInt
    rw [b3, hr.neg, b1, hr.value]; rfl

/-- The candidate. -/
theorem cand_eq {bits V : Nat} (hb : 2 ≤ bits) (hV : V < 2 ^ bits) :
    (V % 2 ^ (bits - 1) + 2 ^ (bits - 1)) ||| 2 ^ 0 ||| 2 ^ (bits - 1) ||| 2 ^ (bits - 2) = Spec.primeCandidate bits V := by
  have h1 : V % 2 ^ (bits - 1) + 2 ^ (bits - 1) = V % 2 ^ (bits - 1) ||| 2 ^ (bits - 1) := by
    rw [Mpi.or_two_pow, if_neg]
    rw [Nat.testBit_lt_two_pow (Nat.mod_lt _ (Nat.two_pow_pos _))]; simp
  unfold Spec.primeCandidate
  rw [h1]
  apply Nat.eq_of_testBit_eq
  intro i
  simp only [Nat.testBit_or, Nat.testBit_mod_two_pow, Nat.testBit_two_pow, pow_zero]
  by_cases c : i < bits - 1
  · have c' : bits - 1 ≠ i := by omega
    simp [c, c']
  · by_cases c2 : i = bits - 1
    · subst c2; simp
    · rw [Nat.testBit_lt_two_pow (x := V) (i := i) (hV.trans_le (Nat.pow_le_pow_right (by omega) (by omega)))]
      simp [show bits - 1 ≠ i by omega]

variable {p bits fuel : Nat} {draw : Nat → PrimeDraw}

theorem cand_calm (hw : DigitWidth w) (hK : K.Calm) (h : At K A sp s) (hp : p < sp) {z : Int} (ap : ∀ o, A p o → V w z 0 o) (hz : 0 ≤ z)
    (hb : 0 < bits) (h8 : bits % 8 = 0) (bs : List Byte) (hl : bs.length = bits / 8) (hV : (2 ^ w) ^ ((bits - 1) / w) ≤ beVal bs) :
    ∃ s1 s2 s3 s4, rand w p bits bs s = .ok (0, s1) ∧ setBit w p 0 s1 = .ok ((), s2) ∧ setBit w p (bits - 1) s2 = .ok ((), s3) ∧
      setBit w p (bits - 2) s3 = .ok ((), s4) ∧ At K (Function.update A p (V w (Spec.primeCandidate bits (beVal bs) : Nat) 0)) sp s4 := by
  have hw8 := hw.pos
  obtain ⟨s1, e1, h1⟩ := calm_leaf hK h hp (rand_leaf hw (ap _ (h.objs p hp)) hz bs (by omega) hb hV)
  set X := beVal bs % 2 ^ (bits - 1) + 2 ^ (bits - 1) with hX
  have gv : ∀ {n : Nat} {s : St}, At K (Function.update A p (V w (n : Int) 0)) sp s → V w (n : Int) 0 (s.obj p) := fun h => by
    have := h.objs p hp; rwa [Function.update_self] at this
  have key : ∀ {n bit : Nat} {s : St}, At K (Function.update A p (V w (n : Int) 0)) sp s → (2 ^ w) ^ (bit / w) ≤ n →
      ∃ s', setBit w p bit s = .ok ((), s') ∧ At K (Function.update A p (V w ((n ||| 2 ^ bit : Nat) : Int) 0)) sp s' := fun {n bit s} h hb => by
    obtain ⟨s', e, q, h'⟩ := setBit_run hw (S := sp) (gv h) hb
    have := step_at h hp q h'
    rw [Function.update_idem] at this
    exact ⟨s', e, this⟩
  have hbig : ∀ bit, bit ≤ bits - 1 → (2 ^ w) ^ (bit / w) ≤ X := fun bit hbit => by
    rw [← pow_mul]
    calc 2 ^ (w * (bit / w)) ≤ 2 ^ (bits - 1) := Nat.pow_le_pow_right (by omega) ((Nat.mul_div_le bit w).trans hbit)
      _ ≤ X := by omega
  obtain ⟨s2, e2, h2⟩ := key h1 (bit := 0) (hbig 0 (by omega))
  obtain ⟨s3, e3, h3⟩ := key h2 (bit := bits - 1) ((hbig _ (le_refl _)).trans Nat.left_le_or)
  obtain ⟨s4, e4, h4⟩ := key h3 (bit := bits - 2) ((hbig _ (by omega)).trans (Nat.left_le_or.trans Nat.left_le_or))
  have hlt : beVal bs < 2 ^ bits := by
    have := beVal_lt bs
    rwa [hl, show 256 = 2 ^ 8 by rfl, ← pow_mul, show 8 * (bits / 8) = bits by omega] at this
  rw [hX, cand_eq (by omega) hlt] at h4
  exact ⟨s1, s2, s3, s4, e1, e2, e3, e4, h4⟩

theorem cand_size {V : Nat} (hb : 2 ≤ bits) (hV : V < 2 ^ bits) : (Spec.primeCandidate bits V).size = bits := by
  apply le_antisymm
  · rw [Nat.size_le]
    unfold Spec.primeCandidate
    have h1 : (1 : Nat) < 2 ^ bits := Nat.one_lt_two_pow (by omega)
    exact Nat.or_lt_two_pow (Nat.or_lt_two_pow (Nat.or_lt_two_pow hV h1) (Nat.pow_lt_pow_right (by omega) (by omega))) (Nat.pow_lt_pow_right (by omega) (by omega))
  · have : bits - 1 < (Spec.primeCandidate bits V).size := by
      rw [Nat.lt_size]
      unfold Spec.primeCandidate
      exact Nat.right_le_or.trans Nat.left_le_or
    omega

theorem primeLoop_calm (hw : DigitWidth w) (hK : K.Calm) (hp : p < sp) (hb : 0 < bits) (h8 : bits % 8 = 0) (hd : DrawsOk w bits draw) (hf : bits ≤ fuel) :
    ∀ (n i : Nat) (res : Int) (s : St) (z : Int) (A : Env), At K A sp s → (∀ o, A p o → V w z 0 o) → 0 ≤ z →
    ∃ st it s', primeLoop w sp fuel p bits draw n i res s = .ok ((st, it), s') ∧
      let C := fun k => Spec.primeCandidate bits (beVal (draw k).bytes)
      let ok := fun k => Verdict (C k) fun j => rangeVal (C k) ((draw k).mr j)
      ((∃ k, k < n ∧ st = 0 ∧ it = i + k + 1 ∧ ok (i + k) ∧ (∀ j < k, ¬ ok (i + j)) ∧ At K (Function.update A p (V w (C (i + k) : Nat) 0)) sp s') ∨
       ((n = 0 → st = res ∧ s' = s) ∧ it = i + n ∧ (∀ j < n, ¬ ok (i + j)) ∧
        (n ≠ 0 → At K (Function.update A p (V w (C (i + n - 1) : Nat) 0)) sp s')))
  | 0, i, res, s, z, A, h, _, _ => ⟨res, i, s, rfl, Or.inr ⟨fun _ => ⟨rfl, rfl⟩, rfl, by simp, by simp⟩⟩
  | n + 1, i, res, s, z, A, h, ap, hz => by
    obtain ⟨d1, d2, d3⟩ := hd i
    obtain ⟨s1, s2, s3, s4, e1, e2, e3, e4, h4⟩ := cand_calm hw hK h hp ap hz hb h8 (draw i).bytes d1 d2
    have hlt : beVal (draw i).bytes < 2 ^ bits := by
      have := beVal_lt (draw i).bytes
      rwa [d1, show 256 = 2 ^ 8 by rfl, ← pow_mul, show 8 * (bits / 8) = bits by omega] at this
    have hsz := cand_size (bits := bits) (by omega) hlt
    have h1 : Spec.primeCandidate bits (beVal (draw i).bytes) ≠ 1 := by
      intro h; rw [h] at hsz; have : Nat.size 1 = 1 := by decide
      omega
    obtain ⟨st, s5, e5, h5, c5⟩ := isPrime_calm hw hK h4 hp (n := Spec.primeCandidate bits (beVal (draw i).bytes)) (fuel := fuel)
      (fun o ho => by rw [Function.update_self] at ho; exact ho.shows) h1 (by omega) (draw i).mr
      (fun _ j hj => by rw [hsz]; exact ⟨by rw [(d3 j hj).1]; omega, (d3 j hj).2⟩)
    unfold primeLoop
    rw [bind_ok e1, if_neg (by omega), bind_ok e2, bind_ok e3, bind_ok e4, bind_ok e5]
    rcases c5 with ⟨rfl, c⟩ | ⟨rfl, c⟩
    · rw [if_neg (by omega), if_pos rfl]
      exact ⟨0, i + 1, s5, rfl, Or.inl ⟨0, by omega, rfl, rfl, c, by simp, h5⟩⟩
    · rw [if_neg (by omega), if_neg (by omega)]
      obtain ⟨st, it, s6, e6, h6⟩ := primeLoop_calm hw hK hp hb h8 hd hf n (i + 1) 0 s5 _ _ h5 (fun o ho => by rwa [Function.update_self] at ho) (by positivity)
      refine ⟨st, it, s6, e6, ?_⟩
      simp only [Function.update_idem] at h6
      rcases h6 with ⟨k, k1, k2, k3, k4, k5, k6⟩ | ⟨k1, k2, k3, k4⟩
      · refine Or.inl ⟨k + 1, by omega, k2, by omega, by rw [show i + (k + 1) = i + 1 + k by omega]; exact k4, fun j hj => ?_,
          by rw [show i + (k + 1) = i + 1 + k by omega]; exact k6⟩
        cases j with
        | zero => exact c
        | succ j => rw [show i + (j + 1) = i + 1 + j by omega]; exact k5 j (by omega)
      · refine Or.inr ⟨by simp, by omega, fun j hj => ?_, fun _ => ?_⟩
        · cases j with
          | zero => exact c
          | succ j => rw [show i + (j + 1) = i + 1 + j by omega]; exact k3 j (by omega)
        · by_cases hn : n = 0
          · subst hn
            obtain ⟨-, rfl⟩ := k1 rfl
            exact h5
          · have := k4 hn
            rwa [show i + (n + 1) - 1 = i + 1 + n - 1 by omega]

end Verif.Mem
