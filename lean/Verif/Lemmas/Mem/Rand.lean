import Verif.Lemmas.Mem.Pk
import Verif.Props.Mpi.Conv
/-! `cry_mpi_rand` and `cry_mpi_rand_range` in memory. -/
namespace Verif.Mem
open Verif.Mpi

variable {w : Nat}

/-- The change of the top digit. -/
theorem randTop_run {S r n bits : Nat} {s : St} {g : Bool} {ds : List Nat} (h : HoldsC ⟨g, ds⟩ n (s.obj r)) (hl : (bits - 1) / w < ds.length) :
    ∃ s', (do
        let digs := (bits - 1) / w + 1
        let msb := bits - w * (digs - 1)
        if msb < w then
          let d ← rd r (digs - 1)
          wr r (digs - 1) (d &&& (1 <<< msb - 1))
        let d ← rd r (digs - 1)
        wr r (digs - 1) (d ||| 1 <<< (msb - 1))
        pure 0 : M Int) s = .ok (0, s') ∧ Step S s s' r ∧
      HoldsC ⟨g, ds.set ((bits - 1) / w) ((if bits - w * ((bits - 1) / w) < w then dig ds ((bits - 1) / w) &&& (1 <<< (bits - w * ((bits - 1) / w)) - 1)
        else dig ds ((bits - 1) / w)) ||| 1 <<< (bits - w * ((bits - 1) / w) - 1))⟩ n (s'.obj r) := by
  dsimp only
  rw [Nat.add_sub_cancel]
  set k := (bits - 1) / w
  by_cases hm : bits - w * k < w
  · rw [if_pos hm]
    obtain ⟨s1, e1, p1, h1⟩ := wr_run (S := S) h hl (d := dig ds k &&& (1 <<< (bits - w * k) - 1))
    have e0 : rd r k s = .ok (dig ds k, s) := rd_run h.1.reads hl
    have e2 : rd r k s1 = .ok (dig ds k &&& (1 <<< (bits - w * k) - 1), s1) := by
      rw [rd_run h1.1.reads (by simpa using hl)]
      simp [dig, List.getD_eq_getElem?_getD, List.getElem?_set_self hl]
    obtain ⟨s2, e3, p3, h3⟩ := wr_run (S := S) h1 (k := k) (by simpa using hl) (d := dig ds k &&& (1 <<< (bits - w * k) - 1) ||| 1 <<< (bits - w * k - 1))
    refine ⟨s2, ?_, p1.trans p3, ?_⟩
    · rw [bind_ok e0, bind_ok e1, bind_ok e2, bind_ok e3]; rfl
    · rw [List.set_set] at h3; rw [if_pos hm]; exact h3
  · rw [if_neg hm, if_neg hm]
    have e0 : rd r k s = .ok (dig ds k, s) := rd_run h.1.reads hl
    obtain ⟨s2, e3, p3, h3⟩ := wr_run (S := S) h hl (d := dig ds k ||| 1 <<< (bits - w * k - 1))
    refine ⟨s2, ?_, p3, h3⟩
    rw [bind_ok e0, bind_ok e3]; rfl

theorem loadBin_len (hw : DigitWidth w) (bs : List Byte) {k : Nat} (h : (2 ^ w) ^ k ≤ beVal bs) : k < (Mpi.loadBin w false bs).digs.length := by
  have r := NatRep.loadBin hw bs
  have := Mpi.val_lt r.norm.digits
  rw [r.value] at this
  exact (Nat.pow_lt_pow_iff_right (by have := Nat.pow_le_pow_right (show 0 < 2 by omega) hw.pos; omega)).1 (h.trans_lt this)

/-- The number `cry_mpi_rand` makes from the bytes of the generator. -/
theorem rand_leaf (hw : DigitWidth w) {S r bits : Nat} {s : St} {z : Int} (h : V w z 0 (s.obj r)) (hz : 0 ≤ z) (bs : List Byte)
    (hl : bs.length = (bits + 7) / 8) (hb : 0 < bits) (hV : (2 ^ w) ^ ((bits - 1) / w) ≤ beVal bs) :
    Leaf S s r (rand w r bits bs) (V w ((beVal bs % 2 ^ (bits - 1) + 2 ^ (bits - 1) : Nat) : Int) 0) (V w z 0) := by
  unfold rand
  rw [if_neg (by omega)]
  by_cases hf : s.fails s.tick = true
  · refine ⟨-1, { s with tick := s.tick + 1 }, ?_, ⟨fun _ _ _ => rfl, rfl, rfl, Nat.le_succ _⟩,
      Or.inr ⟨rfl, ⟨s.tick, le_refl _, Nat.lt_succ_self _, hf⟩, h⟩⟩
    rw [bind_ok (show request 1 s = .ok (false, { s with tick := s.tick + 1 }) by unfold request; rw [if_pos hf])]
    rfl
  · have e1 : request 1 s = .ok (true, { s with tick := s.tick + 1, live := s.live + 1 }) := by unfold request; rw [if_neg hf]
    unfold Leaf
    rw [bind_ok e1, if_pos rfl]
    set s1 : St := { s with tick := s.tick + 1, live := s.live + 1 } with hs1
    obtain ⟨m, m1, m2, m3⟩ := id h
    have hn : m.neg = false := V.nonneg_sign (o := s.obj r) (n := 0) (by have := hw.pos; omega) m1 m2 hz
    obtain ⟨st, s2, e2, p2, h2⟩ := loadBin_leaf hw (sp := S) (s := s1) (x := r) (show HoldsC m 0 (s1.obj r) from m3) bs
    have p1 : ∀ v, s1.obj v = s.obj v := fun _ => rfl
    rcases h2 with ⟨rfl, h2⟩ | ⟨rfl, ⟨k, k1, k2, k3⟩, h2⟩
    · rw [hn] at h2
      have hlen := loadBin_len hw bs hV
      obtain ⟨s3, e3, p3, h3⟩ := randTop_run (S := S) (bits := bits) (ds := (Mpi.loadBin w false bs).digs) (g := (Mpi.loadBin w false bs).neg) h2 hlen
      obtain ⟨x, x1, x2, -, -, x5⟩ := Mpi.rand_correct_partial hw ((bits - 1) / w + 1) bits bs hl (Or.inl hV)
      unfold Mpi.rand at x1
      rw [if_neg (by omega)] at x1
      dsimp only at x1
      rw [if_neg (by unfold Mpi.grow; split_ifs <;> omega), if_neg (by omega), Nat.add_sub_cancel] at x1
      have x1 := Mpi.RandOut.ok.inj x1
      refine ⟨0, { s3 with live := s3.live - 1 }, ?_, ⟨fun v hv hvr => ?_, ?_, ?_, ?_⟩, Or.inl ⟨rfl, x, x2, x5 hb, ?_⟩⟩
      · rw [bind_ok ((chk_ok e2).trans e3)]; rfl
      · exact (p3.frame v hv hvr).trans (p2.frame v hv hvr)
      · have a := (p2.trans p3).live
        show s3.live - 1 + (s.obj r).owns = s.live + (s3.obj r).owns
        have b : s1.live = s.live + 1 := rfl
        rw [p1] at a
        omega
      · exact p3.fails.trans p2.fails
      · have a := (p2.trans p3).tick
        have b : s1.tick = s.tick + 1 := rfl
        show s.tick ≤ s3.tick
        omega
      · show HoldsC x 0 (s3.obj r)
        rw [← x1]; exact h3
    · refine ⟨-1, { s2 with live := s2.live - 1 }, ?_, ⟨fun v hv hvr => ?_, ?_, ?_, ?_⟩, Or.inr ⟨rfl, ⟨k, ?_, k2, k3⟩, ?_⟩⟩
      · rw [bind_ok (chk_fail e2 (by decide))]; rfl
      · exact p2.frame v hv hvr
      · have a := p2.live
        show s2.live - 1 + (s.obj r).owns = s.live + (s2.obj r).owns
        have b : s1.live = s.live + 1 := rfl
        rw [p1] at a
        omega
      · exact p2.fails
      · have a := p2.tick
        have b : s1.tick = s.tick + 1 := rfl
        show s.tick ≤ s2.tick
        omega
      · have b : s1.tick = s.tick + 1 := rfl
        omega
      · show V w z 0 (s2.obj r)
        rw [h2]; exact h

theorem countBits_shows (hw : DigitWidth w) {s : St} {v M : Nat} (h : (s.obj v).Shows w M) : countBits w v s = .ok (M.size, s) := by
  obtain ⟨m, m1, m2, m3⟩ := h
  rw [countBits_run m3, (NatRep.of_wf m1 m2).countBits hw]

theorem randRange_leaf (hw : DigitWidth w) {S r x M : Nat} {s : St} {z : Int} (h : V w z 0 (s.obj r)) (hz : 0 ≤ z) (hx : (s.obj x).Shows w M)
    (hM : 0 < M) (hrs : r < S) (hxs : x < S) (hrx : x ≠ r) (bs : List Byte) (hl : bs.length = (M.size + 7) / 8)
    (hV : (2 ^ w) ^ ((M.size - 1) / w) ≤ beVal bs) :
    Leaf S s r (randRange w S r x bs) (V w (rangeVal M bs) 0) (Any w) := by
  have hb : 0 < M.size := Nat.size_pos.2 hM
  obtain ⟨st, s1, e1, p1, h1⟩ := rand_leaf hw (S := S) h hz bs hl hb hV
  unfold Leaf randRange
  rw [bind_ok (countBits_shows hw hx), bind_ok e1]
  rcases h1 with ⟨rfl, h1⟩ | ⟨rfl, f1, h1⟩
  · rw [if_pos rfl]
    have hx1 : (s1.obj x).Shows w M := by rw [p1.frame x hxs hrx]; exact hx
    obtain ⟨c, e2, -, c2⟩ := cmpAbs_shows h1.shows hx1
    rw [bind_ok e2]
    have c2 : c ≥ 0 ↔ M ≤ beVal bs % 2 ^ (M.size - 1) + 2 ^ (M.size - 1) := c2
    by_cases hc : c ≥ 0
    · rw [if_pos hc]
      obtain ⟨st, s2, e3, p3, h3⟩ := mod_leaf hw (r := r) h1.shows hx1 hrs hxs (by omega) hrs h1.any (Or.inr hrx)
      refine ⟨st, s2, e3, p1.trans p3, ?_⟩
      rcases h3 with ⟨rfl, h3⟩ | ⟨rfl, ⟨k, k1, k2, k3⟩, h3⟩
      · left; refine ⟨rfl, ?_⟩; unfold rangeVal; rw [Int.natCast_mod]; exact h3
      · right; exact ⟨rfl, ⟨k, p1.tick.trans k1, k2, by rw [← p1.fails]; exact k3⟩, h3⟩
    · rw [if_neg hc]
      refine ⟨0, s1, rfl, p1, Or.inl ⟨rfl, ?_⟩⟩
      unfold rangeVal; rw [Nat.mod_eq_of_lt (by rw [c2] at hc; omega)]; exact h1
  · rw [if_neg (by decide)]
    exact ⟨-1, s1, rfl, p1, Or.inr ⟨rfl, f1, h1.any⟩⟩

end Verif.Mem
