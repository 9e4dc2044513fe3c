import Verif.Lemmas.Ram.CbcIn
import Verif.Lemmas.Ram.Cfb
/-! CFB8 in memory. -/
namespace Verif.Ram
open Verif.Modes (xorB cfb8Enc cfb8Dec cfb8Reg xorB_length xorB_comm)

variable {E : List Byte → List Byte} {c : Nat}

theorem bytes_one {R : Ram} (a : Nat) : R.bytes a 1 = [R.mem a] := rfl

theorem bytes_cons {R : Ram} (a n : Nat) : R.bytes a (n + 1) = R.mem a :: R.bytes (a + 1) n := by
  rw [Nat.add_comm n 1, bytes_add, bytes_one]; rfl

theorem load_eq {R : Ram} {a : Nat} (h : R.Owned a 1) : load R a = some (R.mem a) := by
  unfold load
  exact if_pos (h 0 (by omega))

theorem store_eq {R : Ram} {a : Nat} {v : Byte} (h : R.Owned a 1) : store R a v = some (R.put a [v]) := by
  unfold store
  exact if_pos (h 0 (by omega))

theorem mem_head {R : Ram} {a n : Nat} {l : List Byte} (h : R.bytes a n = l) (hn : 0 < n) : R.mem a = l.headD 0 := by
  subst h
  obtain ⟨n, rfl⟩ : ∃ m, n = m + 1 := ⟨n - 1, by omega⟩
  rw [bytes_cons]; rfl

theorem bytes_tail {R : Ram} {a n : Nat} {l : List Byte} (h : R.bytes a n = l) (hn : 0 < n) :
    R.bytes (a + 1) (n - 1) = l.drop 1 := by
  subst h
  obtain ⟨n, rfl⟩ : ∃ m, n = m + 1 := ⟨n - 1, by omega⟩
  rw [bytes_cons]; rfl

/-- Simplifies statements about the members of explicit lists. -/
macro "mems" : tactic =>
  `(tactic| simp only [List.mem_cons, List.not_mem_nil, or_false, forall_eq_or_imp, forall_eq, Outside])

theorem cfb8EncLoop_ram (hE : ∀ b, b.length = c → (E b).length = c) (hc : 0 < c) {ctx buf : Nat} :
    ∀ (src : List Byte) (R : Ram) (pos d s : Nat) (v : List Byte), pos ≤ c →
    R.Owned ctx c → R.Owned s src.length → R.Owned d src.length → R.Owned buf (2 * c) →
    Apart ctx c s src.length → Apart ctx c d src.length → Apart ctx c buf (2 * c) →
    Apart buf (2 * c) s src.length → Apart buf (2 * c) d src.length → (d ≤ s ∨ s + src.length ≤ d) →
    R.bytes (buf + pos) c = v → R.bytes s src.length = src →
    ∃ R', cfb8EncLoop E c ctx buf src.length R pos d s = some R' ∧
      Wrote R R' [(d, cfb8Enc E v src), (ctx, cfb8Reg v (cfb8Enc E v src))] [(buf, 2 * c)]
  | [], R, pos, d, s, v, hpos, hx, hs, hd, hbuf, hxs, hxd, hxb, hbs, hbd, hp, ev, e => by
    have hvl : v.length = c := by rw [← ev, bytes_length]
    unfold Apart at hxb
    refine ⟨_, memcpy_eq (by own) (by own) (by apt), rfl, rfl, ?_, ?_⟩
    · mems
      simp only [cfb8Enc, cfb8Reg, List.length_nil, bytes_zero, true_and, List.append_nil, List.drop_zero]
      rw [ev]
      exact bytes_put_same rfl
    · mems
      intro x h1 h2
      simp only [cfb8Enc, cfb8Reg, List.length_nil, List.append_nil, List.drop_zero] at h1
      exact put_mem_out (by rw [ev]; omega)
  | p :: src, R, pos, d, s, v, hpos, hx, hs, hd, hbuf, hxs, hxd, hxb, hbs, hbd, hp, ev, e => by
    have hvl : v.length = c := by rw [← ev, bytes_length]
    have hel := hE v hvl
    rw [List.length_cons] at hs hd hxs hxd hbs hbd hp e
    unfold Apart at hxs hxd hxb hbs hbd
    rw [bytes_cons] at e
    have e1 : R.mem s = p := by injection e
    have e2 : R.bytes (s + 1) src.length = src := by injection e
    rw [List.length_cons, cfb8EncLoop]
    -- after the optional copy
    obtain ⟨R1, h1, hw1, ev1⟩ : ∃ R1, (if pos = c then memcpy R buf (buf + c) c else some R) = some R1 ∧
        (∃ j : List Byte, j.length ≤ c ∧ R1 = R.put buf j) ∧ R1.bytes (buf + if pos = c then 0 else pos) c = v := by
      by_cases hpc : pos = c
      · subst hpc
        simp only [if_true]
        exact ⟨_, memcpy_eq (by own) (by own) (by apt), ⟨_, by rw [bytes_length], rfl⟩,
          by rw [Nat.add_zero, bytes_put_same (by rw [bytes_length]), ev]⟩
      · rw [if_neg hpc, if_neg hpc]
        exact ⟨R, rfl, ⟨[], by simp, by simp⟩, ev⟩
    obtain ⟨j, hj, rfl⟩ := hw1
    rw [h1, Option.bind_some]
    dsimp only
    generalize hq : (if pos = c then 0 else pos) = q at *
    have hqc : q < c := by rw [← hq]; split <;> omega
    rw [cipher_one (by own) (by own), Option.bind_some, ev1, load_eq (by own), Option.bind_some, load_eq (by own),
      Option.bind_some, put_mem_out (x := s) (by omega), put_mem_out (x := s) (by omega), e1,
      mem_head (bytes_put_same hel) hc, store_eq (by own), Option.bind_some, store_eq (by own), Option.bind_some]
    generalize hy : p ^^^ (E v).headD 0 = y
    obtain ⟨R', hR, w⟩ := cfb8EncLoop_ram (ctx := ctx) (buf := buf) hE hc src
      ((((R.put buf j).put ctx (E v)).put d [y]).put (buf + (q + c)) [y]) (q + 1) (d + 1) (s + 1) (v.drop 1 ++ [y])
      (by omega) (by own) (by own) (by own) (by own) (by apt) (by apt) (by apt) (by apt) (by apt) (by omega)
      (by
        have h2 : (((R.put buf j).put ctx (E v)).put d [y]).bytes (buf + q) c = v := by
          rw [bytes_put_apart (by simp only [List.length_singleton]; apt), bytes_put_apart (by apt), ev1]
        have hcs : c = (c - 1) + 1 := by omega
        rw [show (((((R.put buf j).put ctx (E v)).put d [y]).put (buf + (q + c)) [y]).bytes (buf + (q + 1)) c) =
          (((((R.put buf j).put ctx (E v)).put d [y]).put (buf + (q + c)) [y]).bytes (buf + (q + 1)) ((c - 1) + 1)) by
            rw [← hcs], bytes_add]
        congr 1
        · rw [bytes_put_apart (by simp only [List.length_singleton]; apt)]
          exact bytes_tail h2 hc
        · rw [show buf + (q + 1) + (c - 1) = buf + (q + c) by omega]
          exact bytes_put_same rfl)
      (by
        rw [bytes_put_apart (by simp only [List.length_singleton]; apt),
          bytes_put_apart (by simp only [List.length_singleton]; apt), bytes_put_apart (by apt),
          bytes_put_apart (by apt), e2])
    have hyl := Modes.cfb8Enc_length (E := E) src (v.drop 1 ++ [y])
    have hrl : (cfb8Reg (v.drop 1 ++ [y]) (cfb8Enc E (v.drop 1 ++ [y]) src)).length = c := by
      rw [Modes.cfb8Reg_length, List.length_append, List.length_drop, List.length_singleton]; omega
    have hne : v ≠ [] := by rintro rfl; simp at hvl; omega
    refine ⟨R', hR, w.own, w.tmp, ?_, ?_⟩
    · have wa := w.at_
      revert wa
      mems
      rintro ⟨w1, w2⟩
      simp only [cfb8Enc]
      rw [hy, Modes.cfb8Reg_cons hne]
      refine ⟨?_, w2⟩
      rw [List.length_cons, bytes_cons, w1]
      congr 1
      have := w.bytes_else (a := d) (n := 1) (by mems; exact ⟨by apt, by apt⟩) (by mems; apt)
      rw [bytes_one, bytes_put_apart (by simp only [List.length_singleton]; apt), bytes_put_same (l := [y]) (n := 1) rfl] at this
      injection this
    · mems
      rintro x ⟨h1, h2⟩ h3
      simp only [cfb8Enc, hy, Modes.cfb8Reg_cons hne, List.length_cons] at h1 h2
      rw [w.else_ x (by mems; omega) (by mems; omega), put_mem_out (by simp only [List.length_singleton]; omega),
        put_mem_out (by simp only [List.length_singleton]; omega), put_mem_out (by omega), put_mem_out (by omega)]

theorem cfb8Encrypt_ram (hE : ∀ b, b.length = c → (E b).length = c) (hc : 0 < c) {ctx buf : Nat} {R : Ram} {d s : Nat}
    {src v : List Byte} (hx : R.Owned ctx c) (hs : R.Owned s src.length) (hd : R.Owned d src.length)
    (hbuf : R.Owned buf (2 * c)) (hxs : Apart ctx c s src.length) (hxd : Apart ctx c d src.length)
    (hxb : Apart ctx c buf (2 * c)) (hbs : Apart buf (2 * c) s src.length) (hbd : Apart buf (2 * c) d src.length)
    (hp : d ≤ s ∨ s + src.length ≤ d) (ev : R.bytes ctx c = v) (e : R.bytes s src.length = src) :
    ∃ R', cfb8Encrypt E c ctx buf R d s src.length = some R' ∧
      Wrote R R' [(d, cfb8Enc E v src), (ctx, cfb8Reg v (cfb8Enc E v src))] [(buf, 2 * c)] := by
  have hvl : v.length = c := by rw [← ev, bytes_length]
  unfold Apart at hxs hxd hxb hbs hbd
  unfold cfb8Encrypt
  rw [memcpy_eq (by own) (by own) (by apt), Option.bind_some, ev]
  obtain ⟨R', h, w⟩ := cfb8EncLoop_ram (ctx := ctx) (buf := buf) hE hc src (R.put buf v) 0 d s v (by omega) (by own) (by own) (by own) (by own)
    (by apt) (by apt) (by apt) (by apt) (by apt) hp (bytes_put_same hvl) (by rw [bytes_put_apart (by apt), e])
  refine ⟨R', h, w.own, w.tmp, w.at_, fun x h1 h2 => ?_⟩
  rw [w.else_ x h1 h2]
  have := h2 (buf, 2 * c) (by simp)
  unfold Outside at this
  exact put_mem_out (by dsimp only at this; omega)

end Verif.Ram
