import Verif.Lemmas.Ram.Cfb8
/-! CFB8 decryption in memory. -/
namespace Verif.Ram
open Verif.Modes (xorB cfb8Enc cfb8Dec cfb8Reg xorB_length xorB_comm)

variable {E : List Byte → List Byte} {c : Nat}

theorem cfb8Inner_ram (hE : ∀ b, b.length = c → (E b).length = c) (hc : 0 < c) {buf obuf : Nat} :
    ∀ (n i : Nat) (R : Ram), i + n ≤ c → R.Owned buf (2 * c) → R.Owned obuf (2 * c) → Apart buf (2 * c) obuf (2 * c) →
    ∃ R', cfb8Inner E c buf obuf n i R = some R' ∧ R'.own = R.own ∧ R'.tmp = R.tmp ∧
      (∀ j < i, R'.mem (obuf + j) = R.mem (obuf + j)) ∧
      (∀ j, i ≤ j → j < i + n → R'.mem (obuf + j) = (E (R.bytes (buf + j) c)).headD 0) ∧
      ∀ x, Outside x obuf (2 * c) → R'.mem x = R.mem x
  | 0, i, R, _, _, _, _ => ⟨R, rfl, rfl, rfl, fun _ _ => rfl, fun _ _ _ => by omega, fun _ _ => rfl⟩
  | n + 1, i, R, hin, hbuf, hv, hbv => by
    unfold Apart at hbv
    have hel : (E (R.bytes (buf + i) c)).length = c := hE _ (bytes_length _ _)
    rw [cfb8Inner, cipher_one (by ownof hbuf) (by ownof hv), Option.bind_some]
    obtain ⟨R', h1, h2, h3, h4, h5, h6⟩ := cfb8Inner_ram (buf := buf) (obuf := obuf) hE hc n (i + 1)
      (R.put (obuf + i) (E (R.bytes (buf + i) c))) (by omega) (by ownof hbuf) (by ownof hv) (by apt)
    refine ⟨R', h1, h2, h3, ?_, ?_, ?_⟩
    · intro j hj
      rw [h4 j (by omega), put_mem_out (by omega)]
    · intro j hj1 hj2
      by_cases hji : j = i
      · subst hji
        rw [h4 j (by omega)]
        exact mem_head (bytes_put_same hel) hc
      · rw [h5 j (by omega) (by omega), bytes_put_apart (by apt)]
    · intro x hx
      unfold Outside at hx
      rw [h6 x hx, put_mem_out (by omega)]

/-- A window of the buffer is the register after the bytes before it. -/
theorem window {R : Ram} {buf n j : Nat} {v ys : List Byte} (hv : R.bytes buf c = v) (hys : R.bytes (buf + c) n = ys)
    (hjn : j ≤ n) : R.bytes (buf + j) c = cfb8Reg v (ys.take j) := by
  have hvl : v.length = c := by rw [← hv, bytes_length]
  have hyl : ys.length = n := by rw [← hys, bytes_length]
  have h1 : R.bytes (buf + c) j = ys.take j := by
    exact bytes_take hys hjn
  have h2 : R.bytes buf (j + c) = v ++ ys.take j := by
    rw [Nat.add_comm, bytes_add, hv, h1]
  rw [bytes_add] at h2
  unfold cfb8Reg
  rw [← h2, List.length_take, Nat.min_eq_left (by omega), List.drop_left' (bytes_length _ _)]

/-- A turn of the loop. -/
theorem cfb8_turn (hE : ∀ b, b.length = c → (E b).length = c) (hc : 0 < c) {buf obuf n m d s : Nat} {R : Ram}
    {v S ys Z : List Byte} (hn : n ≤ c) (hm : m ≤ c)
    (hs : R.Owned s (n + m)) (hd : R.Owned d n) (hbuf : R.Owned buf (2 * c)) (hv : R.Owned obuf (2 * c))
    (hbs : Apart buf (2 * c) s (n + m)) (hbd : Apart buf (2 * c) d n)
    (hos : Apart obuf (2 * c) s (n + m)) (hod : Apart obuf (2 * c) d n) (hbo : Apart buf (2 * c) obuf (2 * c))
    (hp : d ≤ s ∨ s + (n + m) ≤ d)
    (ev : R.bytes buf c = v) (eS : R.bytes (buf + c) c = S) (hS : S.take n = ys)
    (e : R.bytes s n = ys) (eZ : R.bytes (s + n) m = Z) :
    ∃ R1 : Ram, ((cfb8Inner E c buf obuf n 0 R).bind fun R => (xor2 R d s obuf n).bind fun R =>
        (memcpy R buf (buf + c) c).bind fun R => memcpy R (buf + c) (s + n) m) =
        some (((R1.put d (cfb8Dec E v ys)).put buf S).put (buf + c) Z) ∧
      R1.own = R.own ∧ R1.tmp = R.tmp ∧ ∀ x, Outside x obuf (2 * c) → R1.mem x = R.mem x := by
  have hvl : v.length = c := by rw [← ev, bytes_length]
  have hSl : S.length = c := by rw [← eS, bytes_length]
  have hyl : ys.length = n := by rw [← e, bytes_length]
  have hvne : v ≠ [] := by rintro rfl; simp at hvl; omega
  unfold Apart at hbs hbd hos hod hbo
  obtain ⟨R1, a1, a2, a3, -, a5, a6⟩ := cfb8Inner_ram (buf := buf) (obuf := obuf) hE hc n 0 R (by omega) hbuf hv (by apt)
  refine ⟨R1, ?_, a2, a3, a6⟩
  have b1 : ∀ a m, Apart a m obuf (2 * c) → R1.bytes a m = R.bytes a m := by
    intro a m h
    unfold Apart at h
    apply bytes_ext
    intro j hj
    exact a6 _ (by unfold Outside; omega)
  have hO : ∀ a n, R.Owned a n → R1.Owned a n := fun a n h i hi => by rw [a2]; exact h i hi
  replace hs := hO _ _ hs
  replace hd := hO _ _ hd
  replace hbuf := hO _ _ hbuf
  replace hv := hO _ _ hv
  have ho : R1.bytes obuf n = (List.range ys.length).map fun j => (E (cfb8Reg v (ys.take j))).headD 0 := by
    unfold Ram.bytes
    rw [hyl]
    apply List.map_congr_left
    intro j hj
    have hj := List.mem_range.1 hj
    rw [a5 j (by omega) (by omega), window (n := n) ev (ys := ys) _ (by omega)]
    rw [bytes_take eS hn, hS]
  have hdl : (cfb8Dec E v ys).length = n := by rw [Modes.cfb8Dec_length, hyl]
  rw [a1, Option.bind_some, xor2_eq (by ownof hs) (by ownof hv) (by ownof hd) (by apt), Option.bind_some, b1 s n (by apt), e, ho,
    ← Modes.cfb8Dec_eq_xor ys v hvne, memcpy_eq (by ownof hbuf) (by ownof hbuf) (by apt), Option.bind_some,
    bytes_put_apart (by rw [hdl]; apt), b1 (buf + c) c (by apt), eS,
    memcpy_eq (by ownof hs) (by ownof hbuf) (by apt), bytes_put_apart (by rw [hSl]; apt), bytes_put_apart (by rw [hdl]; apt),
    b1 (s + n) m (by apt), eZ]

theorem cfb8DecLoop_end {ctx buf obuf k i d s : Nat} {R : Ram} :
    cfb8DecLoop E c ctx buf obuf k R i d s 0 = memcpy R ctx (buf + i) c := by
  rw [cfb8DecLoop.eq_def]
  dsimp only
  rw [if_neg (by simp)]

set_option hygiene false in
/-- Proves that two ranges are apart from one of the hypotheses. -/
macro "apa" : tactic => `(tactic| first
  | apof hxs | apof hxd | apof hxb | apof hxo | apof hbs | apof hbd | apof hos
  | apof hod | apof hbo | (unfold Apart; omega))

set_option maxHeartbeats 800000 in
theorem cfb8DecLoop_ram (hE : ∀ b, b.length = c → (E b).length = c) (hc : 0 < c) {ctx buf obuf : Nat} :
    ∀ (k : Nat) (src : List Byte) (R : Ram) (i0 d s : Nat) (v S : List Byte), src.length ≤ k → src ≠ [] →
    R.Owned ctx c → R.Owned s src.length → R.Owned d src.length → R.Owned buf (2 * c) → R.Owned obuf (2 * c) →
    Apart ctx c s src.length → Apart ctx c d src.length → Apart ctx c buf (2 * c) → Apart ctx c obuf (2 * c) →
    Apart buf (2 * c) s src.length → Apart buf (2 * c) d src.length →
    Apart obuf (2 * c) s src.length → Apart obuf (2 * c) d src.length → Apart buf (2 * c) obuf (2 * c) →
    (d ≤ s ∨ s + src.length ≤ d) →
    R.bytes buf c = v → R.bytes (buf + c) c = S → S.take (min src.length c) = src.take (min src.length c) →
    R.bytes s src.length = src →
    ∃ R', cfb8DecLoop E c ctx buf obuf k R i0 d s src.length = some R' ∧
      Wrote R R' [(d, cfb8Dec E v src), (ctx, if src.length < c then S.drop src.length ++ src else cfb8Reg v src)]
        [(buf, 2 * c), (obuf, 2 * c)] := by
  intro k
  induction k with
  | zero =>
    intro src R i0 d s v S hk hne
    exact absurd (List.length_eq_zero_iff.1 (Nat.le_zero.1 hk)) hne
  | succ k ih =>
    intro src R i0 d s v S hk hne hx hs hd hbuf hv hxs hxd hxb hxo hbs hbd hos hod hbo hp ev eS hS e
    have hpos : 0 < src.length := List.length_pos_iff.2 hne
    have hvl : v.length = c := by rw [← ev, bytes_length]
    have hSl : S.length = c := by rw [← eS, bytes_length]
    have hvne : v ≠ [] := by rintro rfl; simp at hvl; omega
    rw [cfb8DecLoop, if_pos (by omega)]
    dsimp only
    have bassoc : ∀ {X : Option Ram} {f g h j : Ram → Option Ram},
        (X.bind fun R => (f R).bind fun R => (g R).bind fun R => (h R).bind j) =
          ((X.bind fun R => (f R).bind fun R => (g R).bind h)).bind j := by
      intro X f g h j
      simp only [Option.bind_assoc]
    rw [bassoc]
    by_cases hlt : src.length < c
    · -- the last turn, shorter than the register
      have hmin : min src.length c = src.length := by omega
      rw [hmin] at hS
      rw [List.take_length] at hS
      obtain ⟨R1, t1, t2, t3, t4⟩ := cfb8_turn (E := E) (c := c) hE hc (buf := buf) (obuf := obuf) (n := src.length) (m := 0)
        (d := d) (s := s) (R := R) (v := v) (S := S) (ys := src) (Z := []) (by omega) (by omega) (by ownof hs) (by ownof hd) hbuf hv
        (by apa) (by apa) (by apa) (by apa) (by apa) (by omega) ev eS hS e (bytes_zero _)
      rw [hmin, Nat.sub_self, Nat.zero_min, t1, Option.bind_some, put_nil]
      have hO : ∀ a n, R.Owned a n → R1.Owned a n := fun a n h i hi => by rw [t2]; exact h i hi
      replace hx := hO _ _ hx
      replace hbuf := hO _ _ hbuf
      have hdl : (cfb8Dec E v src).length = src.length := Modes.cfb8Dec_length _ _
      have hreg : ((R1.put d (cfb8Dec E v src)).put buf S).bytes (buf + src.length) c = S.drop src.length ++ src := by
        have hb : ((R1.put d (cfb8Dec E v src)).put buf S).bytes (buf + c) src.length = src := by
          rw [bytes_put_apart (by rw [hSl]; apa), bytes_put_apart (by rw [hdl]; apa)]
          have : R1.bytes (buf + c) src.length = R.bytes (buf + c) src.length :=
            bytes_ext fun j hj => t4 _ (hbo.out (by omega) (by omega))
          rw [this, bytes_take eS (by omega), hS]
        rw [bytes_split (k := c - src.length) _ (by omega), show buf + src.length + (c - src.length) = buf + c by omega,
          show c - (c - src.length) = src.length by omega, hb, bytes_put_part (by omega) (by omega), Nat.add_sub_cancel_left, List.take_of_length_le (by rw [List.length_drop]; omega)]
      have hrl : (S.drop src.length ++ src).length = c := by rw [List.length_append, List.length_drop]; omega
      rw [cfb8DecLoop_end, memcpy_eq (by ownof hbuf) (by ownof hx) (by apa), hreg, if_pos hlt]
      refine ⟨_, rfl, t2, t3, ?_, ?_⟩
      · mems
        refine ⟨?_, bytes_put_same rfl⟩
        rw [bytes_put_apart (by apa), bytes_put_apart (by apa), bytes_put_same rfl]
      · intro x k1 k2
        simp only [List.mem_cons, List.not_mem_nil, or_false, forall_eq_or_imp, forall_eq, Outside] at k1 k2
        rw [put_mem_out (by omega), put_mem_out (by omega), put_mem_out (by omega), t4 x (by unfold Outside; omega)]
    · have hmin : min src.length c = c := by omega
      rw [hmin] at hS ⊢
      obtain ⟨ys, zs, rfl, hyl⟩ : ∃ ys zs, src = ys ++ zs ∧ ys.length = c :=
        ⟨src.take c, src.drop c, (List.take_append_drop _ _).symm, by rw [List.length_take]; omega⟩
      have hSy : S = ys := by
        rw [List.take_of_length_le (by omega), List.take_left' hyl] at hS
        exact hS
      subst hSy
      have hdl : (cfb8Dec E v S).length = c := by rw [Modes.cfb8Dec_length, hSl]
      rw [List.length_append, hSl, bytes_add] at e
      obtain ⟨e1, e2⟩ := List.append_inj e (by rw [bytes_length, hSl])
      rw [List.length_append, hSl] at hk hs hd hxs hxd hbs hbd hos hod hp hlt hpos ⊢
      have eZ : R.bytes (s + c) (min zs.length c) = zs.take (min zs.length c) := bytes_take e2 (by omega)
      have hZl : (zs.take (min zs.length c)).length = min zs.length c := by rw [List.length_take]; omega
      obtain ⟨R1, t1, t2, t3, t4⟩ := cfb8_turn (E := E) (c := c) hE hc (buf := buf) (obuf := obuf) (n := c) (m := min zs.length c)
        (d := d) (s := s) (R := R) (v := v) (S := S) (ys := S) (Z := zs.take (min zs.length c)) (by omega) (by omega)
        (by ownof hs) (by ownof hd) hbuf hv
        (by apa) (by apa) (by apa) (by apa) (by apa) (by omega) ev eS (by rw [List.take_of_length_le (by omega)]) e1 eZ
      rw [Nat.add_sub_cancel_left, t1, Option.bind_some, if_neg (by omega)]
      generalize hZ : zs.take (min zs.length c) = Z at *
      generalize hM : min zs.length c = M at *
      have hO : ∀ a n, R.Owned a n → R1.Owned a n := fun a n h i hi => by rw [t2]; exact h i hi
      replace hx := hO _ _ hx
      replace hs := hO _ _ hs
      replace hd := hO _ _ hd
      replace hbuf := hO _ _ hbuf
      replace hv := hO _ _ hv
      have hRv : cfb8Reg v S = S := by
        unfold cfb8Reg; rw [List.drop_left' (by omega)]
      have hRR : cfb8Reg v (S ++ zs) = cfb8Reg S zs := by rw [Modes.cfb8Reg_append, hRv]
      have hDD : cfb8Dec E v (S ++ zs) = cfb8Dec E v S ++ cfb8Dec E S zs := by
        rw [Modes.cfb8Dec_append _ _ _ hvne, hRv]
      generalize hR4 : ((R1.put d (cfb8Dec E v S)).put buf S).put (buf + c) Z = R4 at *
      have n1 : R4.bytes buf c = S := by
        rw [← hR4, bytes_put_apart (by apa), bytes_put_same hSl]
      have n2 : R4.bytes (buf + c) c = Z ++ S.drop M := by
        rw [bytes_split (k := M) _ (by omega), ← hR4, bytes_put_same hZl, bytes_put_apart (by apa), bytes_put_apart (by apa), bytes_put_apart (by apa)]
        congr 1
        have h5 : R1.bytes (buf + c + M) (c - M) = R.bytes (buf + c + M) (c - M) :=
          bytes_ext fun j hj => t4 _ (hbo.out (by omega) (by omega))
        rw [h5, bytes_drop eS (by omega)]
      have n3 : R4.bytes (s + c) zs.length = zs := by
        have h5 : R1.bytes (s + c) zs.length = R.bytes (s + c) zs.length :=
          bytes_ext fun j hj => t4 _ (hos.flip.out (by omega) (by omega))
        rw [← hR4, bytes_put_apart (by apa), bytes_put_apart (by apa), bytes_put_apart (by apa), h5, e2]
      have n4 : R4.bytes d c = cfb8Dec E v S := by
        rw [← hR4, bytes_put_apart (by apa), bytes_put_apart (by apa), bytes_put_same hdl]
      have n5 : ∀ x, Outside x d c → Outside x buf (2 * c) → Outside x obuf (2 * c) → R4.mem x = R.mem x := by
        intro x y1 y2 y3
        unfold Outside at y1 y2
        rw [← hR4, put_mem_out (by omega), put_mem_out (by omega), put_mem_out (by omega), t4 x y3]
      have n6 : R4.own = R.own := by rw [← hR4]; exact t2
      have n7 : R4.tmp = R.tmp := by rw [← hR4]; exact t3
      have hO4 : ∀ a n, R1.Owned a n → R4.Owned a n := fun a n h i hi => by rw [n6, ← t2]; exact h i hi
      replace hx := hO4 _ _ hx
      replace hs := hO4 _ _ hs
      replace hd := hO4 _ _ hd
      replace hbuf := hO4 _ _ hbuf
      replace hv := hO4 _ _ hv
      have hzl2 : (cfb8Dec E S zs).length = zs.length := Modes.cfb8Dec_length _ _
      have hrl : (cfb8Reg S zs).length = c := by unfold cfb8Reg; rw [List.length_drop, List.length_append]; omega
      rw [hDD, hRR]
      by_cases hz : zs = []
      · subst hz
        have hr0 : cfb8Reg S [] = S := by unfold cfb8Reg; simp
        have hM0 : M = 0 := by rw [← hM]; simp
        subst hM0
        have hZ0 : Z = [] := by rw [← hZ]; rfl
        subst hZ0
        rw [List.nil_append, List.drop_zero] at n2
        rw [List.length_nil, cfb8DecLoop_end, memcpy_eq (by ownof hbuf) (by ownof hx) (by apa), n2, hr0]
        refine ⟨_, rfl, n6, n7, ?_, ?_⟩
        · mems
          refine ⟨?_, bytes_put_same rfl⟩
          rw [List.length_append, hdl, hzl2]
          simp only [List.length_nil, Nat.add_zero] at hxd ⊢
          rw [bytes_put_apart (by apa), n4, show cfb8Dec E S [] = [] by rfl, List.append_nil]
        · intro x k1 k2
          simp only [List.mem_cons, List.not_mem_nil, or_false, forall_eq_or_imp, forall_eq, Outside] at k1 k2
          rw [List.length_append, hdl, hzl2] at k1
          simp only [List.length_nil, Nat.add_zero] at k1
          rw [put_mem_out (by omega), n5 x (by unfold Outside; omega) (by unfold Outside; omega) (by unfold Outside; omega)]
      · obtain ⟨R', g1, g2⟩ := ih zs R4 c (d + c) (s + c) S (Z ++ S.drop M) (by omega) hz hx (by ownof hs) (by ownof hd) hbuf hv (by apa)
          (by apa) (by apa) (by apa) (by apa) (by apa) (by apa) (by apa) (by apa) (by omega) n1 n2
          (by rw [hM, List.take_left' hZl, hZ]) n3
        rw [g1]
        have hfin : (if zs.length < c then (Z ++ S.drop M).drop zs.length ++ zs else cfb8Reg S zs) = cfb8Reg S zs := by
          split
          · have : M = zs.length := by omega
            subst this
            unfold cfb8Reg
            rw [List.drop_left' hZl, List.drop_append_of_le_length (by omega)]
          · rfl
        rw [hfin] at g2
        refine ⟨R', rfl, g2.own.trans n6, g2.tmp.trans n7, ?_, ?_⟩
        · mems
          refine ⟨?_, g2.at_ (ctx, cfb8Reg S zs) (by simp)⟩
          rw [List.length_append, hdl, bytes_add]
          congr 1
          · rw [g2.bytes_else, n4]
            · mems
              exact ⟨by apa, by apa⟩
            · mems
              exact ⟨by apa, by apa⟩
          · exact g2.at_ (d + c, cfb8Dec E S zs) (by simp)
        · intro x k1 k2
          simp only [List.mem_cons, List.not_mem_nil, or_false, forall_eq_or_imp, forall_eq, Outside] at k1 k2
          rw [List.length_append, hdl, hzl2] at k1
          rw [g2.else_ x, n5 x (by unfold Outside; omega) (by unfold Outside; omega) (by unfold Outside; omega)]
          · mems; omega
          · mems; omega

/-- The register a call of `cry_cfb8_decrypt` leaves. -/
theorem cfb8Decrypt_ram (hE : ∀ b, b.length = c → (E b).length = c) (hc : 0 < c) {ctx buf obuf d s : Nat} {R : Ram}
    {v src : List Byte} (hne : src ≠ [])
    (hx : R.Owned ctx c) (hs : R.Owned s src.length) (hd : R.Owned d src.length) (hbuf : R.Owned buf (2 * c))
    (hv : R.Owned obuf (2 * c))
    (hxs : Apart ctx c s src.length) (hxd : Apart ctx c d src.length) (hxb : Apart ctx c buf (2 * c))
    (hxo : Apart ctx c obuf (2 * c))
    (hbs : Apart buf (2 * c) s src.length) (hbd : Apart buf (2 * c) d src.length)
    (hos : Apart obuf (2 * c) s src.length) (hod : Apart obuf (2 * c) d src.length) (hbo : Apart buf (2 * c) obuf (2 * c))
    (hp : d ≤ s ∨ s + src.length ≤ d) (ev : R.bytes ctx c = v) (e : R.bytes s src.length = src) :
    ∃ R', cfb8Decrypt E c ctx buf obuf R d s src.length = some R' ∧
      Wrote R R' [(d, cfb8Dec E v src),
          (ctx, if src.length < c then R.bytes (buf + c + src.length) (c - src.length) ++ src else cfb8Reg v src)]
        [(buf, 2 * c), (obuf, 2 * c)] := by
  unfold Apart at hxs hxd hxb hxo hbs hbd hos hod hbo
  have hvl : v.length = c := by rw [← ev, bytes_length]
  have hZl : (src.take (min src.length c)).length = min src.length c := by rw [List.length_take]; omega
  have hZ : R.bytes s (min src.length c) = src.take (min src.length c) := bytes_take e (by omega)
  unfold cfb8Decrypt
  rw [memcpy_eq (by ownof hx) (by ownof hbuf) (by apt), Option.bind_some, ev, memcpy_eq (by ownof hs) (by ownof hbuf) (by apt), Option.bind_some,
    bytes_put_apart (by rw [hvl]; apt), hZ]
  obtain ⟨R', g1, g2⟩ := cfb8DecLoop_ram (E := E) hE hc (ctx := ctx) (buf := buf) (obuf := obuf) src.length src
    ((R.put buf v).put (buf + c) (src.take (min src.length c))) 0 d s v
    (src.take (min src.length c) ++ R.bytes (buf + c + min src.length c) (c - min src.length c)) (Nat.le_refl _) hne
    (by ownof hx) (by ownof hs) (by ownof hd) (by ownof hbuf) (by ownof hv) (by apt) (by apt) (by apt) (by apt) (by apt) (by apt) (by apt) (by apt)
    (by apt) hp (by rw [bytes_put_apart (by apt), bytes_put_same hvl])
    (by
      rw [bytes_split (k := min src.length c) _ (by omega), bytes_put_same hZl, bytes_put_apart (by apt), bytes_put_apart (by apt)])
    (by rw [List.take_left' hZl])
    (by rw [bytes_put_apart (by apt), bytes_put_apart (by apt), e])
  have hfin : (if src.length < c then
      (src.take (min src.length c) ++ R.bytes (buf + c + min src.length c) (c - min src.length c)).drop src.length ++ src
      else cfb8Reg v src) =
      (if src.length < c then R.bytes (buf + c + src.length) (c - src.length) ++ src else cfb8Reg v src) := by
    split
    · have : min src.length c = src.length := by omega
      rw [this] at hZl ⊢
      rw [List.drop_left' hZl]
    · rfl
  rw [hfin] at g2
  refine ⟨R', g1, g2.own, g2.tmp, g2.at_, ?_⟩
  intro x k1 k2
  rw [g2.else_ x k1 k2]
  simp only [List.mem_cons, List.not_mem_nil, or_false, forall_eq_or_imp, forall_eq, Outside] at k2
  rw [put_mem_out (by omega), put_mem_out (by omega)]

end Verif.Ram
