import Verif.Lemmas.Mem.DsaGen
import Verif.Lemmas.Mem.InitLost
import Verif.Props.Mem.RsaGen
import Verif.Props.Mem.Dsa
import Verif.Props.Pk.DsaGenRun
/-!
# C101: DSA key generation in memory
-/
namespace Verif.Mem
open Verif.Mpi

section
variable {w : Nat} {s : St} {sp fuel q p g pvt pub l : Nat} {zq zp zg zx zy : Int}

/-- The context before the call: initialised numbers at five different addresses; `q`, `p` and the private key of before are not negative. -/
structure DsaCtx (w sp : Nat) (s : St) (q p g pvt pub : Nat) (zq zp zg zx zy : Int) : Prop where
  keys : Keys sp q p g pvt pub
  aq : (s.obj q).Is w zq
  ap : (s.obj p).Is w zp
  ag : (s.obj g).Is w zg
  ax : (s.obj pvt).Is w zx
  ay : (s.obj pub).Is w zy
  q0 : 0 ≤ zq
  p0 : 0 ≤ zp
  x0 : 0 ≤ zx

/-- C101, partial.  Full statement: when `cry_dsa_keygen` returns 0 the context holds a key for the size asked for, with a private key between
1 and `q - 1`; otherwise a failure is reported; all memory of the call is given back and nothing else is written.  Proved, when no allocation
fails and no number drawn begins with a zero digit: the key is the one of the first turn that finds numbers accepted as `q` and `p` and a
power of them above 1; -1 is returned when 1024 turns end without them, or a turn does not find `q`, and then the private and the public key
are those of before.  Missing: the private key is drawn below `(p-1)/q`, not below `q` (`mem_dsa_keygen_private`), and failing
allocations: the statuses of the last two calls are dropped. -/
theorem mem_dsa_keygen_partial (hw : DigitWidth w) (hs : Plenty s) (hc : DsaCtx w sp s q p g pvt pub zq zp zg zx zy) (hl : 512 + l * 64 < 2 ^ 32) (hf : 512 + l * 64 + 1 ≤ fuel)
    {draw : Nat → DsaDraw} (hd : ∀ i, DsaDrawOk w (512 + l * 64) (draw i)) :
    ∃ st s', dsaKeygen w sp fuel p q g pvt pub l draw s = .ok (st, s') ∧ Balanced sp s s' ∧ s'.fails = s.fails ∧
      (∀ v, v < sp → v ≠ q → v ≠ p → v ≠ g → v ≠ pvt → v ≠ pub → s'.obj v = s.obj v) ∧ (∀ v ∈ [q, p, g, pvt, pub], ∃ z, (s'.obj v).Is w z) ∧
      ((st = 0 ∧ ∃ k Q P G, k < 1024 ∧ (∀ j < k, DsaRetry (512 + l * 64) (draw j)) ∧ DsaFound (512 + l * 64) (draw k) Q P G ∧
          (s'.obj q).Is w Q ∧ (s'.obj p).Is w P ∧ (s'.obj g).Is w G ∧ (s'.obj pvt).Is w (rangeVal ((P - 1) / Q) (draw k).x) ∧
          (s'.obj pub).Is w ((G ^ rangeVal ((P - 1) / Q) (draw k).x % P : Nat) : Int)) ∨
       (st = -1 ∧ s'.obj pvt = s.obj pvt ∧ s'.obj pub = s.obj pub ∧ ((∀ j < 1024, DsaRetry (512 + l * 64) (draw j)) ∨
          ∃ k, k < 1024 ∧ (∀ j < k, DsaRetry (512 + l * 64) (draw j)) ∧ NoneIn 5000 160 (draw k).q))) := by
  have hw0 : 0 < w := by have := hw.pos; omega
  have hA := hc.keys
  have hA3 := hA.toThree
  have hp' := hA.ltp; have hq' := hA.ltq; have hg' := hA.ltg; have hx' := hA.ltx; have hy' := hA.lty
  have hK : (ctxOf sp s).Calm := hs
  have h0 : At (ctxOf sp s) (DB w (Now s) q p g zq zp zg) sp s := (at_now sp s).le fun v hv o ho => by
    unfold DB
    rw [show o = s.obj v from ho]
    split_ifs with h1 h2 h3
    · subst h1; exact is_v hc.aq
    · subst h2; exact is_v hc.ap
    · subst h3; exact is_v hc.ag
    · rfl
  obtain ⟨s1, e1, h1⟩ := decl_run h0 4
  have hlist : ∀ v, v ∈ [sp, sp + 1, sp + 2, sp + 3] ↔ sp ≤ v ∧ v < sp + 4 := by
    intro v; simp only [List.mem_cons, List.not_mem_nil, or_false]; omega
  obtain ⟨s2, e2, h2⟩ := initList_calm hw0 hK h1 hlist (by simp)
  obtain ⟨s3, e3, h3⟩ := cn_setInt hw hK h2 (by simp) (r := sp + 3) (i := 3) (z := 1) rfl (by omega) (by decide) rfl
  have h3 : At (ctxOf sp s) (NV w sp (DB w (Now s) q p g zq zp zg) [0, 0, 0, 1]) (sp + 4) s3 := h3
  obtain ⟨st, s4, e4, c4⟩ := dsaKeyLoop_calm (A := Now s) (X0 := zx) hw hK hA (by omega) hf hd (fun o ho => by rw [show o = s.obj pvt from ho]; exact is_v hc.ax) hc.x0
    (fun o ho => by rw [show o = s.obj pub from ho]; exact (is_v hc.ay).any) 1024 0 s3 ⟨zq, zp, zg, 0, 0, 0, hc.q0, hc.p0, le_refl _, h3⟩
  simp only [Nat.zero_add] at c4
  have run : ∀ {s5 : St}, clearList [sp, sp + 1, sp + 2, sp + 3] s4 = .ok ((), s5) → dsaKeygen w sp fuel p q g pvt pub l draw s = .ok (st, s5) := fun {s5} e5 => by
    unfold dsaKeygen
    rw [bind_ok e1, bind_ok e2, bind_ok e3, Nat.mod_eq_of_lt hl]
    show (do let st ← dsaKeyLoop w sp fuel p q g pvt pub (512 + l * 64) draw 1024 0; clearList [sp, sp + 1, sp + 2, sp + 3]; pure st : M Int) s3 = _
    rw [bind_ok e4, bind_ok e5]; rfl
  rcases c4 with ⟨rfl, k, Q, P, G, k1, k2, k3, L, h4⟩ | ⟨rfl, ⟨Q, P, G, a, b, r, -, -, -, h4⟩, k1⟩
  · obtain ⟨s5, e5, h5⟩ := clearList_calm h4 hlist
    have ob := fun v (hv : v < sp) => h5.objs v hv
    have o1 := ob q hq'
    rw [Function.update_of_ne hA.yq.symm, Function.update_of_ne hA.xq.symm, DB.getQ] at o1
    have o2 := ob p hp'
    rw [Function.update_of_ne hA.yp.symm, Function.update_of_ne hA.xp.symm, DB.getP hA3] at o2
    have o3 := ob g hg'
    rw [Function.update_of_ne hA.yg.symm, Function.update_of_ne hA.xg.symm, DB.getG hA3] at o3
    have o4 := ob pvt hx'
    rw [Function.update_of_ne hA.xy, Function.update_self] at o4
    have o5 := ob pub hy'
    rw [Function.update_self] at o5
    refine ⟨0, s5, run e5, balanced_of h5, h5.orc, fun v hv v1 v2 v3 v4 v5 => ?_, ?_, Or.inl ⟨rfl, k, Q, P, G, k1, k2, k3, v_is o1, v_is o2, v_is o3, v_is o4, v_is o5⟩⟩
    · have := ob v hv
      rwa [Function.update_of_ne v5, Function.update_of_ne v4, DB.other v1 v2 v3] at this
    · intro v hv
      simp only [List.mem_cons, List.not_mem_nil, or_false] at hv
      rcases hv with rfl | rfl | rfl | rfl | rfl
      · exact ⟨_, v_is o1⟩
      · exact ⟨_, v_is o2⟩
      · exact ⟨_, v_is o3⟩
      · exact ⟨_, v_is o4⟩
      · exact ⟨_, v_is o5⟩
  · obtain ⟨s5, e5, h5⟩ := clearList_calm h4 hlist
    have ob := fun v (hv : v < sp) => h5.objs v hv
    have o1 := ob q hq'
    rw [DB.getQ] at o1
    have o2 := ob p hp'
    rw [DB.getP hA3] at o2
    have o3 := ob g hg'
    rw [DB.getG hA3] at o3
    have o4 : s5.obj pvt = s.obj pvt := by have := ob pvt hx'; rwa [DB.other hA.xq hA.xp hA.xg] at this
    have o5 : s5.obj pub = s.obj pub := by have := ob pub hy'; rwa [DB.other hA.yq hA.yp hA.yg] at this
    refine ⟨-1, s5, run e5, balanced_of h5, h5.orc, fun v hv v1 v2 v3 v4 v5 => ?_, ?_, Or.inr ⟨rfl, o4, o5, k1⟩⟩
    · have := ob v hv
      rwa [DB.other v1 v2 v3] at this
    · intro v hv
      simp only [List.mem_cons, List.not_mem_nil, or_false] at hv
      rcases hv with rfl | rfl | rfl | rfl | rfl
      · exact ⟨_, v_is o1⟩
      · exact ⟨_, v_is o2⟩
      · exact ⟨_, v_is o3⟩
      · exact ⟨zx, by rw [o4]; exact hc.ax⟩
      · exact ⟨zy, by rw [o5]; exact hc.ay⟩

/-- C101: what the numbers found satisfy. -/
theorem mem_dsa_found {bits : Nat} {dr : DsaDraw} {Q P G : Nat} (hb : 162 ≤ bits) (hd : DsaDrawOk w bits dr) (h : DsaFound bits dr Q P G) :
    Q.size = 160 ∧ 2 * Q < P ∧ P < 2 ^ bits + 1 ∧ Q ∣ P - 1 ∧ 1 < G ∧ G < P ∧ (P.Prime → G ^ Q ≡ 1 [MOD P]) := by
  have hsz := firstIn_size (by decide) (by decide) hd.q h.q
  have hQ : 0 < Q := by rw [← Nat.size_pos]; omega
  have hQb : 2 * Q ≤ 2 ^ (bits - 1) := by
    have h1 : Q < 2 ^ 160 := Nat.size_le.1 hsz.le
    have h2 : 2 ^ 161 ≤ 2 ^ (bits - 1) := Nat.pow_le_pow_right (by decide) (by omega)
    have h3 : (2 : Nat) ^ 161 = 2 * 2 ^ 160 := by rw [pow_succ']
    omega
  obtain ⟨kp, -, hP⟩ := h.p
  obtain ⟨kg, ⟨-, g1, -⟩, hG⟩ := h.g
  obtain ⟨b1, -, b3⟩ := dsaP_bounds (bs := (dr.p kp).bytes) hQ (by omega : 0 < bits) hQb
  have hle : P ≤ 2 ^ bits := by
    rw [hP]; unfold dsaP
    have hlt := Nat.mod_lt (beVal (dr.p kp).bytes) (Nat.two_pow_pos (bits - 1))
    have h3 : 2 ^ (bits - 1) + 2 ^ (bits - 1) = 2 ^ bits := by rw [← two_mul, ← pow_succ']; congr 1; omega
    have := Nat.div_mul_le_self (beVal (dr.p kp).bytes % 2 ^ (bits - 1) + 2 ^ (bits - 1)) (2 * Q)
    omega
  rw [← hP] at b1 b3
  refine ⟨hsz, b1, by omega, ⟨(P - 1) / Q, by rw [mul_comm, b3]⟩, by rw [hG]; exact g1, by rw [hG]; exact Nat.mod_lt _ (by omega), fun hp => ?_⟩
  haveI := Fact.mk hp
  rw [hG]
  unfold dsaG
  set x := rangeVal (P - 1) (dr.g kg) with hx
  have hxlt : x < P - 1 := Nat.mod_lt _ (by omega)
  have hx0 : ((x + 1 : Nat) : ZMod P) ≠ 0 := by
    rw [Ne, ZMod.natCast_eq_zero_iff]
    intro h
    have := Nat.le_of_dvd (by omega) h
    omega
  have hfer := ZMod.pow_card_sub_one_eq_one hx0
  rw [← ZMod.natCast_eq_natCast_iff]
  push_cast at hfer ⊢
  rw [ZMod.natCast_mod]
  push_cast
  rw [← pow_mul, b3]; exact hfer

/-- C101: a key that was made signs: with `p` and `q` prime, the signature of every message made with it in memory is accepted. -/
theorem mem_dsa_life {r t : Nat} {R T : Int} {s' : St} (hw : DigitWidth w) (hs : Plenty s) (hc : DsaCtx w sp s q p g pvt pub zq zp zg zx zy) (hl : 512 + l * 64 < 2 ^ 32) (hf : 512 + l * 64 + 1 ≤ fuel)
    {draw : Nat → DsaDraw} (hd : ∀ i, DsaDrawOk w (512 + l * 64) (draw i)) (hrun : dsaKeygen w sp fuel p q g pvt pub l draw s = .ok (0, s'))
    (hpr : ∀ k Q P G, DsaFound (512 + l * 64) (draw k) Q P G → Q.Prime ∧ P.Prime)
    (hr : r < sp) (ht : t < sp) (rt : r ≠ t) (nr : r ∉ [q, p, g, pvt, pub]) (nt : t ∉ [q, p, g, pvt, pub]) (ar : (s.obj r).Is w R) (at' : (s.obj t).Is w T)
    (msg bs : List Byte) (hbl : bs.length = 20) (hbV : (2 ^ w) ^ (159 / w) ≤ beVal bs) :
    ∃ s'', dsaSign w sp p q g pvt r t msg bs s' = .ok (0, s'') ∧ EndsSame sp s'' (dsaVerify w sp p q g pub r t msg) 0 := by
  obtain ⟨st, s1, e, -, hF, keep, -, c⟩ := mem_dsa_keygen_partial hw hs hc hl hf hd
  rw [e] at hrun
  cases hrun
  have hA := hc.keys
  rcases c with ⟨-, k, Q, P, G, -, -, k3, o1, o2, o3, o4, o5⟩ | ⟨h, -⟩
  swap
  · exact absurd h (by decide)
  obtain ⟨f1, f2, -, -, -, -, f7⟩ := mem_dsa_found (by omega) (hd k) k3
  obtain ⟨hQ, hP⟩ := hpr k Q P G k3
  simp only [List.mem_cons, List.not_mem_nil, or_false, not_or] at nr nt
  obtain ⟨r1, r2, r3, r4, r5⟩ := nr
  obtain ⟨t1, t2, t3, t4, t5⟩ := nt
  exact mem_dsa_sign_verify hw (fun k => by rw [hF]; exact hs k) hA.ltp hA.ltq hA.ltg hA.ltx hA.lty hr ht r2 r1 r3 r4 r5 rt t2 t1 t3 t5 o2.shows o1.shows o3.shows o4.shows o5.shows
    (by rw [keep r hr r1 r2 r3 r4 r5]; exact ar) (by rw [keep t ht t1 t2 t3 t4 t5]; exact at') hP.one_lt hQ (f7 hP) msg bs (by rw [f1]; exact hbl) (by rw [f1]; exact hbV)

end

/-! ### A concrete case -/

/-- The numbers `q, p, g, pvt, pub` of a context and two numbers for a signature, all 1. -/
def exDsaKey : St := ⟨fun v => if v < 7 then ⟨some ⟨false, 1, 1⟩, .mem true [some 1]⟩ else Obj.fresh, fun _ => false, 0, 7⟩

theorem exDsaKey_at {v : Nat} (hv : v < 7) : (exDsaKey.obj v).Is 64 1 := by
  have h : exDsaKey.obj v = ⟨some ⟨false, 1, 1⟩, .mem true [some 1]⟩ := if_pos hv
  rw [h]
  exact ⟨⟨false, [1]⟩, (NatRep.one (w := 64) (by decide)).wf, (NatRep.one (w := 64) (by decide)).toInt, rfl, ⟨[], rfl⟩, Or.inr ⟨_, by simp, rfl⟩⟩

theorem exDsaKey_ctx : DsaCtx 64 7 exDsaKey 0 1 2 3 4 1 1 1 1 1 :=
  ⟨by constructor <;> first | decide | (constructor <;> decide), exDsaKey_at (by decide), exDsaKey_at (by decide), exDsaKey_at (by decide), exDsaKey_at (by decide), exDsaKey_at (by decide),
    by decide, by decide, by decide⟩

/-- The bytes of `DsaGen.exDraw`: primes of 160 and 512 bits. -/
def exDsaDraw : DsaDraw :=
  ⟨fun _ => ⟨DsaGen.exQ_bytes, DsaGen.exBase 20⟩, fun _ => ⟨DsaGen.exP_bytes, DsaGen.exBase 64⟩, fun _ => List.replicate 63 0x80 ++ [1], List.replicate 44 0x80 ++ [1]⟩

/-- A prime is accepted, when no base is 0. -/
theorem verdict_prime {n : Nat} {b : Nat → Nat} (hn : n.Prime) (hl : 1010 ≤ n) (h0 : ∀ i < 5, ¬ n ∣ b i) : Verdict n b :=
  Or.inr ⟨fun q q1 _ q3 q4 => by
    rcases (Nat.dvd_prime hn).1 q4 with h | h
    · exact q1.one_lt.ne' h
    · omega, fun i hi => strongTest_prime hn (h0 i hi)⟩

theorem not_dvd_range {n : Nat} {bs : List Byte} (hn : 0 < n) (h : rangeVal n bs ≠ 0) : ¬ n ∣ rangeVal n bs :=
  fun hd => h (Nat.eq_zero_of_dvd_of_lt hd (Nat.mod_lt _ hn))

theorem FirstIn.unique {m bits : Nat} {draw : Nat → PrimeDraw} {x y : Nat} (h1 : FirstIn m bits draw x) (h2 : FirstIn m bits draw y) : x = y := by
  obtain ⟨k, -, a2, a3, rfl⟩ := h1
  obtain ⟨l, -, b2, b3, rfl⟩ := h2
  rcases lt_trichotomy k l with h | rfl | h
  · exact absurd a2 (b3 k h)
  · rfl
  · exact absurd b2 (a3 l h)

theorem exDsaGen_q : FirstIn 5000 160 exDsaDraw.q DsaGen.exQ := by
  have hv := DsaGen.exRun.qV
  refine ⟨0, by decide, ?_, by simp, hv⟩
  show Verdict (Spec.primeCandidate 160 (beVal (DsaGen.exDraw.q 0).bytes)) _
  rw [← hv]
  exact verdict_prime DsaGen.exQ_prime (by decide +kernel) fun i hi => not_dvd_range DsaGen.exQ_prime.pos (DsaGen.exRun.qB i hi).2

theorem exDsaGen_pv : dsaP 512 DsaGen.exQ DsaGen.exP_bytes = DsaGen.exP := by decide +kernel

theorem exDsaGen_try (k : Nat) : PTry 512 DsaGen.exQ exDsaDraw.p k := by
  show Verdict (dsaP 512 DsaGen.exQ DsaGen.exP_bytes) fun j => rangeVal (dsaP 512 DsaGen.exQ DsaGen.exP_bytes) (DsaGen.exBase 64 j)
  rw [exDsaGen_pv]
  exact verdict_prime DsaGen.exP_prime (by decide +kernel) fun i hi => not_dvd_range DsaGen.exP_prime.pos (DsaGen.exRun.pB i hi).2

theorem exDsaGen_ok : DsaDrawOk 64 512 exDsaDraw := by
  have q1 := DsaGen.exRun.qF
  have q2 := DsaGen.exRun.qB
  have p1 := DsaGen.exRun.pF
  have p2 := DsaGen.exRun.pB
  refine ⟨fun _ => ⟨q1.1, q1.2, fun j hj => ?_⟩, fun _ => p1, fun Q hQ j i hi => ?_, fun Q P hQ hP j => ?_, fun Q P G h => ?_⟩
  · have := (q2 j hj).1
    rw [DsaGen.exQ_size] at this
    exact this
  · rw [hQ.unique exDsaGen_q]
    show Fit 64 (dsaP 512 DsaGen.exQ DsaGen.exP_bytes) (DsaGen.exBase 64 i)
    rw [exDsaGen_pv]
    exact (p2 i hi).1
  · obtain ⟨k, -, rfl⟩ := hP
    rw [hQ.unique exDsaGen_q]
    show Fit 64 (dsaP 512 DsaGen.exQ DsaGen.exP_bytes - 1) _
    rw [exDsaGen_pv]
    exact DsaGen.exRun.gF
  · obtain ⟨k, -, rfl⟩ := h.p
    rw [h.q.unique exDsaGen_q]
    show Fit 64 ((dsaP 512 DsaGen.exQ DsaGen.exP_bytes - 1) / DsaGen.exQ) _
    rw [exDsaGen_pv]
    exact DsaGen.exRun.xF

theorem exDsaGen_found {Q P G : Nat} (h : DsaFound 512 exDsaDraw Q P G) : Q = DsaGen.exQ ∧ P = DsaGen.exP := by
  have hq := h.q.unique exDsaGen_q
  obtain ⟨k, -, hP⟩ := h.p
  rw [hq] at hP
  exact ⟨hq, hP.trans exDsaGen_pv⟩

theorem dsaG_gt {P Q h : Nat} {bs : List Byte} (e : h = rangeVal (P - 1) bs + 1) (hg : 1 < h ^ ((P - 1) / Q) % P) : 1 < dsaG P Q bs := by
  subst e; exact hg

theorem range_drawn (n : Nat) (bs : List Byte) : DsaGen.drawn n (beVal bs) = rangeVal n bs := rfl

theorem exDsaGen_g : 1 < dsaG DsaGen.exP DsaGen.exQ (exDsaDraw.g 0) := by
  have h : exDsaDraw.g 0 = (DsaGen.exDraw.g 0).bytes := rfl
  rw [h]
  generalize hb : (DsaGen.exDraw.g 0).bytes = bs
  have hg := DsaGen.exRun.g1
  rw [hb, range_drawn] at hg
  exact dsaG_gt rfl hg

theorem exDsaGen_run : ∃ s', dsaKeygen 64 7 513 1 0 2 3 4 0 (fun _ => exDsaDraw) exDsaKey = .ok (0, s') ∧ (s'.obj 1).Is 64 DsaGen.exP ∧ (s'.obj 0).Is 64 DsaGen.exQ ∧
    (s'.obj 3).Is 64 (rangeVal ((DsaGen.exP - 1) / DsaGen.exQ) exDsaDraw.x) := by
  obtain ⟨st, s', e1, -, -, -, -, c⟩ := mem_dsa_keygen_partial (w := 64) (s := exDsaKey) (sp := 7) (fuel := 513) (q := 0) (p := 1) (g := 2) (pvt := 3) (pub := 4) (l := 0) (zq := 1) (zp := 1) (zg := 1) (zx := 1) (zy := 1)
    (by simp [DigitWidth]) (fun _ => rfl) exDsaKey_ctx (by decide) (by decide) (draw := fun _ => exDsaDraw) (fun _ => exDsaGen_ok)
  have noRetry : ¬ DsaRetry 512 exDsaDraw := by
    rintro ⟨Q, hQ, h | ⟨P, ⟨k, -, hP⟩, h⟩⟩
    · rw [hQ.unique exDsaGen_q] at h
      exact h 0 (by decide) (exDsaGen_try 0)
    · rw [hQ.unique exDsaGen_q] at hP h
      rw [hP.trans exDsaGen_pv] at h
      exact h 0 (by decide) exDsaGen_g
  rcases c with ⟨rfl, k, Q, P, G, -, -, k3, o1, o2, o3, o4, o5⟩ | ⟨-, -, -, h | ⟨k, -, -, h⟩⟩
  · obtain ⟨rfl, rfl⟩ := exDsaGen_found k3
    exact ⟨s', e1, o2, o1, o4⟩
  · exact absurd (h 0 (by decide)) noRetry
  · obtain ⟨j, j1, j2, -⟩ := exDsaGen_q
    exact absurd j2 (h j j1)

/-- C101, where it fails: a call that ends well with two primes and a private key larger than `q`. -/
theorem mem_dsa_keygen_private : ∃ (s s' : St) (draw : Nat → DsaDraw) (Q P x : Nat), DsaCtx 64 7 s 0 1 2 3 4 1 1 1 1 1 ∧ Plenty s ∧ dsaKeygen 64 7 513 1 0 2 3 4 0 draw s = .ok (0, s') ∧
    (s'.obj 0).Is 64 Q ∧ (s'.obj 1).Is 64 P ∧ (s'.obj 3).Is 64 x ∧ Q.Prime ∧ P.Prime ∧ Q < x := by
  obtain ⟨s', e, o1, o2, o3⟩ := exDsaGen_run
  refine ⟨exDsaKey, s', fun _ => exDsaDraw, DsaGen.exQ, DsaGen.exP, _, exDsaKey_ctx, fun _ => rfl, e, o2, o1, o3, DsaGen.exQ_prime, DsaGen.exP_prime, ?_⟩
  unfold rangeVal
  rw [DsaGen.exK_size]
  decide +kernel

/-- The key made signs the message 0x61. -/
example : ∃ s' s'', dsaKeygen 64 7 513 1 0 2 3 4 0 (fun _ => exDsaDraw) exDsaKey = .ok (0, s') ∧
    dsaSign 64 7 1 0 2 3 5 6 [0x61] (DsaGen.exBase 20 0) s' = .ok (0, s'') ∧ EndsSame 7 s'' (dsaVerify 64 7 1 0 2 4 5 6 [0x61]) 0 := by
  obtain ⟨s', e, -⟩ := exDsaGen_run
  obtain ⟨s'', h⟩ := mem_dsa_life (w := 64) (s := exDsaKey) (sp := 7) (fuel := 513) (q := 0) (p := 1) (g := 2) (pvt := 3) (pub := 4) (l := 0) (zq := 1) (zp := 1) (zg := 1) (zx := 1) (zy := 1) (r := 5) (t := 6) (R := 1) (T := 1)
    (by simp [DigitWidth]) (fun _ => rfl) exDsaKey_ctx (by decide) (by decide) (draw := fun _ => exDsaDraw) (fun _ => exDsaGen_ok) e
    (fun k Q P G h => by obtain ⟨rfl, rfl⟩ := exDsaGen_found h; exact ⟨DsaGen.exQ_prime, DsaGen.exP_prime⟩)
    (by decide) (by decide) (by decide) (by decide) (by decide) (exDsaKey_at (by decide)) (exDsaKey_at (by decide)) [0x61] (DsaGen.exBase 20 0) (by decide +kernel) (by decide +kernel)
  exact ⟨s', s'', e, h⟩

/-- C101, where it fails: when one of the first four requests fails, the call reads the members of a local variable that was never initialised, whatever the arguments. -/
theorem mem_dsa_keygen_ub (w sp fuel p q g pvt pub l : Nat) (draw : Nat → DsaDraw) (s : St) (hf : ∃ k, k < 4 ∧ s.fails (s.tick + k) = true) :
    dsaKeygen w sp fuel p q g pvt pub l draw s = .ub := by
  have e0 : decl sp 4 s = .ok ((), { s with obj := fun p => if sp ≤ p ∧ p < sp + 4 then Obj.fresh else s.obj p }) := rfl
  unfold dsaKeygen
  rw [bind_ok e0]
  obtain ⟨k, hk, hf⟩ := hf
  rcases initListLoop_last (v := sp + 3) [sp, sp + 1, sp + 2] [] { s with obj := fun p => if sp ≤ p ∧ p < sp + 4 then Obj.fresh else s.obj p } (by simp) (by simp)
    (by show (if sp ≤ sp + 3 ∧ sp + 3 < sp + 4 then Obj.fresh else s.obj (sp + 3)).hdr = none; rw [if_pos (by omega)]; rfl) ⟨k, by show k ≤ 3; omega, hf⟩ with e | ⟨st, s1, e, h1⟩
  · have e : initList [sp, sp + 1, sp + 2, sp + 3] _ = .ub := e
    rw [bind_apply, e]
  · have e : initList [sp, sp + 1, sp + 2, sp + 3] _ = .ok (st, s1) := e
    rw [bind_ok e]
    have e2 : setInt w (sp + 3) 1 s1 = .ub := by
      have h : hdr (sp + 3) s1 = .ub := by unfold hdr; rw [bind_ok (show getObj (sp + 3) s1 = .ok (s1.obj (sp + 3), s1) from rfl), h1]; rfl
      unfold setInt chk grow
      simp only [bind_apply, h]
    rw [bind_apply, e2]

/-- The third request fails, for the context of the run above. -/
example : dsaKeygen 64 7 513 1 0 2 3 4 0 (fun _ => exDsaDraw) { exDsaKey with fails := (· == exDsaKey.tick + 2) } = .ub :=
  mem_dsa_keygen_ub _ _ _ _ _ _ _ _ _ _ _ ⟨2, by decide, by simp⟩

end Verif.Mem
