import Verif.Props.Mem.Contexts
import Verif.Props.Mem.NumTheory
/-!
# C89, C90: key generation, ECDH and Diffie-Hellman in memory
-/
namespace Verif.Mem
open Verif.Mpi
open WeierstrassCurve WeierstrassCurve.Affine
open Verif.Ecp (curve ptX namedGroups Params)

section
variable {w p : Nat} {a b : ZMod p} [Fact p.Prime] {s : St} {sp g d q z r t n : Nat} {G P : (curve p a b).Point}

/-- Coordinates in standard form are determined by the point. -/
theorem redPt_unique {x y z x' y' z' : Int} (h : OnPt x y z P) (h' : OnPt x' y' z' P) (hr : RedPt p x y z) (hr' : RedPt p x' y' z') :
    x = x' ∧ y = y' ∧ z = z' := by
  have key : ∀ {u v : Int}, 0 ≤ u → u < p → 0 ≤ v → v < p → (u : ZMod p) = (v : ZMod p) → u = v := by
    intro u v h1 h2 h3 h4 e
    have := (ZMod.intCast_eq_intCast_iff u v p).1 e
    unfold Int.ModEq at this
    rwa [Int.emod_eq_of_lt h1 h2, Int.emod_eq_of_lt h3 h4] at this
  cases P with
  | zero =>
    have h : z = 0 := h
    have h' : z' = 0 := h'
    rcases hr with ⟨a1, a2, a3⟩ | ⟨-, -, -, -, a⟩
    · rcases hr' with ⟨b1, b2, b3⟩ | ⟨-, -, -, -, b⟩
      · omega
      · omega
    · omega
  | some X Y hP =>
    obtain ⟨h0, h1, h2⟩ := h
    obtain ⟨k0, k1, k2⟩ := h'
    rcases hr with ⟨-, -, a3⟩ | ⟨a1, a2, a3, a4, a5⟩
    · exact absurd a3 h0
    rcases hr' with ⟨-, -, b3⟩ | ⟨b1, b2, b3, b4, b5⟩
    · exact absurd b3 k0
    exact ⟨key a1 a2 b1 b2 (h1.trans k1.symm), key a3 a4 b3 b4 (h2.trans k2.symm), a5.trans b5.symm⟩

/-- C89, partial.  Full statement: `cry_ecdsa_keygen` leaves a key pair in the context, or reports that it cannot.  Proved: when no
allocation fails, for bytes of the generator that reach the top digit: the public key is the private key times the base point,
nothing else is touched and no block is lost.  Missing, because false: failing allocations (`mem_ecdsa_keygen_lost`); the private key
may be 0 (`mem_ecdsa_keygen_zero`). -/
theorem mem_ecdsa_keygen_partial (hw : DigitWidth w) (hs : Plenty s) (ha : CtxApart sp d q g) (hG : DomainAt w p a b s g G n)
    {z : Int} (hd : (s.obj d).Is w z) (hz : 0 ≤ z) (hq : ReadyAt w s q) (bs : List Byte) (hl : bs.length = (n.size + 7) / 8)
    (hV : (2 ^ w) ^ ((n.size - 1) / w) ≤ beVal bs) :
    ∃ s' k, ecdsaKeygen w sp d q g bs s = .ok (0, s') ∧ k = (beVal bs % 2 ^ (n.size - 1) + 2 ^ (n.size - 1)) % n ∧
      (s'.obj d).Is w k ∧ PointAt w s' q (k • G) ∧ StdAt p w s' q ∧ ReadyAt w s' q ∧
      (∀ v, v < sp → v ≠ d → (v < q ∨ q + 2 < v) → s'.obj v = s.obj v) ∧ Balanced sp s s' ∧ s'.fails = s.fails := by
  obtain ⟨a1, a2, a3, a4, a5, a6⟩ := ha
  obtain ⟨za, hD⟩ := hG.dom
  have hn : 0 < n := hG.prime.pos
  obtain ⟨s1, e1, h1⟩ := calm_leaf (K := ctxOf sp s) hs (at_now sp s) a1
    (randRange_leaf hw (V.of_is hd) hz hG.ord hn a1 (by omega) (by omega) bs hl hV)
  obtain ⟨x, y, z0, hb, hon, hrd⟩ := hD.base
  have n1 : ∀ v, v ≠ d → Function.update (Now s) d (V w (rangeVal n bs : Nat) 0) v = Now s v := fun v hv => Function.update_of_ne hv _ _
  have hp3 : Pt3 w (Function.update (Now s) d (V w (rangeVal n bs : Nat) 0)) q := by
    have := hq.pt3
    exact ⟨fun o ho => this.x o (by rwa [n1 q (by omega)] at ho), fun o ho => this.y o (by rwa [n1 (q + 1) (by omega)] at ho),
      fun o ho => this.z o (by rwa [n1 (q + 2) (by omega)] at ho)⟩
  have hk := h1.objs d a1
  rw [Function.update_self] at hk
  obtain ⟨m, m1, m2, -⟩ := hk
  have hm := NatRep.of_wf m1 m2
  have hkk : ∀ o, Function.update (Now s) d (V w (rangeVal n bs : Nat) 0) d o → ∃ k, o.Reads ⟨k, m.digs⟩ := by
    intro o ho
    rw [Function.update_self] at ho
    obtain ⟨m', p1, p2, p3⟩ := ho.shows
    rw [(NatRep.of_wf p1 p2).unique hm] at p3
    exact ⟨_, p3⟩
  rcases ecpMul_calm (F := False) (P := G) (pr := q) hw (K := ctxOf sp s) hs (Or.inr fun k => Verif.Ecp.nsmul_two_torsion hD.hodd k) hm.norm.digits hkk a1 (by omega)
      (hD.grp.congr (n1 g (by omega)) (n1 (g + 1) (by omega)))
      (show g + 3 + 2 < sp by omega) a2 (by omega) hp3 (hb.congr fun v k1 k2 => n1 v (by omega)) hon h1 with ⟨f, -⟩ | ⟨s2, x', y', z', e2, h2, o1, o2⟩
  · exact f.elim
  rw [hm.value] at o1
  obtain ⟨c1, c2⟩ := coords_of a2 h2
  refine ⟨s2, _, ?_, rfl, ?_, ⟨x', y', z', c1, o1⟩, ⟨x', y', z', c1, o2 hrd⟩, c2, fun v hv v1 v2 => ?_, balanced_of h2, h2.orc⟩
  · unfold ecdsaKeygen; rw [chk_ok e1]; exact e2
  · have := h2.objs d a1
    rw [But3.ne (by omega), Function.update_self] at this
    exact this.is
  · have := h2.objs v hv
    rwa [But3.ne (by omega), n1 v v1] at this

/-- C89, where it fails: when the window cannot be allocated, success is reported with a new private key and the old public key. -/
theorem mem_ecdsa_keygen_lost (hw : DigitWidth w) (hg : g + 5 < sp) (bs : List Byte) {s1 : St} (e : randRange w sp d (g + 6) bs s = .ok (0, s1))
    (hP : PointAt w s1 (g + 3) P) (h0 : P ≠ 0) (hf : ∀ k, k < 3 → s1.fails (s1.tick + k) = false) (hf3 : s1.fails (s1.tick + 3) = true) :
    ∃ s', ecdsaKeygen w sp d q g bs s = .ok (0, s') ∧ ∀ v, v < sp → s'.obj v = s1.obj v := by
  obtain ⟨s', e', f, -⟩ := mem_ecp_mul_no_window (pr := q) (kk := d) (g := g) hw (show g + 3 + 2 < sp by omega) hP h0 hf hf3
  exact ⟨s', by unfold ecdsaKeygen; rw [chk_ok e]; exact e', f⟩

/-- C89, where it fails: when the window cannot be allocated, `cry_ecdh_agree` and `cry_ecdh_final` report success and do nothing. -/
theorem mem_ecdh_lost (hw : DigitWidth w) (hf : ∀ k, k < 3 → s.fails (s.tick + k) = false) (hf3 : s.fails (s.tick + 3) = true) :
    (g + 5 < sp → PointAt w s (g + 3) P → P ≠ 0 → EndsSame sp s (ecdhAgree w sp g d q) 0) ∧
    (q + 2 < sp → PointAt w s q P → P ≠ 0 → EndsSame sp s (ecdhFinal w sp g d q z) 0) :=
  ⟨fun h1 h2 h3 => mem_ecp_mul_no_window hw (show g + 3 + 2 < sp by omega) h2 h3 hf hf3, fun h1 h2 h3 => mem_ecp_mul_no_window hw h1 h2 h3 hf hf3⟩

/-- C89, partial for the same reason: `cry_ecdh_agree` makes the public key, when no allocation fails. -/
theorem mem_ecdh_agree_partial {D : Nat} (hw : DigitWidth w) (hs : Plenty s) (ha : CtxApart sp d q g) (hG : DomainAt w p a b s g G n)
    (hd : (s.obj d).Shows w D) (hq : ReadyAt w s q) :
    PtEnds sp s q (ecdhAgree w sp g d q) 0 fun s' => PointAt w s' q (D • G) ∧ StdAt p w s' q ∧ ReadyAt w s' q := by
  obtain ⟨a1, a2, a3, a4, a5, a6⟩ := ha
  have ho : Odd (addOrderOf G) := by rw [hG.order]; exact hG.prime.odd_of_ne_two hG.odd
  obtain ⟨s', e, f, l, h1, h2, h3⟩ := mem_ecp_mul_partial (k := D) hw hs (show g + 3 + 2 < sp by omega) a2 (by omega) a1 (by unfold SameOrApart; omega) hq hG.grp hG.base hd ho
  rw [Int.natAbs_natCast] at h1
  exact ⟨s', e, f, l, h1, h3 hG.red, h2⟩

/-- C89, partial for the same reason: `cry_ecdh_final` makes the shared secret from the other public key, when no allocation fails. -/
theorem mem_ecdh_final_partial {D : Nat} (hw : DigitWidth w) (hs : Plenty s) (ha : EcdhApart sp g d q z) (hG : GroupAt w p a b s g)
    (hd : (s.obj d).Shows w D) (hq : PointAt w s q P) (hqs : StdAt p w s q) (ho : Odd (addOrderOf P)) (hz : ReadyAt w s z) :
    PtEnds sp s z (ecdhFinal w sp g d q z) 0 fun s' => PointAt w s' z (D • P) ∧ StdAt p w s' z ∧ ReadyAt w s' z := by
  obtain ⟨⟨a1, a2, a3, a4, a5, a6⟩, ⟨-, b2, -, b4, -, b6⟩, hqz⟩ := ha
  obtain ⟨s', e, f, l, h1, h2, h3⟩ := mem_ecp_mul_partial (k := D) hw hs a2 b2 (by omega) a1 (by unfold SameOrApart; omega) hz hG hq hd ho
  rw [Int.natAbs_natCast] at h1
  exact ⟨s', e, f, l, h1, h3 hqs, h2⟩

/-- C89: two parties, each with its own memory, who hold the same domain parameters and each other's public key, end with the
same coordinates of the shared secret. -/
theorem mem_ecdh_shared {sA sB : St} {spA gA dA qA zA spB gB dB qB zB A B : Nat} (hw : DigitWidth w) (hsA : Plenty sA) (hsB : Plenty sB)
    (aA : EcdhApart spA gA dA qA zA) (aB : EcdhApart spB gB dB qB zB) (hGA : DomainAt w p a b sA gA G n) (hGB : DomainAt w p a b sB gB G n)
    (hdA : (sA.obj dA).Shows w A) (hdB : (sB.obj dB).Shows w B) (hqA : PointAt w sA qA (B • G)) (hqB : PointAt w sB qB (A • G))
    (rA : StdAt p w sA qA) (rB : StdAt p w sB qB) (zA' : ReadyAt w sA zA) (zB' : ReadyAt w sB zB) :
    ∃ sA' sB' x y z, ecdhFinal w spA gA dA qA zA sA = .ok (0, sA') ∧ ecdhFinal w spB gB dB qB zB sB = .ok (0, sB') ∧
      Coords w sA' zA x y z ∧ Coords w sB' zB x y z ∧ OnPt x y z ((A * B) • G) := by
  have ho : ∀ k : Nat, Odd (addOrderOf (k • G)) := fun k => by
    have : Odd (addOrderOf G) := by rw [hGA.order]; exact hGA.prime.odd_of_ne_two hGA.odd
    exact this.of_dvd_nat (addOrderOf_smul_dvd k)
  obtain ⟨s1, e1, -, -, ⟨x, y, z, c, o⟩, ⟨x0, y0, z0, c0, o0⟩, -⟩ := mem_ecdh_final_partial hw hsA aA hGA.grp hdA hqA rA (ho B) zA'
  obtain ⟨s2, e2, -, -, ⟨x', y', z', c', o'⟩, ⟨x1, y1, z1, c1, o1⟩, -⟩ := mem_ecdh_final_partial hw hsB aB hGB.grp hdB hqB rB (ho A) zB'
  obtain ⟨rfl, rfl, rfl⟩ := same_coords c c0
  obtain ⟨rfl, rfl, rfl⟩ := same_coords c' c1
  rw [← mul_nsmul'] at o
  rw [← mul_nsmul', Nat.mul_comm] at o'
  obtain ⟨rfl, rfl, rfl⟩ := redPt_unique o o' o0 o1
  exact ⟨s1, s2, x, y, z, e1, e2, c, c', o⟩

theorem DomainAt.same {s' : St} (h : DomainAt w p a b s g G n) (hs : ∀ i, i ≤ 6 → s'.obj (g + i) = s.obj (g + i)) : DomainAt w p a b s' g G n := by
  obtain ⟨⟨g1, g2⟩, ⟨x, y, z, ⟨c1, c2, c3⟩, o⟩, ⟨x', y', z', ⟨d1, d2, d3⟩, o'⟩, g5, g6, g7, g8⟩ := h
  refine ⟨⟨by rw [show s'.obj g = _ from hs 0 (by omega)]; exact g1, by rw [hs 1 (by omega)]; exact g2⟩,
    ⟨x, y, z, ⟨by rw [hs 3 (by omega)]; exact c1, by rw [show s'.obj (g + 3 + 1) = _ from hs 4 (by omega)]; exact c2,
      by rw [show s'.obj (g + 3 + 2) = _ from hs 5 (by omega)]; exact c3⟩, o⟩,
    ⟨x', y', z', ⟨by rw [hs 3 (by omega)]; exact d1, by rw [show s'.obj (g + 3 + 1) = _ from hs 4 (by omega)]; exact d2,
      by rw [show s'.obj (g + 3 + 2) = _ from hs 5 (by omega)]; exact d3⟩, o'⟩, by rw [hs 6 (by omega)]; exact g5, g6, g7, g8⟩

/-- C89, where it fails: when the generator delivers the order itself, success is reported with the private key 0 and infinity as public key. -/
theorem mem_ecdsa_keygen_zero (hw : DigitWidth w) (hs : Plenty s) (ha : CtxApart sp d q g) (hG : DomainAt w p a b s g G n)
    {z : Int} (hd : (s.obj d).Is w z) (hz : 0 ≤ z) (hq : ReadyAt w s q) (bs : List Byte) (hl : bs.length = (n.size + 7) / 8) (hb : beVal bs = n) :
    ∃ s', ecdsaKeygen w sp d q g bs s = .ok (0, s') ∧ (s'.obj d).Is w 0 ∧ PointAt w s' q (0 : (curve p a b).Point) := by
  have hn : 0 < n := hG.prime.pos
  have hsz : 0 < n.size := Nat.size_pos.2 hn
  have l1 : 2 ^ (n.size - 1) ≤ n := Nat.lt_size.1 (by omega)
  have l2 : n < 2 ^ (n.size - 1) * 2 := by rw [← pow_succ, show n.size - 1 + 1 = n.size by omega]; exact Nat.lt_size_self n
  have hk : (beVal bs % 2 ^ (n.size - 1) + 2 ^ (n.size - 1)) % n = 0 := by
    have : n % 2 ^ (n.size - 1) = n - 2 ^ (n.size - 1) := by rw [Nat.mod_eq_sub_mod l1, Nat.mod_eq_of_lt (by omega)]
    rw [hb, this, Nat.sub_add_cancel l1, Nat.mod_self]
  obtain ⟨s', k, e, h0, h1, h2, -⟩ := mem_ecdsa_keygen_partial hw hs ha hG hd hz hq bs hl (by
    rw [hb, ← pow_mul]
    exact (Nat.pow_le_pow_right (by omega) (Nat.mul_div_le _ _)).trans l1)
  rw [hk] at h0
  rw [h0, zero_nsmul] at h2
  rw [h0] at h1
  exact ⟨s', e, by simpa using h1, h2⟩

/-- C89: a key pair made by `cry_ecdsa_keygen` signs messages that verify: the whole life of a context with a built-in group, for all
messages and all bytes that the generator may deliver, as long as no allocation fails. -/
theorem mem_ecdsa_life {R T : Int} (hw : w = 32 ∨ w = 64) (hs : Plenty s) (ha : CtxApart sp d q g) (h0 : CtxEmpty s d q g) {id : Int} (hid : 0 ≤ id ∧ id < 11)
    (hr : r < sp) (ht : t < sp) (ro : Outside d q g r) (to' : Outside d q g t) (rt : r ≠ t) (ar : (s.obj r).Is w R) (at' : (s.obj t).Is w T) :
    ∃ s1 c, ecdsaInit w d q g id s = .ok (0, s1) ∧ namedGroups[id.toNat]? = some c ∧
      ∃ (_ : Fact c.p.Prime) (hn : c.curve.Nonsingular c.gx c.gy), ∀ bs bs' msg : List Byte,
        bs.length = (c.n.size + 7) / 8 → (2 ^ w) ^ ((c.n.size - 1) / w) ≤ beVal bs →
        bs'.length = (c.n.size + 7) / 8 → (2 ^ w) ^ ((c.n.size - 1) / w) ≤ beVal bs' →
        (beVal bs' % 2 ^ (c.n.size - 1) + 2 ^ (c.n.size - 1)) % c.n ≠ 0 →
        ∃ s2 s3 T', ecdsaKeygen w sp d q g bs s1 = .ok (0, s2) ∧ ecdsaSign w sp g d r t msg bs' s2 = .ok (0, s3) ∧ (s3.obj t).Is w T' ∧
          EndsSame sp s3 (ecdsaVerify w sp g q r t msg)
            (if T' ≠ 0 ∧ ptX (((beVal bs' % 2 ^ (c.n.size - 1) + 2 ^ (c.n.size - 1)) % c.n) • Point.some (c.gx : ZMod c.p) c.gy hn) < c.n then 0 else -1) := by
  have hw' : DigitWidth w := by rcases hw with rfl | rfl <;> simp [DigitWidth]
  obtain ⟨st, s1, e1, f1, -, o1, ⟨rfl, hd, ⟨-, hq⟩, c, hc, hp, hn, hD⟩ | ⟨-, ⟨k, -, -, hk⟩, -⟩⟩ := mem_ecdsa_init_load hw ha h0 hid
  swap
  · rw [hs k] at hk; cases hk
  refine ⟨s1, c, e1, hc, hp, hn, fun bs bs' msg l1 v1 l2 v2 hk => ?_⟩
  have hs1 : Plenty s1 := fun k => by rw [o1]; exact hs k
  obtain ⟨s2, D, e2, -, kd, kq, ks, -, f2, -, o2⟩ := mem_ecdsa_keygen_partial hw' hs1 ha hD hd (le_refl _) hq bs l1 v1
  have hs2 : Plenty s2 := fun k => by rw [o2]; exact hs1 k
  have hx : ∀ v, v < sp → Outside d q g v → s2.obj v = s.obj v := fun v hv ho => by rw [f2 v hv ho.1 ho.2.1, f1 v hv ho]
  obtain ⟨a1, a2, a3, a4, a5, a6⟩ := ha
  obtain ⟨s3, T', e3, e4, e5⟩ := mem_ecdsa_sign_verify hw' hs2 a3 a1 a2 hr ht (hD.same fun i hi => f2 (g + i) (by omega) (by omega) (by omega)) ro.2.2 to'.2.2 ro.2.1 to'.2.1
    ro.1 rt kd.shows kq ks (by rw [hx r hr ro]; exact ar) (by rw [hx t ht to']; exact at') msg bs' l2 v2 hk
  exact ⟨s2, s3, T', e2, e3, e4, e5⟩

end

/-! ### Diffie-Hellman -/

section
variable {w sp p g e Y Z : Nat} {s : St}

/-- C90, for `cry_mpi_init_list` in general: all numbers become 0, or none is left and failure is reported. -/
theorem mem_initList (hw : 0 < w) {as : List Nat} (hn : as.Nodup) (hs : ∀ a ∈ as, a < sp) (h0 : ∀ a ∈ as, (s.obj a).owns = 0) :
    ∃ st s', initList as s = .ok (st, s') ∧ (∀ v, v < sp → v ∉ as → s'.obj v = s.obj v) ∧ Balanced sp s s' ∧
      ((st = 0 ∧ ∀ a ∈ as, (s'.obj a).Is w 0) ∨ (st = -1 ∧ Failed s s' ∧ ∀ a ∈ as, (s'.obj a).owns = 0)) := by
  obtain ⟨st, s', e, h⟩ := initListLoop_at (K := ctxOf sp s) (E := Now s) (S := sp) hw as [] s
    ((at_now sp s).le fun v _ o ho => by unfold Sets; rw [if_neg (by simp)]; exact ho) (by simpa using hs) (by simpa using hn)
    (fun a ha o ho => by rw [show o = s.obj a from ho]; exact h0 a ha)
  rw [List.nil_append] at h
  have fr : ∀ {P : Obj → Prop}, At (ctxOf sp s) (Sets (Now s) as P) sp s' → (∀ v, v < sp → v ∉ as → s'.obj v = s.obj v) ∧ ∀ a ∈ as, P (s'.obj a) := by
    intro P h
    refine ⟨fun v hv hm => ?_, fun a ha => ?_⟩
    · have := h.objs v hv; unfold Sets at this; rwa [if_neg hm] at this
    · have := h.objs a (hs a ha); unfold Sets at this; rwa [if_pos ha] at this
  rcases h with ⟨rfl, h⟩ | ⟨rfl, hf, h⟩
  · exact ⟨0, s', e, (fr h).1, balanced_of h, Or.inl ⟨rfl, fun a ha => ((fr h).2 a ha).is⟩⟩
  · exact ⟨-1, s', e, (fr h).1, balanced_of h, Or.inr ⟨rfl, hf, (fr h).2⟩⟩

/-- C90: `cry_dh_init`. -/
theorem mem_dh_init (hw : 0 < w) (hn : [p, g, e, Y, Z].Nodup) (hs : ∀ a ∈ [p, g, e, Y, Z], a < sp) (h0 : ∀ a ∈ [p, g, e, Y, Z], (s.obj a).owns = 0) :
    ∃ st s', dhInit p g e Y Z s = .ok (st, s') ∧ (∀ v, v < sp → v ∉ [p, g, e, Y, Z] → s'.obj v = s.obj v) ∧ Balanced sp s s' ∧
      ((st = 0 ∧ ∀ a ∈ [p, g, e, Y, Z], (s'.obj a).Is w 0) ∨ (st = -1 ∧ Failed s s' ∧ ∀ a ∈ [p, g, e, Y, Z], (s'.obj a).owns = 0)) :=
  mem_initList hw hn hs h0

theorem wipe_run : ∀ (as : List Nat) (s : St), (∀ a ∈ as, (s.obj a).owns = 0) → ∃ s', wipe as s = .ok ((), s') ∧ (∀ v, v ∉ as → s'.obj v = s.obj v) ∧
    s'.live = s.live ∧ ∀ a ∈ as, s'.obj a = ⟨some ⟨false, 0, 0⟩, .null⟩
  | [], s, _ => ⟨s, rfl, fun _ _ => rfl, rfl, fun a ha => absurd ha (by simp)⟩
  | a :: as, s, h => by
    obtain ⟨s', e, f, l, c⟩ := wipe_run as (s.set a ⟨some ⟨false, 0, 0⟩, .null⟩) (fun b hb => by
      by_cases hab : b = a
      · subst hab; rw [show (s.set b ⟨some ⟨false, 0, 0⟩, .null⟩).obj b = ⟨some ⟨false, 0, 0⟩, .null⟩ from if_pos rfl]; rfl
      · rw [show (s.set a ⟨some ⟨false, 0, 0⟩, .null⟩).obj b = s.obj b from if_neg hab]; exact h b (by simp [hb]))
    refine ⟨s', e, fun v hv => ?_, l, fun v hv => ?_⟩
    · rw [List.mem_cons, not_or] at hv
      rw [f v hv.2]; exact if_neg hv.1
    · by_cases hm : v ∈ as
      · exact c v hm
      · rw [f v hm]
        rcases List.mem_cons.1 hv with rfl | hv
        · exact if_pos rfl
        · exact absurd hv hm

/-- C90: `cry_dh_clear` gives everything back that the context owns, and leaves zeros. -/
theorem mem_dh_clear (hn : [p, g, e, Y, Z].Nodup) (hs : ∀ a ∈ [p, g, e, Y, Z], a < sp) (h0 : ∀ a ∈ [p, g, e, Y, Z], ∃ z, (s.obj a).Is w z) :
    ∃ s', dhClear p g e Y Z s = .ok ((), s') ∧ (∀ v, v < sp → v ∉ [p, g, e, Y, Z] → s'.obj v = s.obj v) ∧ Balanced sp s s' ∧
      ∀ a ∈ [p, g, e, Y, Z], s'.obj a = ⟨some ⟨false, 0, 0⟩, .null⟩ := by
  obtain ⟨s1, e1, h1, f1⟩ := clearList_able (w := w) [p, g, e, Y, Z] (Now s) s (at_now sp s) (fun a ha => ⟨hs a ha, Or.inl (h0 a ha)⟩) hn
  have hc : ∀ a ∈ [p, g, e, Y, Z], s1.obj a = Obj.cleared := fun a ha => by
    have := h1.objs a (hs a ha); unfold Sets at this; rwa [if_pos ha] at this
  obtain ⟨s2, e2, f2, l2, c2⟩ := wipe_run [p, g, e, Y, Z] s1 (fun a ha => by rw [hc a ha]; rfl)
  refine ⟨s2, (bind_ok e1).trans e2, fun v _ hm => by rw [f2 v hm, f1 v hm], ?_, c2⟩
  have hb := balanced_of h1
  unfold Balanced at hb ⊢
  rw [l2, ← hb]
  have : ∀ v, (s2.obj v).owns = (s1.obj v).owns := fun v => by
    by_cases hm : v ∈ [p, g, e, Y, Z]
    · rw [c2 v hm, hc v hm]; rfl
    · rw [f2 v hm]
  simp only [this]

/-- C90, partial.  Full statement: `cry_dh_agree` makes the token `g ^ e` modulo `p`, or reports that an allocation failed.  Proved for
every pattern of failing requests in which the first request of the call succeeds; missing, because false: if that fails an
uninitialised number is used (`mem_modExp_first_failure`). -/
theorem mem_dh_agree_partial {zy G : Int} {P E : Nat} (hw : Mpi.DigitWidth w) (hy : (s.obj Y).Is w zy) (hg : (s.obj g).Shows w G) (he : (s.obj e).Shows w E)
    (hp : (s.obj p).Shows w P) (hP : 1 < P) (sY : Y < sp) (sg : g < sp) (se : e < sp) (sP : p < sp) (hf : s.fails s.tick = false) :
    Outcome sp s Y (dhAgree w sp p g e Y) (Obj.Is w (G ^ E % P)) (· = s.obj Y) :=
  ((modExp_v hw hf ⟨zy, V.of_is hy⟩ hg he hp (by omega) (by omega) sY sg se sP).mono (fun _ h => h.is) fun _ h => h).outcome

/-- C90, partial in the same way: `cry_dh_finalize`. -/
theorem mem_dh_finalize_partial {zz T : Int} {P E : Nat} (hw : Mpi.DigitWidth w) (hz : (s.obj Z).Is w zz) (hy : (s.obj Y).Shows w T) (he : (s.obj e).Shows w E)
    (hp : (s.obj p).Shows w P) (hP : 1 < P) (sY : Y < sp) (sZ : Z < sp) (se : e < sp) (sP : p < sp) (hf : s.fails s.tick = false) :
    Outcome sp s Z (dhFinalize w sp p e Y Z) (Obj.Is w (T ^ E % P)) (· = s.obj Z) :=
  ((modExp_v hw hf ⟨zz, V.of_is hz⟩ hy he hp (by omega) (by omega) sZ sY se sP).mono (fun _ h => h.is) fun _ h => h).outcome

/-- A context of Diffie-Hellman with modulus, base and exponent. -/
structure DhAt (w sp : Nat) (s : St) (p g e Y Z P : Nat) (G : Int) (E : Nat) : Prop where
  apart : [p, g, e, Y, Z].Nodup
  below : ∀ a ∈ [p, g, e, Y, Z], a < sp
  mod : (s.obj p).Shows w P
  base : (s.obj g).Shows w G
  exp : (s.obj e).Shows w E
  tok : ∃ z, (s.obj Y).Is w z
  sec : ∃ z, (s.obj Z).Is w z

/-- One side of the exchange. -/
theorem mem_dh_side {P E L : Nat} {G : Int} (hw : Mpi.DigitWidth w) (hs : Plenty s) (h : DhAt w sp s p g e Y Z P G E) (hP : 1 < P) (hL : P ≤ 256 ^ L)
    (b : Buf) (hb : b.length = L) :
    ∃ s1 t, dhAgree w sp p g e Y s = .ok (0, s1) ∧ dhGet w Y b L s1 = .ok ((0, t.map some), s1) ∧ t.length = L ∧ (beVal t : Int) = G ^ E % P ∧
      ∀ t' : List Byte, ∃ s2 s3 k, dhSetTok w Y t' s1 = .ok (0, s2) ∧ dhFinalize w sp p e Y Z s2 = .ok (0, s3) ∧
        dhGet w Z b L s3 = .ok ((0, k.map some), s3) ∧ k.length = L ∧ (beVal k : Int) = (beVal t' : Int) ^ E % P ∧
        (∀ v, v < sp → v ≠ Y → v ≠ Z → s3.obj v = s.obj v) := by
  obtain ⟨hn, hs', hp, hg, he, ⟨zy, hy⟩, ⟨zz, hz⟩⟩ := h
  have sp' := hs' p (by simp); have sg := hs' g (by simp); have se := hs' e (by simp); have sY := hs' Y (by simp); have sZ := hs' Z (by simp)
  simp only [List.nodup_cons, List.mem_cons, List.not_mem_nil, or_false, not_or, not_false_eq_true, List.nodup_nil, and_true] at hn
  obtain ⟨⟨n1, n2, n3, n4⟩, ⟨n5, n6, n7⟩, ⟨n8, n9⟩, n10⟩ := hn
  have get : ∀ {s : St} {v : Nat} {z : Int}, (s.obj v).Shows w z → 0 ≤ z → z < P → ∃ t : List Byte, dhGet w v b L s = .ok ((0, t.map some), s) ∧ t.length = L ∧ (beVal t : Int) = z := by
    intro s v z hv h0 h1
    obtain ⟨t, e, t1, t2⟩ := mem_storeBin (p := 0) (bufsiz := L) hw hv true (b := b) (by omega) (by simp [hb])
    rw [if_pos rfl] at t2
    refine ⟨t, ?_, t2, by omega⟩
    rw [List.take_zero, List.nil_append, List.drop_of_length_le (by omega), List.append_nil] at e
    exact e
  obtain ⟨s1, e1, h1⟩ := calm_leaf (K := ctxOf sp s) hs (at_now sp s) sY (modExp_v (b := g) (e := e) (m := p) hw (hs _) ⟨zy, V.of_is hy⟩ hg he hp (by omega) (by omega : (1 : Int) < P) sY sg se sp')
  rw [Int.toNat_natCast] at h1
  have v1 := h1.objs Y sY
  rw [Function.update_self] at v1
  have r0 : 0 ≤ G ^ E % (P : Int) := Int.emod_nonneg _ (by omega)
  obtain ⟨t, t1, t2, t3⟩ := get v1.shows r0 (Int.emod_lt_of_pos _ (by omega))
  refine ⟨s1, t, e1, t1, t2, t3, fun t' => ?_⟩
  obtain ⟨s2, e2, h2⟩ := calm_leaf (K := ctxOf sp s) hs h1 sY (loadBin_v hw v1 r0 t')
  rw [Function.update_idem] at h2
  have o2 : ∀ v, v < sp → v ≠ Y → s2.obj v = s.obj v := fun v hv hne => by
    have := h2.objs v hv; rwa [Function.update_of_ne hne] at this
  have v2 := h2.objs Y sY
  rw [Function.update_self] at v2
  obtain ⟨s3, e3, h3⟩ := calm_leaf (K := ctxOf sp s) hs h2 sZ (modExp_v (b := Y) (e := e) (m := p) hw (by rw [h2.orc]; exact hs _) ⟨zz, V.of_is (by rw [o2 Z sZ (Ne.symm n10)]; exact hz)⟩ v2.shows
    (by rw [o2 e se n8]; exact he) (by rw [o2 p sp' n3]; exact hp) (by omega) (by omega : (1 : Int) < P) sZ sY se sp')
  rw [Int.toNat_natCast] at h3
  have v3 := h3.objs Z sZ
  rw [Function.update_self] at v3
  obtain ⟨k, k1, k2, k3⟩ := get v3.shows (Int.emod_nonneg _ (by omega)) (Int.emod_lt_of_pos _ (by omega))
  refine ⟨s2, s3, k, e2, e3, k1, k2, k3, fun v hv hy hz => ?_⟩
  have := h3.objs v hv
  rwa [Function.update_of_ne hz, Function.update_of_ne hy] at this

/-- C90: two parties, each with its own memory, who hold the same modulus and base and exchange their tokens, obtain the same bytes of
the shared secret, as long as no allocation fails. -/
theorem mem_dh_shared {sA sB : St} {spA pA gA eA YA ZA spB pB gB eB YB ZB P A B L : Nat} {G : Int} (hw : Mpi.DigitWidth w) (hsA : Plenty sA) (hsB : Plenty sB)
    (hA : DhAt w spA sA pA gA eA YA ZA P G A) (hB : DhAt w spB sB pB gB eB YB ZB P G B) (hP : 1 < P) (hL : P ≤ 256 ^ L) (b : Buf) (hb : b.length = L) :
    ∃ a1 a2 a3 b1 b2 b3 tA tB k,
      (dhAgree w spA pA gA eA YA sA = .ok (0, a1) ∧ dhGet w YA b L a1 = .ok ((0, tA.map some), a1)) ∧
      (dhAgree w spB pB gB eB YB sB = .ok (0, b1) ∧ dhGet w YB b L b1 = .ok ((0, tB.map some), b1)) ∧
      (dhSetTok w YA tB a1 = .ok (0, a2) ∧ dhFinalize w spA pA eA YA ZA a2 = .ok (0, a3) ∧ dhGet w ZA b L a3 = .ok ((0, k.map some), a3)) ∧
      (dhSetTok w YB tA b1 = .ok (0, b2) ∧ dhFinalize w spB pB eB YB ZB b2 = .ok (0, b3) ∧ dhGet w ZB b L b3 = .ok ((0, k.map some), b3)) ∧
      k.length = L ∧ (beVal k : Int) = G ^ (A * B) % P := by
  obtain ⟨a1, tA, c1, c2, c3, c4, cA⟩ := mem_dh_side hw hsA hA hP hL b hb
  obtain ⟨b1, tB, d1, d2, d3, d4, dB⟩ := mem_dh_side hw hsB hB hP hL b hb
  obtain ⟨a2, a3, k, x1, x2, x3, x4, x5, -⟩ := cA tB
  obtain ⟨b2, b3, k', y1, y2, y3, y4, y5, -⟩ := dB tA
  have k1 : (beVal k : Int) = G ^ (A * B) % P := by
    rw [x5, d4, Nat.mul_comm, pow_mul]; exact ((Int.mod_modEq _ _).pow _)
  have k2 : (beVal k' : Int) = G ^ (A * B) % P := by
    rw [y5, c4, pow_mul]; exact ((Int.mod_modEq _ _).pow _)
  obtain rfl : k = k' := beVal_inj (by omega) (by omega)
  exact ⟨a1, a2, a3, b1, b2, b3, tA, tB, k, ⟨c1, c2⟩, ⟨d1, d2⟩, ⟨x1, x2, x3⟩, ⟨y1, y2, y3⟩, x4, k1⟩

end

/-! ### Cases -/

theorem exEcdsa_empty (f : Nat → Bool) (v : Nat) (h : 13 ≤ v) : ((exEcdsa f).obj v).Is 8 0 := by
  have e : (exEcdsa f).obj v = ⟨some ⟨false, 0, 8⟩, .mem true (List.replicate 8 none)⟩ := by
    show (match [17, 2, 6, 1, 3, 1, 11, 4, 11, 13, 1, 2, 7][v]? with
      | some n => exNum n
      | none => ⟨some ⟨false, 0, 8⟩, .mem true (List.replicate 8 none)⟩ : Obj) = _
    rw [List.getElem?_eq_none (by simpa using h)]
  rw [e]
  exact ⟨⟨false, []⟩, wf0, rfl, rfl, ⟨List.replicate 8 none, rfl⟩, Or.inr ⟨List.replicate 8 none, by simp, rfl⟩⟩

/-- A key pair from the byte 5: the private key is 2. -/
example : ∃ s', ecdsaKeygen 8 16 7 13 0 [5] (exEcdsa fun _ => false) = .ok (0, s') ∧ (s'.obj 7).Is 8 (2 : Nat) ∧ PointAt 8 s' 13 (2 • Ecdsa.toyBase) := by
  obtain ⟨s', k, e, rfl, h1, h2, -⟩ := mem_ecdsa_keygen_partial (w := 8) (sp := 16) (d := 7) (q := 13) (z := (4 : Nat)) (Or.inl rfl) (fun _ => rfl) (by unfold CtxApart; omega) (exEcdsa_dom fun _ => false)
    (exEcdsa_at _ 7 4 rfl (by decide) (by decide)) (by decide) (fun i _ => ⟨0, exEcdsa_empty _ _ (by omega)⟩) [5] rfl (by decide)
  exact ⟨s', e, h1, h2⟩

/-- From the byte 11, which is the order: the private key is 0. -/
example : ∃ s', ecdsaKeygen 8 16 7 13 0 [11] (exEcdsa fun _ => false) = .ok (0, s') ∧ (s'.obj 7).Is 8 0 ∧ PointAt 8 s' 13 (0 : (curve 17 2 6).Point) :=
  mem_ecdsa_keygen_zero (w := 8) (z := (4 : Nat)) (Or.inl rfl) (fun _ => rfl) (by unfold CtxApart; omega) (exEcdsa_dom fun _ => false)
    (exEcdsa_at _ 7 4 rfl (by decide) (by decide)) (by decide) (fun i _ => ⟨0, exEcdsa_empty _ _ (by omega)⟩) [11] rfl rfl

/-- The sixth request is the last one of the random number; if the tenth fails the private key is new and the public key old. -/
example : ∃ s1 s', randRange 8 16 7 6 [5] (exEcdsa fun k => k == 9) = .ok (0, s1) ∧ (s1.obj 7).Is 8 (2 : Nat) ∧
    ecdsaKeygen 8 16 7 8 0 [5] (exEcdsa fun k => k == 9) = .ok (0, s') ∧ ∀ v, v < 16 → s'.obj v = s1.obj v := by
  obtain ⟨s1, e1, h1⟩ : ∃ s1, randRange 8 16 7 6 [5] (exEcdsa fun k => k == 9) = .ok (0, s1) ∧ decide (s1.tick = 6) = true := endsIn_ok (by decide +kernel)
  obtain ⟨st, s2, e2, f2, -, h2⟩ := mem_randRange_partial (w := 8) (sp := 16) (r := 7) (x := 6) (z := (4 : Nat)) (M := 11) (s := exEcdsa fun k => k == 9) (Or.inl rfl)
    (exEcdsa_at _ 7 4 rfl (by decide) (by decide)) (by decide) (exEcdsa_at _ 6 11 rfl (by decide) (by decide)).shows (by decide) (by decide) (by decide) (by decide) [5] rfl (by decide)
  rw [e1] at e2; cases e2
  rcases h2 with ⟨-, h2⟩ | ⟨h2, -⟩
  swap
  · cases h2
  have ht : s1.tick = 6 := of_decide_eq_true h1
  have hff : s1.fails = fun k => k == 9 := by
    obtain ⟨st, s3, e3, h3⟩ := leaf_at (K := ctxOf 16 _) (at_now 16 (exEcdsa fun k => k == 9)) (show 7 < 16 by decide) (randRange_leaf (w := 8) (M := 11) (z := (4 : Nat)) (x := 6) (Or.inl rfl)
      (V.of_is (exEcdsa_at _ 7 4 rfl (by decide) (by decide))) (by decide) (exEcdsa_at _ 6 11 rfl (by decide) (by decide)).shows (by decide) (by decide) (by decide) (by decide) [5] rfl (by decide))
    rw [e1] at e3; cases e3
    rcases h3 with ⟨-, h3⟩ | ⟨h3, -⟩
    · exact h3.orc
    · cases h3
  obtain ⟨s', e', h'⟩ := mem_ecdsa_keygen_lost (w := 8) (sp := 16) (d := 7) (q := 8) (g := 0) (P := Ecdsa.toyBase) (Or.inl rfl) (by decide) [5] e1
    ⟨_, _, _, ⟨by rw [f2 3 (by decide) (by decide)]; exact (exEcdsa_base _).1, by rw [f2 4 (by decide) (by decide)]; exact (exEcdsa_base _).2.1,
      by rw [f2 5 (by decide) (by decide)]; exact (exEcdsa_base _).2.2⟩, by decide, by decide, by decide⟩ (by intro h; cases h)
    (fun k hk => by rw [hff, ht]; show decide (6 + k = 9) = false; exact decide_eq_false (by omega)) (by rw [hff, ht]; rfl)
  exact ⟨s1, s', e1, h2, e', h'⟩

/-- The fourth request of an agreement fails. -/
example : EndsSame 16 (exEcdsa fun k => k == 3) (ecdhAgree 8 16 0 7 8) 0 ∧ EndsSame 16 (exEcdsa fun k => k == 3) (ecdhFinal 8 16 0 7 3 13) 0 :=
  have h := fun q => mem_ecdh_lost (w := 8) (sp := 16) (g := 0) (d := 7) (q := q) (z := 13) (s := exEcdsa fun k => k == 3) (P := Ecdsa.toyBase) (Or.inl rfl) (by decide) rfl
  ⟨(h 8).1 (by decide) ⟨_, _, _, exEcdsa_base _, by decide, by decide, by decide⟩ (by intro h; cases h),
    (h 3).2 (by decide) ⟨_, _, _, exEcdsa_base _, by decide, by decide, by decide⟩ (by intro h; cases h)⟩

/-- The public key of the private key 4, over the old one. -/
example : PtEnds 16 (exEcdsa fun _ => false) 8 (ecdhAgree 8 16 0 7 8) 0 fun s' => PointAt 8 s' 8 (4 • Ecdsa.toyBase) ∧ StdAt 17 8 s' 8 ∧ ReadyAt 8 s' 8 :=
  mem_ecdh_agree_partial (D := 4) (Or.inl rfl) (fun _ => rfl) (by unfold CtxApart; omega) (exEcdsa_dom _) (exEcdsa_at _ 7 4 rfl (by decide) (by decide)).shows
    (fun i hi => by
      obtain rfl | rfl | rfl : i = 0 ∨ i = 1 ∨ i = 2 := by omega
      · exact ⟨_, exEcdsa_at _ 8 11 rfl (by decide) (by decide)⟩
      · exact ⟨_, exEcdsa_at _ 9 13 rfl (by decide) (by decide)⟩
      · exact ⟨_, exEcdsa_at _ 10 1 rfl (by decide) (by decide)⟩)

/-- Two parties with private key 4 each. -/
example : ∃ sA' sB' x y z, ecdhFinal 8 16 0 7 8 13 (exEcdsa fun _ => false) = .ok (0, sA') ∧ ecdhFinal 8 16 0 7 8 13 (exEcdsa fun _ => false) = .ok (0, sB') ∧
      Coords 8 sA' 13 x y z ∧ Coords 8 sB' 13 x y z ∧ OnPt x y z ((4 * 4) • Ecdsa.toyBase) :=
  mem_ecdh_shared (A := 4) (B := 4) (Or.inl rfl) (fun _ => rfl) (fun _ => rfl) (by unfold EcdhApart CtxApart; omega) (by unfold EcdhApart CtxApart; omega) (exEcdsa_dom _) (exEcdsa_dom _)
    (exEcdsa_at _ 7 4 rfl (by decide) (by decide)).shows (exEcdsa_at _ 7 4 rfl (by decide) (by decide)).shows
    ⟨_, _, _, exEcdsa_pub _, exEcdsa_key⟩ ⟨_, _, _, exEcdsa_pub _, exEcdsa_key⟩
    ⟨_, _, _, exEcdsa_pub _, Or.inr ⟨by decide, by decide, by decide, by decide, by decide⟩⟩ ⟨_, _, _, exEcdsa_pub _, Or.inr ⟨by decide, by decide, by decide, by decide, by decide⟩⟩
    (fun i _ => ⟨0, exEcdsa_empty _ _ (by omega)⟩) (fun i _ => ⟨0, exEcdsa_empty _ _ (by omega)⟩)

/-- The hypotheses of `mem_ecdsa_life` are met, for secp256r1. -/
example : ∃ s1 c, ecdsaInit 64 7 8 0 2 ⟨fun v => if v < 11 then Obj.fresh else ⟨some ⟨false, 0, 8⟩, .mem true (List.replicate 8 none)⟩, fun _ => false, 0, 2⟩ = .ok (0, s1) ∧
    namedGroups[2]? = some c := by
  have hi : ∀ v, 11 ≤ v → ((⟨fun v => if v < 11 then Obj.fresh else ⟨some ⟨false, 0, 8⟩, .mem true (List.replicate 8 none)⟩, fun _ => false, 0, 2⟩ : St).obj v).Is 64 0 := by
    intro v hv
    show (if v < 11 then Obj.fresh else ⟨some ⟨false, 0, 8⟩, .mem true (List.replicate 8 none)⟩).Is 64 0
    rw [if_neg (by omega)]
    exact ⟨⟨false, []⟩, ⟨⟨fun e he => by simp at he, by simp [Mpi.TopNZ]⟩, by simp⟩, rfl, rfl, ⟨List.replicate 8 none, rfl⟩, Or.inr ⟨List.replicate 8 none, by simp, rfl⟩⟩
  obtain ⟨s1, c, h1, h2, -⟩ := mem_ecdsa_life (w := 64) (sp := 13) (d := 7) (q := 8) (g := 0) (r := 11) (t := 12) (id := 2) (Or.inr rfl) (s := ⟨fun v => if v < 11 then Obj.fresh else ⟨some ⟨false, 0, 8⟩, .mem true (List.replicate 8 none)⟩, fun _ => false, 0, 2⟩)
    (fun _ => rfl) (by unfold CtxApart; omega) ⟨rfl, fun i hi => by show Obj.owns (if 8 + i < 11 then _ else _) = 0; rw [if_pos (by omega)]; rfl,
      fun i hi => by show Obj.owns (if 0 + i < 11 then _ else _) = 0; rw [if_pos (by omega)]; rfl⟩ (by decide) (by decide) (by decide) (by unfold Outside; omega) (by unfold Outside; omega) (by decide) (hi 11 (by omega)) (hi 12 (by omega))
  exact ⟨s1, c, h1, h2⟩

/-- Diffie-Hellman with modulus 23, base 5 and exponent `n`. -/
def exDh (n : Nat) (f : Nat → Bool) : St :=
  ⟨fun v => match [23, 5, n, 1, 1][v]? with
    | some n => exNum n
    | none => Obj.fresh, f, 0, 5⟩

theorem exDh_at {n : Nat} (f : Nat → Bool) (h0 : 0 < n) (h1 : n < 256) : DhAt 8 5 (exDh n f) 0 1 2 3 4 23 5 n :=
  ⟨by decide, by decide, (exNum_is (n := 23) (by decide) (by decide)).shows, (exNum_is (n := 5) (by decide) (by decide)).shows,
    (exNum_is (n := n) (by omega) h1).shows, ⟨_, exNum_is (n := 1) (by decide) (by decide)⟩, ⟨_, exNum_is (n := 1) (by decide) (by decide)⟩⟩

/-- The exponents 6 and 15: the secret is 5⁹⁰ modulo 23. -/
example : ∃ a1 a2 a3 b1 b2 b3 tA tB k,
      (dhAgree 8 5 0 1 2 3 (exDh 6 fun _ => false) = .ok (0, a1) ∧ dhGet 8 3 [none] 1 a1 = .ok ((0, tA.map some), a1)) ∧
      (dhAgree 8 5 0 1 2 3 (exDh 15 fun _ => false) = .ok (0, b1) ∧ dhGet 8 3 [none] 1 b1 = .ok ((0, tB.map some), b1)) ∧
      (dhSetTok 8 3 tB a1 = .ok (0, a2) ∧ dhFinalize 8 5 0 2 3 4 a2 = .ok (0, a3) ∧ dhGet 8 4 [none] 1 a3 = .ok ((0, k.map some), a3)) ∧
      (dhSetTok 8 3 tA b1 = .ok (0, b2) ∧ dhFinalize 8 5 0 2 3 4 b2 = .ok (0, b3) ∧ dhGet 8 4 [none] 1 b3 = .ok ((0, k.map some), b3)) ∧
      k.length = 1 ∧ (beVal k : Int) = 5 ^ (6 * 15) % (23 : Nat) :=
  mem_dh_shared (Or.inl rfl) (fun _ => rfl) (fun _ => rfl) (exDh_at _ (by decide) (by decide)) (exDh_at _ (by decide) (by decide)) (by decide) (by decide) [none] rfl

/-- C90, where it fails: the first request of an agreement fails. -/
theorem mem_dh_agree_ub : isUb (dhAgree 8 5 0 1 2 3 (exDh 6 fun k => k == 0)) = true := by decide +kernel

/-- The others report it: here the third. -/
example : ∃ s', dhAgree 8 5 0 1 2 3 (exDh 6 fun k => k == 2) = .ok (-1, s') ∧ decide (s'.live = 5) = true := endsIn_ok (by decide +kernel)

example (f : Nat → Bool) : ∃ st s', dhInit 0 1 2 3 4 (exFresh f) = .ok (st, s') ∧ ((st = 0 ∧ (s'.obj 4).Is 8 0) ∨ (st = -1 ∧ Failed (exFresh f) s' ∧ (s'.obj 0).owns = 0)) := by
  obtain ⟨st, s', e, -, -, ⟨h, h1⟩ | ⟨h, h1, h2⟩⟩ := mem_dh_init (w := 8) (sp := 5) (p := 0) (g := 1) (e := 2) (Y := 3) (Z := 4) (s := exFresh f) (by decide) (by decide) (by decide) (fun _ _ => rfl)
  · exact ⟨st, s', e, Or.inl ⟨h, h1 4 (by simp)⟩⟩
  · exact ⟨st, s', e, Or.inr ⟨h, h1, h2 0 (by simp)⟩⟩

example (f : Nat → Bool) : ∃ s', dhClear 0 1 2 3 4 (exDh 6 f) = .ok ((), s') ∧ Balanced 5 (exDh 6 f) s' ∧ (s'.obj 2).owns = 0 := by
  obtain ⟨s', e, -, h, c⟩ := mem_dh_clear (w := 8) (sp := 5) (p := 0) (g := 1) (e := 2) (Y := 3) (Z := 4) (s := exDh 6 f) (by decide) (by decide) (by
    have k : ∀ n : Nat, 0 < n → n < 256 → ∃ z, (exNum n).Is 8 z := fun n h0 h1 => ⟨n, exNum_is (by omega) h1⟩
    intro a ha
    simp only [List.mem_cons, List.not_mem_nil, or_false] at ha
    rcases ha with rfl | rfl | rfl | rfl | rfl
    · exact k 23 (by decide) (by decide)
    · exact k 5 (by decide) (by decide)
    · exact k 6 (by decide) (by decide)
    · exact k 1 (by decide) (by decide)
    · exact k 1 (by decide) (by decide))
  exact ⟨s', e, h, by rw [c 2 (by simp)]; rfl⟩

end Verif.Mem
