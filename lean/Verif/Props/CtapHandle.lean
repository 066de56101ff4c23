import Verif.Props.CtapFlaws
import Verif.Lemmas.CtapSecret
/-
C64: credential ids are bound to the relying party and the attributes with which they were made.
-/
namespace Verif.Ctap
open Cmd

variable {x : Ext}

/-! ### The secrets through a history -/

theorem secret_install (i : In) (f : Flash) (r : Ram) (hl : f.lb.isSome = true) :
    wp (· ≠ .fail) (install i false) (fun _ f' _ => f' = f) (fun _ f' _ => f' = f) (fun f' _ => f' = f) f r := by
  unfold install
  apply wp_bind
  apply wp_mod
  apply wp_bind
  apply wp_rdF
  · intro _
    apply wp_ite <;> intro h
    · apply wp_bind
      apply wp_rdOr
      · intro _ _
        exact wp_mod rfl
      all_goals (intro _; rfl)
    · exact absurd hl h
  · intro h; exact absurd rfl h
  · intro _; rfl

/-- The secrets of the device stay the same until a reset. -/
theorem secret_step (s : St) (op : Op) (env : Env) (hr : op.resets = false) (hp : op.powers = true → noFail env)
    (hl : s.flash.lb.isSome = true) : Secret s.flash s.ram (step x s op env).1.flash (step x s op env).1.ram := by
  have frame : ∀ {α : Type} (m : M α) (g : α → Out), Rel Secret m →
      Secret s.flash s.ram (exec m g s env).1.flash (exec m g s env).1.ram := by
    intro α m g hm
    exact exec_wp (P := fun p : St × Out => Secret s.flash s.ram p.1.flash p.1.ram) (A := fun _ => True) (fun _ => trivial)
      (hm _ _ _) (fun _ _ _ h => h) (fun _ _ _ h => h) (fun _ _ _ h => h) (fun _ _ h => ⟨h.kh, h.he, h.lb⟩)
  cases op with
  | powerOn i =>
    have : (step x s (.powerOn i) env).1.flash = s.flash := by
      unfold step
      exact exec_wp (P := fun p : St × Out => p.1.flash = s.flash) (A := (· ≠ .fail)) (hp rfl)
        (secret_install i s.flash Ram.init hl) (fun _ _ _ h => h) (fun _ _ _ h => h) (fun _ _ _ h => h) (fun _ _ h => h)
    rw [this]
    exact ⟨rfl, rfl, id⟩
  | u2f i q => exact frame (u2f x i q) .u2f (sc_u2f x i q)
  | adminReset i => cases hr
  | installKey k => exact frame (installKeyM k) (fun _ => .done) (by unfold installKeyM; rels (secrets))
  | installCert k =>
    refine frame (installCertM k) (fun _ => .done) ?_
    unfold installCertM
    refine Rel.wrOr ?_
    intro f r f' h
    cases h
    cases hc : f.cert <;> refine ⟨?_, ?_, id⟩ <;> simp [rdCert, hc]
  | writeSm2 k => exact frame (writeSm2M k) (fun _ => .done) (by unfold writeSm2M; rels (secrets))
  | cbor i q =>
    have hq : q ≠ .reset := by
      rintro rfl
      cases hr
    exact cbor_wp (s := s) (i := i) (q := q) (env := env) (P := fun p : St × Out => Secret s.flash s.ram p.1.flash p.1.ram)
      (A := fun _ => True) (fun _ => trivial) (sc_handle x i hq _ _ _) (fun _ _ _ h => ⟨h.kh, h.he, h.lb⟩)
      (fun _ _ _ h => ⟨h.kh, h.he, h.lb⟩) (fun _ _ _ h => ⟨h.kh, h.he, h.lb⟩) (fun _ _ h => ⟨h.kh, h.he, h.lb⟩)

theorem secret_run (ops : List (Op × Env)) (s : St) (hops : ∀ o ∈ ops, o.1.resets = false ∧ (o.1.powers = true → noFail o.2))
    (hl : s.flash.lb.isSome = true) : rdCert (·.kh) (run x s ops).1.flash = rdCert (·.kh) s.flash := by
  induction ops generalizing s with
  | nil => rfl
  | cons o ops ih =>
    obtain ⟨op, e⟩ := o
    have h1 := hops (op, e) List.mem_cons_self
    have h2 := secret_step (x := x) s op e h1.1 h1.2 hl
    rw [run_cons]
    exact (ih _ (fun o ho => hops o (List.mem_cons_of_mem _ ho)) (h2.lb hl)).trans h2.kh

/-! ### What makeCredential returns -/

theorem le32_alg (v : UInt32) : v.toUInt8.toUInt32 ||| ((v >>> 8).toUInt8.toUInt32 <<< 8) ||| ((v >>> 16).toUInt8.toUInt32 <<< 16)
    ||| ((v >>> 24).toUInt8.toUInt32 <<< 24) = v := by
  apply UInt32.eq_of_toBitVec_eq
  apply BitVec.eq_of_getLsbD_eq
  intro i hi
  simp only [UInt32.toBitVec_or, UInt32.toBitVec_shiftLeft, UInt32.toBitVec_shiftRight, UInt8.toBitVec_toUInt32,
    UInt32.toBitVec_toUInt8, UInt32.toBitVec_ofNat]
  simp [-BitVec.setWidth_setWidth, BitVec.getLsbD_shiftLeft, BitVec.getLsbD_setWidth, BitVec.getLsbD_ushiftRight, hi]
  by_cases h8 : i < 8
  · simp [h8, show i < 16 by omega, show i < 24 by omega]
  · by_cases h16 : i < 16
    · simp [h8, h16, show i < 24 by omega, show i - 8 < 8 by omega, show 8 + (i - 8) = i by omega, hi]
    · by_cases h24 : i < 24
      · simp [h8, h16, h24, show i - 16 < 8 by omega, show ¬ (i - 8 < 8) by omega, show 16 + (i - 16) = i by omega, hi]
      · simp [h8, h16, h24, show ¬ (i - 16 < 8) by omega, show i - 24 < 8 by omega, show ¬ (i - 8 < 8) by omega,
          show 24 + (i - 24) = i by omega, hi]

theorem cid_parts {t rnd rp : Bytes} {dc cp : Byte} {a : Bytes} (ht : t.length = 16) (hr : rnd.length = 16)
    (hp : rp.length = 32) :
    Cid.tag (t ++ (rnd ++ [dc, cp]) ++ rp ++ a) = t ∧ Cid.nonce (t ++ (rnd ++ [dc, cp]) ++ rp ++ a) = rnd ++ [dc, cp] ∧
    Cid.rp (t ++ (rnd ++ [dc, cp]) ++ rp ++ a) = rp ∧ Cid.dc (t ++ (rnd ++ [dc, cp]) ++ rp ++ a) = dc ∧
    Cid.cp (t ++ (rnd ++ [dc, cp]) ++ rp ++ a) = cp ∧
    ∀ n, (t ++ (rnd ++ [dc, cp]) ++ rp ++ a).getD (66 + n) 0 = a.getD n 0 := by
  refine ⟨?_, ?_, ?_, ?_, ?_, ?_⟩
  · unfold Cid.tag
    rw [List.append_assoc, List.append_assoc, List.take_left' ht]
  · unfold Cid.nonce
    rw [List.append_assoc, List.append_assoc, List.drop_left' ht, List.take_left' (by simp [hr])]
  · unfold Cid.rp
    have e : (t ++ (rnd ++ [dc, cp])).length = 34 := by simp [ht, hr]
    rw [List.append_assoc, List.drop_left' e, List.take_left' hp]
  · unfold Cid.dc
    simp [List.getElem?_append, ht, hr]
  · unfold Cid.cp
    simp [List.getElem?_append, ht, hr]
  · intro n
    have e : (t ++ (rnd ++ [dc, cp]) ++ rp).length = 66 := by simp [ht, hr, hp]
    rw [List.getD_eq_getElem?_getD, List.getElem?_append_right (by omega), e, Nat.add_sub_cancel_left,
      ← List.getD_eq_getElem?_getD]

/-- The parts of a new credential id. -/
theorem makeCid_parts {kh rnd rp : Bytes} {dc cp : Byte} {alg : UInt32} (ht : ∀ k m, (x.hmac k m).length = 32)
    (hr : rnd.length = 16) (hp : rp.length = 32) :
    Authentic x kh (makeCid x kh rnd dc cp rp alg) ∧ (makeCid x kh rnd dc cp rp alg).length = 70 ∧
    Cid.rp (makeCid x kh rnd dc cp rp alg) = rp ∧ Cid.dc (makeCid x kh rnd dc cp rp alg) = dc ∧
    Cid.cp (makeCid x kh rnd dc cp rp alg) = cp ∧ Cid.alg (makeCid x kh rnd dc cp rp alg) = alg := by
  have htl : (khTag x kh (rnd ++ [dc, cp]) rp).length = 16 := by
    unfold khTag
    rw [List.length_take, ht]
    rfl
  obtain ⟨h1, h2, h3, h4, h5, h6⟩ := cid_parts (a := le32 alg) (dc := dc) (cp := cp) htl hr hp
  unfold Authentic
  simp only [makeCid]
  refine ⟨?_, ?_, h3, h4, h5, ?_⟩
  · rw [h1, h2, h3]
  · simp [htl, hr, hp, le32]
  · unfold Cid.alg
    rw [h6 0, h6 1, h6 2, h6 3]
    exact le32_alg alg

/-- The identifier without the algorithm: what makes a credential. -/
def Cid.body (b : Bytes) : Bytes := b.take 66

theorem body_parts (b : Bytes) : Cid.body b = Cid.tag b ++ Cid.nonce b ++ Cid.rp b := by
  unfold Cid.body Cid.tag Cid.nonce Cid.rp
  rw [show (66 : Nat) = 16 + 18 + 32 from rfl, List.take_add, List.take_add]

theorem dc_of_body {b c : Bytes} (h : Cid.body b = Cid.body c) : Cid.dc b = Cid.dc c ∧ Cid.cp b = Cid.cp c ∧ Cid.rp b = Cid.rp c := by
  have hg : ∀ (l : Bytes) n, n < 66 → l.getD n 0 = (Cid.body l).getD n 0 := by
    intro l n hn
    unfold Cid.body
    rw [List.getD_eq_getElem?_getD, List.getD_eq_getElem?_getD, List.getElem?_take_of_lt hn]
  have hr : ∀ l : Bytes, Cid.rp l = (Cid.body l).drop 34 := by
    intro l
    unfold Cid.rp Cid.body
    rw [List.drop_take]
  unfold Cid.dc Cid.cp
  rw [hg b 32 (by omega), hg b 33 (by omega), hg c 32 (by omega), hg c 33 (by omega), hr, hr, h]
  exact ⟨rfl, rfl, rfl⟩

/-- Two different pairs of attributes and relying party for which the device computes the same
authentication code: `c` and `e` are a collision of the (truncated) MAC. -/
def Collision (x : Ext) (kh c e : Bytes) : Prop :=
  khTag x kh (Cid.nonce e) (Cid.rp e) = khTag x kh (Cid.nonce c) (Cid.rp c) ∧ (Cid.nonce e, Cid.rp e) ≠ (Cid.nonce c, Cid.rp c)

/-! ### C64 -/

/-- A new credential id carries the hash of the relying party, the resident flag, the credProtect level and the
algorithm of the request, and a valid authentication code of all these except the algorithm. -/
theorem C64_created (s : St) (i : In) (q : McReq) (env : Env) (m : McResp) (hm : ∀ k m, (x.hmac k m).length = 32)
    (hn : i.rndNonce.length = 16) (hp : q.rpHash.length = 32)
    (h : (step x s (.cbor i (.mc (.ok q))) env).2 = .resp (.mc m)) :
    ∃ kh c, rdCert (·.kh) s.flash = some kh ∧ m.ad.att = some c ∧ Authentic x kh c ∧ c.length = 70 ∧
      Cid.rp c = q.rpHash ∧ Cid.dc c = (if q.rk = .yes then 1 else 0) ∧
      Cid.cp c = (if q.protect = 0 then 1 else q.protect) ∧ Cid.alg c = q.alg := by
  obtain ⟨r', ⟨m', hm', hd⟩, _⟩ := resp_of x i (q := .mc (.ok q)) (wp_makeCredential x i q) h
  cases hm'
  obtain ⟨kh, h1, h2⟩ := hd.cid
  refine ⟨kh, _, h1, h2, ?_⟩
  obtain ⟨a, b, c, d, e, f⟩ := makeCid_parts (x := x) (kh := kh) (dc := if q.rk == .yes then 1 else 0)
    (cp := if q.protect == 0 then 1 else q.protect) (alg := q.alg) hm hn hp
  refine ⟨a, b, c, d.trans ?_, e.trans ?_, f⟩
  · cases q.rk <;> rfl
  · by_cases h0 : q.protect = 0 <;> simp [h0]

/-- getAssertion accepts a credential id only if its authentication code is right under the secret of this device
for the attributes and the relying party that it carries, and only for that relying party: with an allow list
the id is one of the list, without it is the id of the stored credential. -/
theorem C64_accepted (s : St) (i : In) (q : GaReq) (env : Env) (g : GaResp) (ha : ∀ c ∈ q.allow, c.length = 70)
    (h : (step x s (.cbor i (.ga (.ok q))) env).2 = .resp (.ga g)) :
    ∃ kh e, rdCert (·.kh) s.flash = some kh ∧ (if q.allow = [] then e = g.cid else e ∈ q.allow) ∧ Authentic x kh e ∧
      Cid.rp e = q.rpHash ∧ g.ad.rp = q.rpHash ∧ Cid.nonce g.cid = Cid.nonce e ∧ Cid.rp g.cid = q.rpHash ∧
      g.key = khPri x kh (Cid.nonce e) ∧ (Cid.cp e = 3 → g.ad.uv = true) ∧
      (Cid.cp e = 2 → g.ad.uv = true ∨ q.allow ≠ []) := by
  obtain ⟨q', g', hq, hg, hb⟩ := ga_resp x i h
  cases hq
  cases hg
  obtain ⟨d, f1, r1, hst, _, h3, h4, _, _, _, r', hd, _⟩ := hb.done
  have hcert : ∀ kh, rdCert (·.kh) f1 = some kh → rdCert (·.kh) s.flash = some kh := by
    intro kh hk
    unfold rdCert at *
    rw [hst.cert] at hk
    exact hk
  have hp := hd.protect
  have hrp := hd.rp
  rw [h4] at hp hrp
  by_cases he : q.allow = []
  · obtain ⟨recs, kh, k1, k2, k3, k4, k5, k6, _⟩ := hd.chosen.found (by rw [h4]; exact he)
    obtain ⟨k7, k8, k9⟩ := k6 h3
    have hrpd : Cid.rp d.cid = q.rpHash := by
      rw [h3] at k2
      have hmem : r'.ga.list.getD 0 0 ∈ matching recs r1.ga.req.rpHash r1.ga.uv := by
        rw [← k7]
        cases hl : r'.ga.list with
        | nil => exact absurd hl k9
        | cons a l => simp
      obtain ⟨d', hd1, _, hd2, _⟩ := mem_matching.mp hmem
      rw [k2] at hd1
      cases hd1
      rw [← h4]
      exact hd2
    refine ⟨kh, d.cid, hcert kh k3, ?_, k4, hrpd, hrp, ?_, ?_, k5, ?_, ?_⟩
    · rw [if_pos he, hd.cid]
    · rw [hd.cid]
    · rw [hd.cid]; exact hrpd
    · exact protect3 hp
    · intro h2
      rcases protect2 hp h2 with h5 | h5
      · exact Or.inl h5
      · rw [he] at h5
        cases h5
  · obtain ⟨_, _, e, hal, hm⟩ := hd.chosen.named (by rw [h4]; exact he)
    rw [h4] at hal hm
    obtain ⟨kh, k1, k2, k3⟩ := hal.auth
    have hpe := hal.protect
    rw [← hd.uv] at hpe
    refine ⟨kh, e, hcert kh k1, ?_, k2, hal.rpE, hrp, ?_, ?_, ?_, ?_, fun _ => Or.inr he⟩
    · rw [if_neg he]; exact hm ha
    · rw [hd.cid]; exact hal.nonce
    · rw [hd.cid]; exact hal.rp
    · rw [k3, hal.nonce]
    · exact protect3 hpe

/-- A credential id that getAssertion accepts and that carries the authentication code of a credential that
this device made is that credential, with the relying party, the resident flag and the credProtect level with
which it was made (whatever its algorithm field says): otherwise the two would be a collision of the MAC.  This
holds after any history of commands, faults and power cuts without a reset. -/
theorem C64_bound (s : St) (i : In) (q : McReq) (env : Env) (m : McResp) (c : Bytes) (ops : List (Op × Env))
    (j : In) (q' : GaReq) (env' : Env) (g : GaResp)
    (hm : ∀ k m, (x.hmac k m).length = 32) (hn : i.rndNonce.length = 16) (hp : q.rpHash.length = 32)
    (hl : s.flash.lb.isSome = true)
    (h : (step x s (.cbor i (.mc (.ok q))) env).2 = .resp (.mc m)) (hc : m.ad.att = some c)
    (hops : ∀ o ∈ ops, o.1.resets = false ∧ (o.1.powers = true → noFail o.2))
    (ha : ∀ c ∈ q'.allow, c.length = 70)
    (h' : (step x (run x (step x s (.cbor i (.mc (.ok q))) env).1 ops).1 (.cbor j (.ga (.ok q'))) env').2 = .resp (.ga g)) :
    ∃ kh e, rdCert (·.kh) s.flash = some kh ∧ (if q'.allow = [] then e = g.cid else e ∈ q'.allow) ∧
      (Cid.tag e = Cid.tag c →
        (Cid.body e = Cid.body c ∧ q'.rpHash = q.rpHash ∧ Cid.dc e = (if q.rk = .yes then 1 else 0) ∧
          Cid.cp e = (if q.protect = 0 then 1 else q.protect) ∧ g.key = khPri x kh (Cid.nonce c) ∧
          (q.protect = 3 → g.ad.uv = true)) ∨
        Collision x kh c e) := by
  obtain ⟨kh, c', k1, k2, k3, k4, k5, k6, k7, k8⟩ := C64_created s i q env m hm hn hp h
  rw [hc] at k2
  cases k2
  obtain ⟨kh', e, l1, l2, l3, l4, l5, l6, l7, l8, l9, _⟩ := C64_accepted _ j q' env' g ha h'
  have hstep := secret_step (x := x) s (.cbor i (.mc (.ok q))) env rfl (fun h => by cases h) hl
  have hrun := secret_run (x := x) ops _ hops (hstep.lb hl)
  rw [hrun, hstep.kh, k1] at l1
  cases l1
  refine ⟨kh, e, k1, l2, fun ht => ?_⟩
  by_cases hcol : (Cid.nonce e, Cid.rp e) = (Cid.nonce c, Cid.rp c)
  · left
    obtain ⟨n1, n2⟩ := Prod.mk.inj hcol
    have hb : Cid.body e = Cid.body c := by rw [body_parts, body_parts, ht, n1, n2]
    obtain ⟨b1, b2, b3⟩ := dc_of_body hb
    refine ⟨hb, l4.symm.trans (n2.trans k5), b1.trans k6, b2.trans k7, l8.trans (by rw [n1]), fun h3 => ?_⟩
    apply l9
    rw [b2, k7, h3]
    rfl
  · right
    refine ⟨?_, hcol⟩
    unfold Authentic at l3 k3
    rw [← l3, ← k3]
    exact ht

/-! ### Examples -/

section
open Toy

/-- Credentials that are not stored on the device: of `rpA`, with credProtect 1. -/
def away : St := (run ext produced (histN [(20000, 9, mc rpA user1 .no 1 none)])).1
/-- Its identifier. -/
def awayCid : Bytes := makeCid ext (List.replicate 32 0xCC) (List.replicate 16 9) 0 1 rpA ES256
/-- The same with another algorithm. -/
def awayCid' : Bytes := awayCid.take 66 ++ le32 EDDSA
/-- The same with an algorithm that does not exist. -/
def awayCid'' : Bytes := awayCid.take 66 ++ [1, 2, 3, 4]

example : (∀ k m, (ext.hmac k m).length = 32) ∧ (envN 20000 9).rndNonce.length = 16 ∧ rpA.length = 32 ∧
    produced.flash.lb.isSome = true := by
  refine ⟨fun k m => ?_, by decide +kernel, by decide +kernel, by decide +kernel⟩
  show (Toy.hmac k m).length = 32
  unfold Toy.hmac
  simp

/-- The credential is accepted for its relying party, also after a power cut; with a changed tag, attribute or
relying party, or for another relying party, it is not. -/
example : (resps produced (histN [(20000, 9, mc rpA user1 .no 1 none)])).map (·.any fun a => match a with
      | .mc m => m.ad.att == some awayCid
      | _ => false) = [true] ∧
    ((run ext away [(.powerOn (env 0), cutAt 0), (.powerOn (env 0), fine), (.cbor (env 40000) (ga rpA [awayCid] .absent none), fine)]).2.map fun o =>
      match o with
      | .resp (.ga g) => g.cid == awayCid && g.ad.rp == rpA && g.key == khPri ext (List.replicate 32 0xCC) (Cid.nonce awayCid)
      | _ => false) = [false, false, true] ∧
    (run ext away (hist [(40000, ga rpB [awayCid] .absent none), (40000, ga rpA [awayCid.set 0 0x55] .absent none),
      (40000, ga rpA [awayCid.set 33 0] .absent none), (40000, ga rpB [awayCid.take 34 ++ rpB ++ awayCid.drop 66] .absent none)])).2 =
    List.replicate 4 (.err Code.noCredentials) := by
  decide +kernel

/-- The algorithm is not part of what the authentication code protects: with the algorithm field of the
identifier changed, the same private key signs with the other algorithm; and if the algorithm does not exist,
the device accepts the identifier and computes a wrong length for the response (undefined behaviour). -/
theorem C64_algorithm_not_bound :
    awayCid'.length = 70 ∧ awayCid' ≠ awayCid ∧ Cid.alg awayCid = ES256 ∧
    ((run ext away (hist [(40000, ga rpA [awayCid] .absent none), (40000, ga rpA [awayCid'] .absent none)])).2.map fun o =>
      match o with
      | .resp (.ga g) => some (g.alg, g.key)
      | _ => none) =
      [some (ES256, khPri ext (List.replicate 32 0xCC) (Cid.nonce awayCid)),
       some (EDDSA, khPri ext (List.replicate 32 0xCC) (Cid.nonce awayCid))] ∧
    (run ext away (hist [(40000, ga rpA [awayCid''] .absent none)])).2 = [.ub .oob] := by
  decide +kernel

end

end Verif.Ctap
