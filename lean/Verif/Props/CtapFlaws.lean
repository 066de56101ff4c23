import Verif.Props.CtapReset
import Verif.Lemmas.CtapEnum
/-
C71: the data that an assertion carries; C73: enumerations of credentialManagement.
-/
namespace Verif.Ctap
open Cmd

variable {x : Ext}

/-! ### C73 -/

/-- An enumeration can be continued. -/
def Ram.enumerates (r : Ram) : Prop := r.cm.nRp ≠ 0 ∨ r.cm.slots ≠ 0#64

/-- A command that begins an enumeration, of the relying parties (2) or of the credentials of one (4), with a valid
pinUvAuthParam of a token that may manage credentials. -/
def Begins (x : Ext) (s : St) (op : Op) : Prop :=
  ∃ i q, op = .cbor i (.cm (.ok q)) ∧ (q.sub = 2 ∨ q.sub = 4) ∧
    MayManage x (s.ram.tok.observe i.tick) permCm (q.sub :: q.params) q.pinAuth q.proto

theorem wp_and_true {α : Type} {m : M α} {A : Fault → Prop} {f : Flash} {r : Ram} {R : FRel} (h : Rel R m) {Q : α → Flash → Ram → Prop}
    (h' : wp A m Q (fun _ _ _ => True) (fun _ _ => True) f r) :
    wp A m (fun a f' r' => R f r f' r' ∧ Q a f' r') (fun _ f' r' => R f r f' r') (fun f' r' => R f r f' r') f r :=
  wp_mono (wp_and (h A f r) h') (fun _ _ _ h => h) (fun _ _ _ h => h.1) (fun _ _ h => h.1)

theorem wp_begin (i : In) (q : CmReq) (f : Flash) (r : Ram) :
    wp (fun _ => True) (credMgmt x i (.ok q)) (fun _ f' r' => Enum f r f' r' ∨ ((q.sub = 2 ∨ q.sub = 4) ∧ MayManage x r.tok permCm (q.sub :: q.params) q.pinAuth q.proto))
      (fun _ f' r' => Enum f r f' r' ∨ ((q.sub = 2 ∨ q.sub = 4) ∧ MayManage x r.tok permCm (q.sub :: q.params) q.pinAuth q.proto))
      (fun f' r' => Enum f r f' r' ∨ ((q.sub = 2 ∨ q.sub = 4) ∧ MayManage x r.tok permCm (q.sub :: q.params) q.pinAuth q.proto)) f r := by
  by_cases hb : q.sub = 2 ∨ q.sub = 4
  · by_cases hm : MayManage x r.tok permCm (q.sub :: q.params) q.pinAuth q.proto
    · exact wp_mono (wp_true _) (fun _ _ _ _ => Or.inr ⟨hb, hm⟩) (fun _ _ _ _ => Or.inr ⟨hb, hm⟩) (fun _ _ _ => Or.inr ⟨hb, hm⟩)
    · unfold credMgmt
      apply wp_bind
      refine wp_mono (wp_and_true (en_stored st_consistency) (wp_frame st_consistency fun _ _ _ h => h)) ?_
        (fun _ _ _ h => Or.inl h) (fun _ _ h => Or.inl h)
      rintro _ f1 r1 ⟨h1, h2⟩
      have hr := h2.ram
      subst hr
      show wp (fun _ => True) _ _ _ _ f1 _
      wzeta
      rw [if_pos (by rcases hb with hb | hb <;> rw [hb] <;> rfl)]
      apply wp_bind
      refine wp_mono (wp_and_true (en_cmAuth x i q) (wp_cmAuth x i q (Q := fun _ _ _ => False) fun _ h => hm h)) ?_
        (fun _ _ _ h => Or.inl (Pre.trans _ _ _ _ _ _ h1 h)) (fun _ _ h => Or.inl (Pre.trans _ _ _ _ _ _ h1 h))
      rintro _ _ _ ⟨_, h⟩
      exact h.elim
  · have h2 : ¬ (q.sub == 2) = true := fun h => hb (Or.inl (eq_of_beq h))
    have h4 : ¬ (q.sub == 4) = true := fun h => hb (Or.inr (eq_of_beq h))
    have key : ∀ n : Byte, Rel Enum (if q.sub == 1 then do
          let r ← Cmd.get
          failIf r.tok.rp.isSome Code.pinAuthInvalid
          return .credsMeta n.toNat (64 - (n.toNat : Int))
        else if q.sub == 2 then cmRpsBegin n
        else if q.sub == 3 then cmNextRp q
        else if q.sub == 4 then cmCredsBegin x q n
        else if q.sub == 5 then cmNextCred x q
        else if q.sub == 6 then cmDelete q n
        else if q.sub == 7 then cmUpdate q n
        else return .empty : M Resp) := by
      intro n
      repeat' split
      all_goals first
        | contradiction
        | exact en_cmNextRp _
        | exact en_cmNextCred x _
        | exact en_cmDelete _ _
        | exact en_cmUpdate _ _
        | rels (enums)
    have hrel : Rel Enum (credMgmt x i (.ok q)) := by
      unfold credMgmt
      refine Rel.bind (en_stored st_consistency) fun _ => ?_
      rzeta
      by_cases hh : cmAuthed q.sub = true
      · rw [if_pos hh]
        exact Rel.bind (en_cmAuth x i q) fun n => key n
      · rw [if_neg hh]
        exact Rel.bind (Rel.pure _) fun n => key n
    exact wp_mono (hrel _ f r) (fun _ _ _ h => Or.inl h) (fun _ _ _ h => Or.inl h) (fun _ _ h => Or.inl h)

theorem Enum.back {f f' : Flash} {r r' : Ram} (h : Enum f r f' r') (hg : r'.enumerates) : r.enumerates :=
  hg.imp h.nRp h.slots

theorem init_not : ¬ Ram.init.enumerates := by
  rintro (h | h)
  · exact h rfl
  · exact h rfl

/-- An operation after which an enumeration can be continued begins it, or does not interrupt it. -/
theorem enum_step (s : St) (op : Op) (env : Env) (h : (step x s op env).1.ram.enumerates) :
    (s.ram.enumerates ∧ op.powers = false) ∨ Begins x s op := by
  have frame : ∀ {α : Type} (m : M α) (g : α → Out) (s0 : St), Rel Enum m → (exec m g s0 env).1.ram.enumerates → s0.ram.enumerates := by
    intro α m g s0 hm
    exact exec_wp (P := fun p : St × Out => p.1.ram.enumerates → s0.ram.enumerates) (A := fun _ => True) (fun _ => trivial)
      (hm _ _ _) (fun _ _ _ h => h.back) (fun _ _ _ h => h.back) (fun _ _ _ h => h.back) (fun _ _ _ h => absurd h init_not)
  have cbor : ∀ (i : In) (q : Req), Rel Enum (handle x i q) → (step x s (.cbor i q) env).1.ram.enumerates → s.ram.enumerates := by
    intro i q hm
    exact cbor_wp (s := s) (i := i) (q := q) (env := env) (P := fun p : St × Out => p.1.ram.enumerates → s.ram.enumerates)
      (A := fun _ => True) (fun _ => trivial) (hm _ _ _) (fun _ _ _ h hg => h.back hg) (fun _ _ _ h hg => h.back hg)
      (fun _ _ _ h hg => h.back hg) (fun _ _ _ h => absurd h init_not)
  cases op with
  | powerOn i => exact absurd (frame (install i false) (fun _ => .done) ⟨s.flash, Ram.init⟩ (en_install i false) h) init_not
  | u2f i q => exact Or.inl ⟨frame (u2f x i q) .u2f s (en_u2f x i q) h, rfl⟩
  | adminReset i => exact Or.inl ⟨frame (install i true) (fun _ => .done) s (en_install i true) h, rfl⟩
  | installKey k => exact Or.inl ⟨frame (installKeyM k) (fun _ => .done) s (by unfold installKeyM; rels (enums)) h, rfl⟩
  | installCert k => exact Or.inl ⟨frame (installCertM k) (fun _ => .done) s (by unfold installCertM; rels (enums)) h, rfl⟩
  | writeSm2 k => exact Or.inl ⟨frame (writeSm2M k) (fun _ => .done) s (by unfold writeSm2M; rels (enums)) h, rfl⟩
  | cbor i q =>
    have keep : Rel Enum (handle x i q) → (s.ram.enumerates ∧ (Op.cbor i q).powers = false) ∨ Begins x s (.cbor i q) :=
      fun hm => Or.inl ⟨cbor i q hm h, rfl⟩
    cases q with
    | cm q =>
      cases q with
      | error c => exact keep (Rel.fail _)
      | ok q =>
        revert h
        refine cbor_wp (s := s) (i := i) (q := .cm (.ok q)) (env := env) (P := fun p : St × Out => p.1.ram.enumerates →
          (s.ram.enumerates ∧ (Op.cbor i (.cm (.ok q))).powers = false) ∨ Begins x s (.cbor i (.cm (.ok q))))
          (A := fun _ => True) (fun _ => trivial) (wp_begin i q s.flash (aged i s.ram)) ?_ ?_ ?_ ?_
        · rintro _ f r (h | h) hg
          · exact Or.inl ⟨h.back hg, rfl⟩
          · exact Or.inr ⟨i, q, rfl, h.1, h.2⟩
        · rintro _ f r (h | h) hg
          · exact Or.inl ⟨h.back hg, rfl⟩
          · exact Or.inr ⟨i, q, rfl, h.1, h.2⟩
        · rintro _ f r (h | h) hg
          · exact Or.inl ⟨h.back hg, rfl⟩
          · exact Or.inr ⟨i, q, rfl, h.1, h.2⟩
        · rintro f r _ hg
          exact absurd hg init_not
    | mc q => exact keep (en_makeCredential x i q)
    | ga q => exact keep (en_getAssertion x i q)
    | gna => exact keep (en_getNext x i)
    | cp q => exact keep (en_clientPin x i q)
    | lb q => exact keep (en_largeBlobs x i q)
    | reset => exact keep (by show Rel Enum (resetData i); unfold resetData; rels (first | exact en_install i true | enums))
    | _ => exact keep (by unfold handle; rels (first | exact en_same same_hasPin | exact en_same (same_wait _ _) | enums))

/-- A history from `s` in which an enumeration was begun with a valid token, and the device not powered on since. -/
def EnumBegun (x : Ext) (s : St) (ops : List (Op × Env)) : Prop :=
  ∃ pre op e post, ops = pre ++ (op, e) :: post ∧ Begins x (run x s pre).1 op ∧ ∀ o ∈ post, o.1.powers = false

theorem run_cons (s : St) (op : Op) (e : Env) (ops : List (Op × Env)) :
    (run x s ((op, e) :: ops)).1 = (run x (step x s op e).1 ops).1 := rfl

theorem enum_run (ops : List (Op × Env)) (s : St) (h : (run x s ops).1.ram.enumerates) :
    (s.ram.enumerates ∧ ∀ o ∈ ops, o.1.powers = false) ∨ EnumBegun x s ops := by
  induction ops generalizing s with
  | nil => exact Or.inl ⟨h, fun o ho => absurd ho (List.not_mem_nil)⟩
  | cons o ops ih =>
    obtain ⟨op, e⟩ := o
    have h' : (run x (step x s op e).1 ops).1.ram.enumerates := by
      rw [run_cons] at h
      exact h
    rcases ih (step x s op e).1 h' with ⟨h1, h2⟩ | ⟨pre, op', e', post, h1, h2, h3⟩
    · rcases enum_step s op e h1 with ⟨h3, h4⟩ | h3
      · refine Or.inl ⟨h3, ?_⟩
        intro o ho
        rcases List.mem_cons.mp ho with rfl | ho
        · exact h4
        · exact h2 o ho
      · exact Or.inr ⟨[], op, e, ops, rfl, h3, h2⟩
    · refine Or.inr ⟨(op, e) :: pre, op', e', post, by rw [h1]; rfl, ?_, h3⟩
      rw [run_cons]
      exact h2

theorem wp_nextRp {G : Prop} {f : Flash} {r : Ram} (q : CmReq) (hG : r.enumerates → G) :
    wp (fun _ => True) (cmNextRp q) (fun _ _ _ => G) (fun _ _ _ => True) (fun _ _ => True) f r := by
  unfold cmNextRp
  apply wp_bind
  apply wp_get
  apply wp_ite <;> intro h
  · exact wp_bind (wp_mod (wp_fail trivial))
  apply wp_bind
  apply wp_mod
  wzeta
  by_cases hn : r.cm.nRp = 0
  · rw [hn]
    apply wp_bind
    rw [Nat.zero_sub]
    apply wp_pure
    exact wp_throw trivial
  · exact wp_mono (wp_true _) (fun _ _ _ _ => hG (Or.inl hn)) (fun _ _ _ _ => trivial) (fun _ _ _ => trivial)

theorem lowest_zero (n : Nat) : lowest 0#64 n = none := by
  induction n with
  | zero => rfl
  | succ n ih =>
    unfold lowest
    rw [ih]
    simp

theorem wp_nextCred {G : Prop} {f : Flash} {r : Ram} (q : CmReq) (hG : r.enumerates → G) :
    wp (fun _ => True) (cmNextCred x q) (fun _ _ _ => G) (fun _ _ _ => True) (fun _ _ => True) f r := by
  by_cases hn : r.cm.slots = 0#64
  · unfold cmNextCred
    apply wp_bind
    apply wp_get
    apply wp_ite <;> intro h
    · exact wp_bind (wp_mod (wp_fail trivial))
    apply wp_bind
    apply wp_mod
    unfold cmCred
    apply wp_bind
    apply wp_get
    wzeta
    rw [hn, lowest_zero]
    exact wp_bind (wp_mod (wp_fail trivial))
  · exact wp_mono (wp_true _) (fun _ _ _ _ => hG (Or.inr hn)) (fun _ _ _ _ => trivial) (fun _ _ _ => trivial)

/-- The get-next subcommands of credentialManagement return something only if an enumeration was begun with a valid
pinUvAuthParam since the device was powered on.  Missing: that this was directly before. -/
theorem C73_partial (s : St) (hs : ¬ s.ram.enumerates) (ops : List (Op × Env)) (i : In) (q : CmReq) (hq : q.sub = 3 ∨ q.sub = 5)
    (env : Env) (a : Resp) (h : (step x (run x s ops).1 (.cbor i (.cm (.ok q))) env).2 = .resp a) : EnumBegun x s ops := by
  have hg : (run x s ops).1.ram.enumerates := by
    have := resp_of x i (s := (run x s ops).1) (q := .cm (.ok q)) (Q := fun _ _ _ => (run x s ops).1.ram.enumerates) ?_ h
    · obtain ⟨_, hh, _⟩ := this
      exact hh
    · show wp _ (credMgmt x i (.ok q)) _ _ _ _ _
      have hag : (aged i (run x s ops).1.ram).enumerates → (run x s ops).1.ram.enumerates := id
      generalize (run x s ops).1.ram.enumerates = G at hag
      generalize (run x s ops).1.flash = f0
      generalize aged i (run x s ops).1.ram = r0 at hag
      unfold credMgmt
      apply wp_bind
      apply wp_frame st_consistency
      intro _ f1 r1 h1
      have hr := h1.ram
      subst hr
      show wp (fun _ => True) _ _ _ _ f1 _
      wzeta
      rw [if_neg (by rcases hq with hq | hq <;> rw [hq] <;> decide)]
      apply wp_bind
      apply wp_pure
      apply wp_ite <;> intro hh
      · rcases hq with hq | hq <;> rw [hq] at hh <;> cases hh
      apply wp_ite <;> intro hh
      · rcases hq with hq | hq <;> rw [hq] at hh <;> cases hh
      apply wp_ite <;> intro hh
      · exact wp_nextRp q hag
      apply wp_ite <;> intro hh
      · rcases hq with hq | hq <;> rw [hq] at hh <;> cases hh
      apply wp_ite <;> intro hh
      · exact wp_nextCred q hag
      · rcases hq with hq | hq
        · rename_i h3 _
          exact absurd (by rw [hq]; decide) h3
        · exact absurd (by rw [hq]; decide) hh
  rcases enum_run ops s hg with h | h
  · exact absurd h.1 hs
  · exact h

/-! ### C71 -/

/-- The credBlob and the user of an assertion are those of a stored credential with the id that is returned, if the
request has no allow list or that credential is resident.  Missing: credentials that are not stored, named in an
allow list. -/
theorem C71_partial (s : St) (i : In) (q : GaReq) (env : Env) (g : GaResp)
    (h : (step x s (.cbor i (.ga (.ok q))) env).2 = .resp (.ga g)) (hq : q.allow = [] ∨ Cid.dc g.cid ≠ 0) :
    ∃ d, Live (step x s (.cbor i (.ga (.ok q))) env).1.flash d ∧ d.cid = g.cid ∧
      g.blob = (if q.credBlob then some d.blob else none) ∧
      g.userId = (if Cid.dc d.cid ≠ 0 then some d.user.id else none) := by
  obtain ⟨q', g', hq', hg, hb⟩ := ga_resp x i h
  cases hq'
  cases hg
  obtain ⟨d, f1, r1, _, _, h3, h4, _, _, _, r', hd, hr'⟩ := hb.done
  have hf : ∀ d, Live f1 d → Live (step x s (.cbor i (.ga (.ok q))) env).1.flash d := by
    rintro d ⟨recs, p, h1, h2, h5⟩
    obtain ⟨c, _, _, h6⟩ := hd.ctr
    exact ⟨recs, p, by rw [h6]; exact h1, h2, h5⟩
  have hl : Live f1 d := by
    by_cases ha : q.allow = []
    · rw [← h4] at ha
      obtain ⟨recs, kh, h5, h6, _, _, _, h7, _⟩ := hd.chosen.found ha
      obtain ⟨h8, _, h9⟩ := h7 h3
      rw [h3] at h6
      have hm : r'.ga.list.getD 0 0 ∈ matching recs r1.ga.req.rpHash r1.ga.uv := by
        rw [← h8]
        cases hc : r'.ga.list with
        | nil => exact absurd hc h9
        | cons a l => exact List.mem_cons_self
      obtain ⟨d', h10, h11, _⟩ := mem_matching.mp hm
      rw [h10] at h6
      cases h6
      exact ⟨recs, _, h5, h10, h11⟩
    · rcases hq with hq | hq
      · exact absurd hq ha
      · rw [← h4] at ha
        obtain ⟨_, _, e, hal, _⟩ := hd.chosen.named ha
        rcases hal.src with ⟨h5, h6⟩ | ⟨_, h6⟩
        · rw [hd.cid, h5] at hq
          exact absurd h6 hq
        · exact h6
  refine ⟨d, hf d hl, hd.cid.symm, ?_, ?_⟩
  · rw [hd.blob, h4]
  · rw [hd.userId]
    simp

section
open Toy

/-- makeCredential with a credBlob. -/
def mcBlob (rp : Bytes) (u : User) (b : Bytes) : Req :=
  .mc (.ok { mcReq rp u .yes 1 (some (auth cdh)) with credBlob := some b })
/-- The ids of the credentials made in a history. -/
def made (s : St) (ops : List (Op × Env)) : List Bytes :=
  (run ext s ops).2.filterMap fun o => match o with
    | .resp (.mc m) => m.ad.att
    | _ => none
/-- Of `rpB`: a resident credential, another that replaces it, and one that is not resident; of `rpA`: a resident
credential with a credBlob. -/
def leaking : List (Op × Env) := histN
  [(21000, 0, getToken pin1 1 none), (21001, 1, mcBlob rpB user1 [1, 1, 1]),
   (22000, 0, getToken pin1 1 none), (22001, 2, mcBlob rpB user1 [2, 2]),
   (23000, 0, getToken pin1 1 none), (23001, 3, mc rpB user2 .no 1 (some (auth cdh))),
   (24000, 0, getToken pin1 1 none), (24001, 4, mcBlob rpA user2 [9, 9, 9])]
/-- getAssertion for `rpB` that names the credential that was replaced and the one that is not resident. -/
def leak : Req := .ga (.ok { gaReq rpB [(made withPin1 leaking).getD 0 [], (made withPin1 leaking).getD 2 []] .absent none with
  credBlob := true })

/-- An assertion for one relying party carries the credBlob of a credential of another. -/
theorem C71_refuted :
    (∃ d, Live (run ext withPin1 leaking).1.flash d ∧ Cid.rp d.cid = rpA ∧ d.blob = [9, 9, 9]) ∧
    ∃ g, (step ext (run ext withPin1 leaking).1 (.cbor (env 25000) leak) fine).2 = .resp (.ga g) ∧
      g.ad.rp = rpB ∧ Cid.rp g.cid = rpB ∧ g.blob = some [9, 9, 9] := by
  constructor
  · have h : ((rdRecs (run ext withPin1 leaking).1.flash).bind (·[1]?)).any
        (fun d => decide (Cid.rp d.cid = rpA ∧ d.blob = [9, 9, 9] ∧ d.deleted = false)) = true := by decide +kernel
    cases h1 : rdRecs (run ext withPin1 leaking).1.flash with
    | none => rw [h1] at h; cases h
    | some recs =>
      rw [h1, Option.bind_some] at h
      cases h2 : recs[1]? with
      | none => rw [h2] at h; cases h
      | some d =>
        rw [h2, Option.any_some, decide_eq_true_eq] at h
        exact ⟨d, ⟨recs, 1, h1, h2, h.2.2⟩, h.1, h.2.1⟩
  · exact of_asserted (p := fun g => g.ad.rp = rpB ∧ Cid.rp g.cid = rpB ∧ g.blob = some [9, 9, 9]) (by decide +kernel)

/-- The hypotheses of C71_partial are met: with and without an allow list. -/
example : (asserted (step ext (run ext withPin1 leaking).1 (.cbor (env 25000) (.ga (.ok { gaReq rpA [] .absent none with
    credBlob := true }))) fine).2).any (fun g => decide (g.blob = some [9, 9, 9])) = true := by decide +kernel
example : (asserted (step ext (run ext withPin1 leaking).1 (.cbor (env 25000) (.ga (.ok
    { gaReq rpA [(made withPin1 leaking).getD 3 []] .absent none with credBlob := true }))) fine).2).any
    (fun g => decide (g.blob = some [9, 9, 9] ∧ Cid.dc g.cid ≠ 0)) = true := by decide +kernel

/-- A credentialManagement command without a valid pinUvAuthParam. -/
def unauthed (sub : Byte) : Req := .cm (.ok
  { sub := sub, params := [], rpHash := rpA, cid := [], user := user1, proto := 1, pinAuth := List.replicate 16 0 })

/-- The owner has begun to enumerate the relying parties, `rpB` first. -/
def owner : List (Op × Env) := leaking ++ histN [(30000, 0, getToken pin1 4 none), (30001, 0, cm 2 [] [])]
/-- Then, without any valid pinUvAuthParam: a begin command, which is refused, and an unknown subcommand. -/
def intruder : List (Op × Env) := histN [(40000, 0, .info), (40001, 0, unauthed 2), (40002, 0, unauthed 8)]

/-- The enumeration is continued without a token: after commands that interrupt it, none of which is authenticated,
the next relying party is returned. -/
theorem C73_refuted :
    (run ext (run ext withPin1 owner).1 intruder).2 = [.resp (.info true), .err Code.pinAuthInvalid, .resp .empty] ∧
    (step ext (run ext (run ext withPin1 owner).1 intruder).1 (.cbor (env 40003) (unauthed 3)) fine).2 = .resp (.rp [0x72] rpA none) := by
  decide +kernel

/-- On a new device the same commands read memory that is not initialised. -/
theorem C73_uninit :
    (run ext produced (intruder ++ histN [(40003, 0, unauthed 3)])).2.getLast? = some (.ub .uninit) := by
  decide +kernel

/-- An enumeration that is begun and continued as intended. -/
example : ¬ produced.ram.enumerates ∧ (run ext withPin1 owner).1.ram.enumerates := by
  constructor
  · rintro (h | h)
    · exact h (by decide +kernel)
    · exact h (by decide +kernel)
  · left; decide +kernel
example : (step ext (run ext withPin1 owner).1 (.cbor (env 30002) (unauthed 3)) fine).2 = .resp (.rp [0x72] rpA none) := by
  decide +kernel
end

end Verif.Ctap
