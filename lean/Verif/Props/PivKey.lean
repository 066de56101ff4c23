import Verif.Lemmas.PivUse
/-
C98: what PIV computes comes from the key of the slot the host names; the public key it gives out is that key's; and the
key stays until it is replaced.
-/
set_option linter.unusedSimpArgs false
namespace Verif.Piv
open Cmd Verif.Spec.Piv Verif.KeyFile Verif.Spec.Key
open Verif.Key (KeyMat)

variable {A : Fault → Prop} {x : Ext} {i : In} {f : Flash} {r : Ram}

theorem anyFault_all (env : Env) : env.all anyFault := fun _ => trivial

theorem pre_alg {c : Apdu.Capdu} {r : Ram} : (pre c r).alg = r.alg ∧ (pre c r).admin = r.admin ∧
    (pre c r).pin = r.pin ∧ (pre c r).consumed = r.consumed := by
  unfold pre; repeat' split
  all_goals exact ⟨rfl, rfl, rfl, rfl⟩

/-- A command of the first interindustry class reaches its handler; every other class is refused. -/
theorem process_or {Q E X} (hw : wp A (dispatch x i) Q E X f (pre i.c r)) (hE : ∀ f' r', E (.sw 0x6E00) f' r') :
    wp A (process x i) Q E X f r := by
  by_cases h : i.c.cla = 0 ∨ i.c.cla = 0x10 ∧ i.c.ins = 0xDB
  · exact process_disp h hw
  · unfold process
    apply wp_ite <;> intro hc
    · exact wp_throw (hE _ _)
    · simp at hc; exact absurd (by grind) h

/-! ### The key that is used -/

/-- **C98 (which key).** Whenever GENERAL AUTHENTICATE for a slot is answered with 9000, the slot holds a key of the type
named by P1, the command data are a template asking for a signature of a challenge or for a key agreement with a point,
and the answer is exactly what the key of that slot makes of the value the host sent. For Ed25519 and X25519 the proof
needs a challenge as long as the private key (see `C98_refuted`). -/
theorem C98_right_key_partial (s : St) (i : In) (env : Env) (sl : Slot) (d : Bytes) (hi : IsUse i sl)
    (h : (step x s (.apdu i) env).2 = .reply (.resp d 0x9000)) :
    ∃ r k m l, s.ram = some r ∧ HasKey s.flash sl k m ∧ Names r.alg i.c.p1 m.type ∧ Template i.c.data l ∧
      ((∃ ch sg, AsksSign l ch ∧ d = answer m.type.isRsa (if m.type.isRsa then x.cr.sig m.type else sg.length) sg ∧
          (m.type.isRsa = true ∨ m.type.isWei = true ∨ ch.length = x.cr.priv m.type → Computes x m.type k ch sg)) ∨
       (∃ pt z, AsksEcdh l pt ∧ d = answer false (x.cr.priv m.type) z ∧ AgreesOn x m.type k pt z)) := by
  obtain ⟨f, o⟩ := s
  cases o with
  | none => cases h
  | some r =>
    have h : (exec (process x i) f r env).2 = .reply (.resp d 0x9000) := h
    have hw : wp anyFault (process x i) (fun b _ _ => Yields (UsedAs x i f r.alg sl) b)
        (fun b _ _ => Yields (UsedAs x i f r.alg sl) b) (fun _ _ => True) f r := by
      apply process_or
      · rw [show dispatch x i = genAuth x i by simp [dispatch, hi.1]]
        exact genAuth_key pre_alg.1 hi.2
      · exact fun _ _ => yields_bad (bad_sw (by decide))
    rcases exec_of_wp (P := fun o _ _ => match o with | .cut => True | .done b => Yields (UsedAs x i f r.alg sl) b) hw
      (anyFault_all env) with ⟨f', r', e, _⟩ | ⟨f', r', a, e, ha⟩
    · rw [e] at h; cases h
    · rw [e] at h
      cases h
      obtain ⟨k, m, l, h1, h2, h3, h4⟩ := ha d rfl
      rcases h4 with ⟨ch, h5, sg, h6, h7, h8⟩ | ⟨pt, h5, z, h6, h7, h8⟩
      · exact ⟨r, k, m, l, rfl, h1, names_of h3 h1.2 (by intro e; rw [e] at h6; rcases h6 with h6 | h6 <;> cases h6), h2,
          .inl ⟨ch, sg, h5, h8, h7⟩⟩
      · exact ⟨r, k, m, l, rfl, h1, names_of h3 h1.2 h6, h2, .inr ⟨pt, z, h5, h8, h7⟩⟩

theorem keyType_real {a : Alg} {id : Byte} {t : KTy} (h : Names a id t) : keyType a id ≠ .none ∧ keyType a id ≠ .tdea := by
  unfold Names at h
  rcases h with ⟨rfl, _⟩ | ⟨rfl, _⟩ | ⟨rfl, _⟩ | ⟨h0, h1, h⟩
  · exact ⟨(by intro e; cases e), (by intro e; cases e)⟩
  · exact ⟨(by intro e; cases e), (by intro e; cases e)⟩
  · exact ⟨(by intro e; cases e), (by intro e; cases e)⟩
  · simp only [List.mem_cons, List.not_mem_nil, or_false, not_or] at h1
    obtain ⟨h1, h2, h3, h4, h5⟩ := h1
    unfold keyType
    rcases h with ⟨rfl, _⟩ | ⟨rfl, _⟩ | ⟨rfl, _⟩ | ⟨rfl, _⟩ | ⟨rfl, _⟩ | ⟨rfl, _⟩ <;>
      simp only [h0, h1, h2, h3, h4, h5, beq_iff_eq, if_false, bne_iff_ne, ne_eq, not_false_eq_true, if_true,
        Bool.false_eq_true, beq_self_eq_true] <;> repeat' split
    all_goals first | exact ⟨(by decide), (by decide)⟩ | simp_all

theorem keyType_names {a : Alg} {id : Byte} {t : KTy} (h : ∀ t', Names a id t' ↔ t' = t) : keyType a id = t :=
  have hr := keyType_real ((h t).2 rfl)
  (h _).1 (names_of rfl hr.1 hr.2)

theorem names_kind {a : Alg} {id : Byte} {t : KTy} (h : Names a id t) :
    (t.isEcc = true ∨ t.isRsa = true) ∧ t ≠ .secp521r1 ∧ t ≠ .none ∧ t ≠ .tdea := by
  unfold Names at h
  rcases h with ⟨_, rfl⟩ | ⟨_, rfl⟩ | ⟨_, rfl⟩ | ⟨_, _, ⟨_, rfl⟩ | ⟨_, rfl⟩ | ⟨_, rfl⟩ | ⟨_, rfl⟩ | ⟨_, rfl⟩ | ⟨_, rfl⟩⟩ <;>
    exact ⟨by decide, by decide, by decide, by decide⟩

/-- A right PIN is accepted. -/
theorem verify_live (hx : x.Ok) {d : Bytes} (hv : IsVerify i d) (hp : Shows f.pin d) {q : Pin.PinFile} {n : UInt8}
    (hq : f.pin = some q) (hn : q.dflt = some n) {env : Env} (he : env.all noFault) :
    step x ⟨f, some r⟩ (.apdu i) env = (⟨{ f with pin := some { q with ctr := some n } },
      some { (pre i.c r) with pin := ⟨true⟩, consumed := false }⟩, .reply (.resp [] 0x9000)) := by
  obtain ⟨h1, h2, h3, h4, h5, h6⟩ := hv
  apply step_known he
  apply process_disp (.inl h1)
  rw [show dispatch x i = verify x i by simp [dispatch, h2]]
  unfold verify
  apply wp_ite <;> intro h
  · rw [h3] at h; exact absurd h (by decide)
  apply wp_ite <;> intro h
  · rw [h4] at h; exact absurd h (by decide)
  apply wp_ite <;> intro h
  · rw [h3] at h; exact absurd h (by decide)
  apply wp_ite <;> intro h
  · simp [Apdu.Capdu.lc, h5, h6] at h
  apply wp_ite <;> intro h
  · simp [Apdu.Capdu.lc, h5, h6] at h
  apply wp_bind
  refine wp_mono (check_wp .pin hx (by rw [h5]; omega)) ?_ ?_ ?_
  · intro _ f' r' hc
    cases hc with
    | right hs q' d' hq' hd' =>
      have hq' : f.pin = some q' := hq'
      rw [hq] at hq'
      cases hq'
      rw [hn] at hd'
      cases hd'
      apply wp_bind; apply wp_mod
      exact wp_pure ⟨rfl, rfl, rfl⟩
  · intro e f' r' hc
    obtain ⟨q2, n2, hq2, hc2, hn2, _, hd2⟩ := hp
    have noio : ¬ Pin.Io noFault ((partF .pin).get f) := by
      rintro (h | h)
      · cases h
      · rcases h q hq with h | h
        · rw [hq] at hq2; cases hq2
          rw [hc2] at h; cases h
        · rw [hn] at h; cases h
    cases hc with
    | io h => exact noio h
    | blocked q' hq' hc' =>
      have hq' : f.pin = some q' := hq'
      rw [hq2] at hq'; cases hq'
      rw [hc2] at hc'; cases hc'
      exact hn2 rfl
    | wrong q' n' hq' hc' hz hm sw hsw =>
      have hq' : f.pin = some q' := hq'
      rw [hq2] at hq'; cases hq'
      rw [h5] at hm
      exact hm hd2
    | rightIo hs h => exact noio h
  · rintro f' _ ⟨_, h⟩; cases h

/-- What the slot answers to a template, with a key. -/
def Answers (x : Ext) (m : Meta) (k : KeyMat) (l : List Item) (d : Bytes) : Prop :=
  (∃ ch sg, AsksSign l ch ∧ Computes x m.type k ch sg ∧
    (m.type.isRsa = true ∨ m.type.isWei = true ∨ ch.length = x.cr.priv m.type) ∧
    d = answer m.type.isRsa (if m.type.isRsa then x.cr.sig m.type else sg.length) sg) ∨
  (∃ pt z, AsksEcdh l pt ∧ AgreesOn x m.type k pt z ∧ d = answer false (x.cr.priv m.type) z)

theorem use_live {sl : Slot} {k : KeyMat} {m : Meta} {l : List Item} {d : Bytes} (hc : i.c.cla = 0) (hi : IsUse i sl)
    (hk : HasKey f sl k m) (hp : ∀ t, Names r.alg i.c.p1 t ↔ t = m.type) (hT : Template i.c.data l) (htc : TouchGiven i m)
    (hal : Allowed m r) (ha : Answers x m k l d) (hb : x.cr.priv m.type ≤ i.tail.length) {env : Env} (he : env.all noFault) :
    ∃ r', step x ⟨f, some r⟩ (.apdu i) env = (⟨f, some r'⟩, .reply (.resp d 0x9000)) := by
  obtain ⟨t, ht, hloc⟩ := tlvs_run hT
  have hkind := names_kind ((hp _).2 rfl)
  obtain ⟨pa, _, pp, pc⟩ := pre_alg (c := i.c) (r := r)
  have hal' : ∀ lt, Allowed m { pre i.c r with lastTouch := lt } := fun lt =>
    ⟨fun h => by rw [← hal.1 h]; exact congrArg (·.validated) pp, fun h => by rw [← hal.2 h]; exact pc⟩
  have hw : wp noFault (process x i) (fun a f' r' => a = .resp d 0x9000 ∧ f' = f) (fun _ _ _ => False) (fun _ _ => False) f r := by
    apply process_disp (.inl hc)
    rw [show dispatch x i = genAuth x i by simp [dispatch, hi.1]]
    refine slot_path hi.2 hk (by rw [pa]; exact keyType_names hp) hT ht htc fun lt => ?_
    rcases ha with ⟨ch, sg, h1, h2, h3, rfl⟩ | ⟨pt, z, h1, h2, rfl⟩
    · obtain ⟨pr, post, h4, h5⟩ := caseOf_sign hloc h1
      rw [h4]
      exact wp_mono (sign_live hk.1 h5 h2 (hal' lt) hkind.1 h3 hb) (fun _ _ _ h => ⟨h.1, h.2.1⟩) (fun _ _ _ h => h)
        (fun _ _ h => h)
    · obtain ⟨pr, post, h4, h5⟩ := caseOf_ecdh hloc h1
      rw [h4]
      exact wp_mono (ecdh_live hk.1 h5 h2 (hal' lt) hkind.2.2.2) (fun _ _ _ h => ⟨h.1, h.2.1⟩) (fun _ _ _ h => h)
        (fun _ _ h => h)
  rcases exec_of_wp (P := fun o f' _ => match o with | .cut => False | .done a => a = .resp d 0x9000 ∧ f' = f)
    (wp_mono hw (fun _ _ _ h => h) (fun _ _ _ h => h.elim) (fun _ _ h => h)) he with ⟨f', r', _, h⟩ | ⟨f', r', a, e, rfl, rfl⟩
  · exact h.elim
  · exact ⟨r', e⟩

/-- **C98 (the key answers).** After VERIFY with the right PIN, a GENERAL AUTHENTICATE whose P1 names the type of the key
in the slot, with a template asking for something the key can compute, and with touch given where the key asks for it,
is answered with exactly that; nothing in flash changes but the PIN counter. The answer needs room in the command buffer
behind the data. -/
theorem C98_answers (hx : x.Ok) (f : Flash) (r : Ram) (v i : In) (ev ei : Env) (hev : ev.all noFault) (hei : ei.all noFault)
    (pin : Bytes) (hv : IsVerify v pin) (hp : Shows f.pin pin) (q : Pin.PinFile) (n : UInt8) (hq : f.pin = some q)
    (hn : q.dflt = some n) (sl : Slot) (k : KeyMat) (m : Meta) (l : List Item) (d : Bytes) (hc : i.c.cla = 0)
    (hi : IsUse i sl) (hk : HasKey f sl k m) (ht : ∀ t, Names r.alg i.c.p1 t ↔ t = m.type) (hT : Template i.c.data l)
    (htc : TouchGiven i m) (ha : Answers x m k l d) (hb : x.cr.priv m.type ≤ i.tail.length) :
    ∃ r1 r2, step x ⟨f, some r⟩ (.apdu v) ev =
        (⟨{ f with pin := some { q with ctr := some n } }, some r1⟩, .reply (.resp [] 0x9000)) ∧
      step x ⟨{ f with pin := some { q with ctr := some n } }, some r1⟩ (.apdu i) ei =
        (⟨{ f with pin := some { q with ctr := some n } }, some r2⟩, .reply (.resp d 0x9000)) := by
  obtain ⟨r2, h2⟩ := use_live (f := { f with pin := some { q with ctr := some n } })
    (r := { (pre v.c r) with pin := ⟨true⟩, consumed := false }) hc hi hk ht hT htc ⟨fun _ => rfl, fun _ => rfl⟩ ha hb hei
  exact ⟨_, r2, verify_live hx hv hp hq hn hev, h2⟩

/-- **C98 (keys without PIN).** A key whose policy is never to ask for the PIN answers at once. -/
theorem C98_answers_freely (f : Flash) (r : Ram) (i : In) (ei : Env) (hei : ei.all noFault)
    (sl : Slot) (k : KeyMat) (m : Meta) (l : List Item) (d : Bytes) (hm : m.pin = 1) (hc : i.c.cla = 0)
    (hi : IsUse i sl) (hk : HasKey f sl k m) (ht : ∀ t, Names r.alg i.c.p1 t ↔ t = m.type) (hT : Template i.c.data l)
    (htc : TouchGiven i m) (ha : Answers x m k l d) (hb : x.cr.priv m.type ≤ i.tail.length) :
    ∃ r', step x ⟨f, some r⟩ (.apdu i) ei = (⟨f, some r'⟩, .reply (.resp d 0x9000)) :=
  use_live hc hi hk ht hT htc ⟨fun h => absurd hm h, fun h => by rw [hm] at h; exact absurd h (by decide)⟩ ha hb hei

/-! ### Public keys -/

theorem lenEnc_one {n : Nat} (h : n < 128) : LenEnc n [lo n] := .one n h
theorem lenEnc_three {n : Nat} (h : n < 65536) : LenEnc n [0x82, hi n, lo n] := .three n h

theorem tlv_one {tag v : Bytes} {n : Nat} (e : v.length = n) (h : n < 128) : Tlv tag v (tag ++ [lo n] ++ v) :=
  .mk _ (by rw [e]; exact lenEnc_one h)

theorem tlv_three {tag v : Bytes} {n : Nat} (e : v.length = n) (h : n < 65536) :
    Tlv tag v (tag ++ [0x82, hi n, lo n] ++ v) := .mk _ (by rw [e]; exact lenEnc_three h)

/-- The encoding of public keys is well-formed. -/
theorem encodePub_tlv (hz : PubSizes x) {t : KTy} {k : KeyMat} {tag p : Bytes} (hk : PivKey t k)
    (h : encodePub x.cr t k = some p) : PublicKey x tag t k (tag ++ p) := by
  obtain ⟨h1, h2, h3⟩ := hk
  have hl := hz.len t k
  unfold PublicKey PubElems
  by_cases hr : t.isRsa = true
  · simp only [if_pos hr]
    have he := h3 hr
    have hs := hz.rsa t hr
    have e : p = [0x82, hi (6 + x.cr.pub t + 4), lo (6 + x.cr.pub t + 4), 0x81, 0x82, hi (x.cr.pub t), lo (x.cr.pub t)] ++
        x.cr.pubOf t k ++ [0x82, 4] ++ k.e := by
      cases t <;> first | (cases hr; done) | exact (Option.some.inj h).symm
    refine ⟨_, ⟨_, _, tlv_three hl (by omega), tlv_one he (by omega), rfl⟩, ?_⟩
    have := tlv_three (tag := tag) (v := ([0x81] ++ [0x82, hi (x.cr.pub t), lo (x.cr.pub t)] ++ x.cr.pubOf t k) ++
      ([0x82] ++ [lo 4] ++ k.e)) (n := 6 + x.cr.pub t + 4) (by simp [hl, he]; omega) (by omega)
    rw [e]
    have e4 : lo 4 = 4 := rfl
    simpa [List.append_assoc, e4] using this
  · simp only [if_neg hr]
    have hecc := h1.resolve_right hr
    have hs := hz.ecc t hecc h2
    unfold point
    by_cases hw : t.isWei = true
    · simp only [if_pos hw]
      have e : p = [lo (x.cr.pub t + 3), 0x86, lo (x.cr.pub t + 1), 0x04] ++ x.cr.pubOf t k := by
        cases t <;> first | (cases hw; done) | exact absurd rfl h2 | exact (Option.some.inj h).symm
      refine ⟨_, tlv_one (n := x.cr.pub t + 1) (by simp [hl]) (by omega), ?_⟩
      have := tlv_one (tag := tag) (v := [0x86] ++ [lo (x.cr.pub t + 1)] ++ 4 :: x.cr.pubOf t k) (n := x.cr.pub t + 3)
        (by simp [hl]) (by omega)
      rw [e]
      simpa [List.append_assoc] using this
    · simp only [if_neg hw]
      have e : p = [lo (x.cr.pub t + 2), 0x86, lo (x.cr.pub t)] ++
          (if t = .x25519 then x.cr.swap (x.cr.pubOf t k) else x.cr.pubOf t k) := by
        cases t <;> first | (cases hecc; done) | exact absurd rfl hw | exact (Option.some.inj h).symm
      have hl' : (if t = .x25519 then x.cr.swap (x.cr.pubOf t k) else x.cr.pubOf t k).length = x.cr.pub t := by
        split
        · rw [hz.swap, hl]
        · exact hl
      refine ⟨_, tlv_one (n := x.cr.pub t) hl' (by omega), ?_⟩
      have := tlv_one (tag := tag) (v := [0x86] ++ [lo (x.cr.pub t)] ++
        (if t = .x25519 then x.cr.swap (x.cr.pubOf t k) else x.cr.pubOf t k)) (n := x.cr.pub t + 2) (by simp [hl']) (by omega)
      rw [e]
      simpa [List.append_assoc] using this

/-- **C98 (answers are templates).** An answer is 7C { 82 { value } }, if the value is as long as announced. -/
theorem C98_answer_layout (rsa : Bool) (n : Nat) (v : Bytes) (hv : v.length = n) (hn : if rsa then n + 4 < 65536 else n + 2 < 128) :
    ∃ e, Tlv [0x82] v e ∧ Tlv [0x7C] e (answer rsa n v) := by
  unfold answer
  cases rsa with
  | true =>
    simp only [if_true] at hn ⊢
    refine ⟨_, tlv_three hv (by omega), ?_⟩
    have := tlv_three (tag := [0x7C]) (v := [0x82] ++ [0x82, hi n, lo n] ++ v) (n := n + 4) (by simp [hv]) hn
    simpa [List.append_assoc] using this
  | false =>
    simp only [Bool.false_eq_true, if_false] at hn ⊢
    refine ⟨_, tlv_one hv (by omega), ?_⟩
    have := tlv_one (tag := [0x7C]) (v := [0x82] ++ [lo n] ++ v) (n := n + 2) (by simp [hv]) hn
    simpa [List.append_assoc] using this

/-- The key after an operation that only sets its policies is the same key. -/
def SameKey (k k' : KeyMat) : Prop := k' = { k with pinPolicy := k'.pinPolicy, touchPolicy := k'.touchPolicy }

theorem step_outcome {P : Outcome Reply → Flash → Ram → Prop} {env : Env} {d : Bytes}
    (hw : wp anyFault (process x i) (fun a => P (.done a)) (fun a => P (.done a)) (P .cut) f r)
    (h : (step x ⟨f, some r⟩ (.apdu i) env).2 = .reply (.resp d 0x9000)) :
    ∃ f' r', step x ⟨f, some r⟩ (.apdu i) env = (⟨f', some r'⟩, .reply (.resp d 0x9000)) ∧ P (.done (.resp d 0x9000)) f' r' := by
  rcases exec_of_wp hw (anyFault_all env) with ⟨f', r', e, _⟩ | ⟨f', r', a, e, ha⟩
  · have e : step x ⟨f, some r⟩ (.apdu i) env = _ := e
    rw [e] at h; cases h
  · have e : step x ⟨f, some r⟩ (.apdu i) env = _ := e
    rw [e] at h
    cases h
    exact ⟨f', r', e, ha⟩

/-- **C98 (GENERATE).** A GENERATE ASYMMETRIC KEY PAIR answered with 9000 has put a key made by the generator, of the type
the host named, into the slot and nowhere else, marked as generated, with the policies the host gave (or the old ones);
the answer is 7F49 with the public key of the key that is now in the slot. -/
theorem C98_generated (hz : PubSizes x) (s : St) (i : In) (env : Env) (sl : Slot) (alg : Byte) (ps : List HostPolicy)
    (hi : IsGenerate i sl alg ps) (hg : ∀ t k, i.gen t = some k → t.isRsa = true → k.e.length = 4) (d : Bytes)
    (h : (step x s (.apdu i) env).2 = .reply (.resp d 0x9000)) :
    ∃ r k k0 old m, s.ram = some r ∧ Names r.alg alg m.type ∧ i.gen m.type = some k0 ∧ SameKey k0 k ∧
      (s.flash.keys sl).bind (·.info) = some old ∧
      m.origin = 1 ∧ m.pin = pinAfter old.pin ps ∧ m.touch = touchAfter old.touch ps ∧ m.usage = old.usage ∧
      HasKey (step x s (.apdu i) env).1.flash sl k m ∧
      (step x s (.apdu i) env).1.flash =
        { s.flash with keys := fun s' => if s' = sl then some ⟨k, some m⟩ else s.flash.keys s' } ∧
      PublicKey x [0x7F, 0x49] m.type k d := by
  obtain ⟨f, o⟩ := s
  cases o with
  | none => cases h
  | some r =>
    obtain ⟨f', r', e, hP⟩ := step_outcome (P := fun o f' r' => ∀ d, o = .done (.resp d 0x9000) →
      ∃ k m t key0 p, f.keys sl = some ⟨k, some m⟩ ∧ keyType r.alg alg = t ∧ t ≠ .none ∧
        (t.isEcc = true ∨ t.isRsa = true) ∧ i.gen t = some key0 ∧ encodePub x.cr t (genKey key0 m ps) = some p ∧
        f' = f.setKey sl (some ⟨genKey key0 m ps, some (newMeta m t 1 ps)⟩) ∧ d = [0x7F, 0x49] ++ p) (by
      apply process_or
      · rw [show dispatch x i = generate x i by simp [dispatch, hi.2.1]]
        refine wp_mono (generate_key hi) ?_ ?_ ?_
        · rintro a f' r' ⟨k, m, t, key0, p, h1, h2, h3, h4, h5, h6, h7, h8, rfl⟩ d e
          cases e
          rw [pre_alg.1] at h2
          exact ⟨k, m, t, key0, p, h1, h2, h3, h4, h5, h6, h7, rfl⟩
        · rintro a f' r' ⟨hb, _⟩ d e
          cases e
          exact (yields_bad (P := fun _ => False) hb d rfl).elim
        · intro _ _ _ d e; cases e
      · intro _ _ d e; cases e) h
    obtain ⟨k, m, t, key0, p, h1, h2, h3, h4, h5, h6, rfl, rfl⟩ := hP d rfl
    have hn := names_of h2 h3 (by rintro rfl; rcases h4 with h | h <;> cases h)
    refine ⟨r, genKey key0 m ps, key0, m, newMeta m t 1 ps, rfl, hn, h5, rfl, by simp [h1], rfl, rfl, rfl, rfl, ?_, ?_, ?_⟩
    · rw [e]; exact ⟨by simp [Flash.setKey], h3⟩
    · rw [e]; rfl
    · exact encodePub_tlv hz ⟨h4, (names_kind hn).2.1, fun hr => hg t key0 h5 hr⟩ h6

/-- **C98 (GENERATE answers).** With administrative rights, a slot file, an algorithm that names one type, a generator
that succeeds and no storage error, GENERATE is answered with 9000. -/
theorem C98_generate_answers (f : Flash) (r : Ram) (i : In) (env : Env) (he : env.all noFault) (sl : Slot) (alg : Byte)
    (ps : List HostPolicy) (hi : IsGenerate i sl alg ps) (ha : r.admin = true) (k : KeyMat) (m : Meta)
    (hk : f.keys sl = some ⟨k, some m⟩) (t : KTy) (ht : ∀ t', Names r.alg alg t' ↔ t' = t) (k0 : KeyMat)
    (hg : i.gen t = some k0) : ∃ d, (step x ⟨f, some r⟩ (.apdu i) env).2 = .reply (.resp d 0x9000) := by
  have hkt := keyType_names ht
  have hkind := names_kind ((ht t).2 rfl)
  have hw : wp noFault (process x i) (fun a _ _ => ∃ d, a = .resp d 0x9000) (fun _ _ _ => False) (fun _ _ => False) f r := by
    apply process_disp (.inl hi.1)
    rw [show dispatch x i = generate x i by simp [dispatch, hi.2.1]]
    refine wp_mono (generate_key hi) ?_ ?_ ?_
    · rintro a f' r' ⟨_, _, _, _, p, _, _, _, _, _, _, _, _, rfl⟩
      exact ⟨_, rfl⟩
    · rintro a f' r' ⟨_, hh⟩
      have : noFault .fail := hh k m k0 (by rw [pre_alg.2.1]; exact ha) hk (by rw [pre_alg.1, hkt]; exact hkind.1)
        (by rw [pre_alg.1, hkt]; exact hg)
      cases this
    · intro _ _ h; cases h
  rcases exec_of_wp (P := fun o _ _ => match o with | .cut => False | .done a => ∃ d, a = .resp d 0x9000)
    (wp_mono hw (fun _ _ _ h => h) (fun _ _ _ h => h.elim) (fun _ _ h => h)) he with ⟨f', r', _, h⟩ | ⟨f', r', a, e, d, rfl⟩
  · exact h.elim
  · exact ⟨d, congrArg Prod.snd e⟩

/-- **C98 (GET METADATA).** What GET METADATA tells of a slot, if it is answered with 9000, is the algorithm, the policies,
the origin and the public key of the key in that slot; it is answered if the slot holds a key and nothing fails. -/
theorem C98_metadata (hz : PubSizes x) (s : St) (i : In) (env : Env) (sl : Slot) (hi : IsMeta i (slotId sl)) (d : Bytes)
    (h : (step x s (.apdu i) env).2 = .reply (.resp d 0x9000)) :
    ∃ r k m, s.ram = some r ∧ HasKey s.flash sl k m ∧ (step x s (.apdu i) env).1.flash = s.flash ∧
      (PivKey m.type k → ∃ p, PublicKey x [0x04] m.type k p ∧
        d = [0x01, 1, algByte r.alg m.type] ++ [0x02, 2, m.pin, m.touch] ++ [0x03, 1, m.origin] ++ p) := by
  obtain ⟨f, o⟩ := s
  cases o with
  | none => cases h
  | some r =>
    obtain ⟨f', r', e, hP⟩ := step_outcome (P := fun o f' r' => ∀ d, o = .done (.resp d 0x9000) →
      f' = f ∧ ∃ k m p, HasKey f sl k m ∧ encodePub x.cr m.type k = some p ∧
        d = [1, 1, algByte r.alg m.type, 2, 2, m.pin, m.touch, 3, 1, m.origin, 4] ++ p) (by
      apply process_or
      · rw [show dispatch x i = getMetadata x i.c by simp [dispatch, hi.2.1]]
        refine wp_mono (meta_key hi) ?_ ?_ ?_
        · rintro a f' r' ⟨rfl, rfl, k, m, p, h1, h2, rfl⟩ d e
          cases e
          rw [pre_alg.1]
          exact ⟨rfl, k, m, p, h1, h2, rfl⟩
        · rintro a f' r' ⟨hb, _⟩ d e
          cases e
          exact (yields_bad (P := fun _ => False) hb d rfl).elim
        · intro _ _ _ d e; cases e
      · intro _ _ d e; cases e) h
    obtain ⟨rfl, k, m, p, h1, h2, rfl⟩ := hP d rfl
    refine ⟨r, k, m, rfl, h1, by rw [e], fun hk => ⟨[0x04] ++ p, encodePub_tlv hz hk h2, by simp⟩⟩

theorem C98_metadata_answers (f : Flash) (r : Ram) (i : In) (env : Env) (he : env.all noFault) (sl : Slot)
    (hi : IsMeta i (slotId sl)) (k : KeyMat) (m : Meta) (hk : HasKey f sl k m) (ht : PivKey m.type k) :
    ∃ d, (step x ⟨f, some r⟩ (.apdu i) env).2 = .reply (.resp d 0x9000) := by
  have hw : wp noFault (process x i) (fun a _ _ => ∃ d, a = .resp d 0x9000) (fun _ _ _ => False) (fun _ _ => False) f r := by
    apply process_disp (.inl hi.1)
    rw [show dispatch x i = getMetadata x i.c by simp [dispatch, hi.2.1]]
    refine wp_mono (meta_key hi) ?_ ?_ ?_
    · rintro a f' r' ⟨_, _, _, _, _, _, _, rfl⟩
      exact ⟨_, rfl⟩
    · rintro a f' r' ⟨_, hh⟩
      have : noFault .fail := hh k m hk ht.1
      cases this
    · intro _ _ h; cases h
  rcases exec_of_wp (P := fun o _ _ => match o with | .cut => False | .done a => ∃ d, a = .resp d 0x9000)
    (wp_mono hw (fun _ _ _ h => h) (fun _ _ _ h => h.elim) (fun _ _ h => h)) he with ⟨f', r', _, h⟩ | ⟨f', r', a, e, d, rfl⟩
  · exact h.elim
  · exact ⟨d, congrArg Prod.snd e⟩

/-! ### Imported keys -/

theorem import_step {sl : Slot} {alg : Byte} {d : Bytes} {P : KeyMat → Meta → KeyMat → Prop} (hi : IsImport i sl alg d)
    (ht : (keyType r.alg alg).isEcc = true ∨ (keyType r.alg alg).isRsa = true)
    (hp : ∀ k m, ∃ key, (Key.parsePiv (x.cr.imp (keyType r.alg alg)) (x.cr.kt (keyType r.alg alg)) (withPol k m) d).run =
      .ok (.ok key) ∧ P k m key) (ha : r.admin = true) {k0 : KeyMat} {m0 : Meta} (hk : f.keys sl = some ⟨k0, some m0⟩)
    {env : Env} (he : env.all noFault) :
    ∃ key r', P k0 m0 key ∧ step x ⟨f, some r⟩ (.apdu i) env =
      (⟨f.setKey sl (some ⟨key, some ⟨keyType r.alg alg, 2, m0.usage, key.pinPolicy, key.touchPolicy⟩⟩), some r'⟩, .reply (.resp [] 0x9000)) := by
  have hw : wp noFault (process x i) (fun a f' _ => ∃ key, P k0 m0 key ∧
      f' = f.setKey sl (some ⟨key, some ⟨keyType r.alg alg, 2, m0.usage, key.pinPolicy, key.touchPolicy⟩⟩) ∧ a = .resp [] 0x9000)
      (fun _ _ _ => False) (fun _ _ => False) f r := by
    apply process_disp (.inl hi.1)
    rw [show dispatch x i = importKey x i.c by simp [dispatch, hi.2.1]]
    have pa := (pre_alg (c := i.c) (r := r)).1
    refine wp_mono (import_key (P := P) hi (by rw [pa]; exact ht) (by rw [pa]; exact hp)) ?_ ?_ ?_
    · rintro a f' r' ⟨k, m, key, h1, h2, h3, _, rfl⟩
      rw [hk] at h1
      cases h1
      rw [pa] at h3
      exact ⟨key, h2, h3, rfl⟩
    · rintro a f' r' ⟨_, hh⟩
      have : noFault .fail := hh k0 m0 (by rw [pre_alg.2.1]; exact ha) hk
      cases this
    · intro _ _ h; cases h
  rcases exec_of_wp (P := fun o f' _ => match o with
    | .cut => False
    | .done a => ∃ key, P k0 m0 key ∧ f' = f.setKey sl (some ⟨key, some ⟨keyType r.alg alg, 2, m0.usage, key.pinPolicy, key.touchPolicy⟩⟩) ∧ a = .resp [] 0x9000)
    (wp_mono hw (fun _ _ _ h => h) (fun _ _ _ h => h.elim) (fun _ _ h => h)) he with
    ⟨f', r', _, h⟩ | ⟨f', r', a, e, key, h1, rfl, rfl⟩
  · exact h.elim
  · exact ⟨key, r', h1, e⟩

/-- **C98 (IMPORT, elliptic curves).** IMPORT of a private key that the curve accepts is answered with 9000; afterwards the
slot holds exactly that private key, of the type named, marked as imported, with the policies given. -/
theorem C98_import_ec (f : Flash) (r : Ram) (i : In) (env : Env) (he : env.all noFault) (sl : Slot) (alg : Byte) (t : KTy)
    (ht : ∀ t', Names r.alg alg t' ↔ t' = t) (hr : t.isRsa = false) (hx : t ≠ .x25519) (pri : Bytes) (ps : List HostPolicy)
    (hps : ∀ p ∈ ps, p.valid) (hl : pri.length = x.cr.priv t) (h256 : x.cr.priv t < 256)
    (hv : (x.cr.imp t).eccVerify pri = true) (hc : (x.cr.imp t).eccComplete pri = true)
    (hi : IsImport i sl alg ([0x06, UInt8.ofNat pri.length] ++ pri ++ ps.flatMap HostPolicy.enc)) (ha : r.admin = true)
    (k0 : KeyMat) (m0 : Meta) (hk : f.keys sl = some ⟨k0, some m0⟩) :
    ∃ k m r', k.pri = pri ∧ m = ⟨t, 2, m0.usage, pinAfter m0.pin ps, touchAfter m0.touch ps⟩ ∧
      step x ⟨f, some r⟩ (.apdu i) env = (⟨{ f with keys := fun s => if s = sl then some ⟨k, some m⟩ else f.keys s }, some r'⟩,
        .reply (.resp [] 0x9000)) := by
  have hkt := keyType_names ht
  subst hkt
  obtain ⟨key, r', hP, e⟩ := import_step (f := f) (r := r) (x := x)
    (P := fun k m key => key = { withPol k m with pri := pri, pinPolicy := pinAfter m.pin ps, touchPolicy := touchAfter m.touch ps }) hi
    (names_kind ((ht _).2 rfl)).1
    (fun k m => ⟨_, Key.C67_piv_ec (x.cr.imp _) (x.cr.kt _) (withPol k m) pri ps hr (by simpa [Crypto.kt] using hx) hl h256 hv hc hps, rfl⟩)
    ha hk he
  subst hP
  exact ⟨_, _, r', rfl, rfl, e⟩

theorem parse_curve (e : Key.Ext) (ty : Key.KType) (k0 : KeyMat) (tag : Byte) (d : Bytes) (ps : List HostPolicy)
    (hrsa : ty.rsa = false) (htag : tag = 0x06 ∨ (ty.ed25519 = true ∧ tag = 0x07) ∨ (ty.x25519 = true ∧ tag = 0x08))
    (hd : d.length = ty.priv) (h256 : ty.priv < 256) (hv : e.eccVerify (if ty.x25519 then e.swapEndian d else d) = true)
    (hc : e.eccComplete (if ty.x25519 then e.swapEndian d else d) = true) (hp : ∀ p ∈ ps, p.valid) :
    (Key.parsePiv e ty k0 ([tag, UInt8.ofNat d.length] ++ d ++ ps.flatMap HostPolicy.enc)).run
      = .ok (.ok { k0 with pri := if ty.x25519 then e.swapEndian d else d, pinPolicy := pinAfter k0.pinPolicy ps,
                           touchPolicy := touchAfter k0.touchPolicy ps }) := by
  have hn : (UInt8.ofNat d.length).toNat = ty.priv := by rw [Verif.Apdu.toNat_ofNat8]; omega
  generalize hM : [tag, UInt8.ofNat d.length] ++ d ++ ps.flatMap HostPolicy.enc = M
  have hML : ¬ M.length < ty.priv + 2 := by subst hM; simp; omega
  have h0 : rd M 0 = .ok tag := Key.rd_at (pre := []) (rest := UInt8.ofNat d.length :: (d ++ ps.flatMap HostPolicy.enc)) (by subst hM; simp) rfl
  have h1 : rd M 1 = .ok (UInt8.ofNat d.length) := Key.rd_at (pre := [tag]) (rest := d ++ ps.flatMap HostPolicy.enc) (by subst hM; simp) rfl
  have h2 : rdRange M 2 ty.priv = .ok d :=
    Key.rdRange_at (pre := [tag, UInt8.ofNat d.length]) (rest := ps.flatMap HostPolicy.enc) (by subst hM; simp) rfl hd.symm
  have hdrop : M.drop (2 + ty.priv) = ps.flatMap HostPolicy.enc := by
    subst hM; rw [List.drop_left' (by simp; omega)]
  have ht : (tag != 0x06 && !(ty.ed25519 && tag == 0x07) && !(ty.x25519 && tag == 0x08)) = false := by
    rcases htag with rfl | ⟨h, rfl⟩ | ⟨h, rfl⟩
    · rfl
    · simp [h]
    · simp [h]
  have hkey : Key.parsePivKey e ty k0 M = pure ({ k0 with pri := if ty.x25519 then e.swapEndian d else d }, 2 + ty.priv) := by
    unfold Key.parsePivKey
    simp only [hrsa, Bool.false_eq_true, if_false, if_neg hML, h0, h1, h2, Key.liftM_ok, LawfulMonad.pure_bind, hn,
      bne_self_eq_false, hv, hc, Bool.not_true, ht]
  unfold Key.parsePiv
  rw [hkey]
  simp only [LawfulMonad.pure_bind, hdrop, Key.policies_enc _ ps hp]
  rfl

/-- **C98 (IMPORT, all curves).** The same for every elliptic curve with its own tags (06 for all, 07 for Ed25519, 08 for
X25519): the slot holds the private key that was sent; the host sends X25519 keys in the byte order of RFC 7748, the slot holds
them in the other one. -/
theorem C98_import_curve (f : Flash) (r : Ram) (i : In) (env : Env) (he : env.all noFault) (sl : Slot) (alg : Byte) (t : KTy)
    (ht : ∀ t', Names r.alg alg t' ↔ t' = t) (hr : t.isRsa = false) (tag : Byte)
    (htag : tag = 0x06 ∨ (t = .ed25519 ∧ tag = 0x07) ∨ (t = .x25519 ∧ tag = 0x08)) (pri : Bytes) (ps : List HostPolicy)
    (hps : ∀ p ∈ ps, p.valid) (hl : pri.length = x.cr.priv t) (h256 : x.cr.priv t < 256) (held : Bytes)
    (hheld : held = if t = .x25519 then (x.cr.imp t).swapEndian pri else pri)
    (hv : (x.cr.imp t).eccVerify held = true) (hc : (x.cr.imp t).eccComplete held = true)
    (hi : IsImport i sl alg ([tag, UInt8.ofNat pri.length] ++ pri ++ ps.flatMap HostPolicy.enc)) (ha : r.admin = true)
    (k0 : KeyMat) (m0 : Meta) (hk : f.keys sl = some ⟨k0, some m0⟩) :
    ∃ k m r', k.pri = held ∧ m = ⟨t, 2, m0.usage, pinAfter m0.pin ps, touchAfter m0.touch ps⟩ ∧
      step x ⟨f, some r⟩ (.apdu i) env = (⟨{ f with keys := fun s => if s = sl then some ⟨k, some m⟩ else f.keys s }, some r'⟩,
        .reply (.resp [] 0x9000)) := by
  have hkt := keyType_names ht
  subst hkt
  have hh : held = if (x.cr.kt (keyType r.alg alg)).x25519 = true then (x.cr.imp (keyType r.alg alg)).swapEndian pri else pri := by
    rw [hheld]
    simp [Crypto.kt]
  obtain ⟨key, r', hP, e⟩ := import_step (f := f) (r := r) (x := x)
    (P := fun k m key => key = { withPol k m with pri := held, pinPolicy := pinAfter m.pin ps, touchPolicy := touchAfter m.touch ps }) hi
    (names_kind ((ht _).2 rfl)).1
    (fun k m => ⟨_, by
      rw [hh] at hv hc ⊢
      exact parse_curve (x.cr.imp _) (x.cr.kt _) (withPol k m) tag pri ps hr (by simpa [Crypto.kt] using htag) hl h256 hv hc hps, rfl⟩)
    ha hk he
  subst hP
  exact ⟨_, _, r', rfl, rfl, e⟩

/-- **C98 (IMPORT, RSA).** The same for RSA keys given by their primes and the CRT values. -/
theorem C98_import_rsa (f : Flash) (r : Ram) (i : In) (env : Env) (he : env.all noFault) (sl : Slot) (alg : Byte) (t : KTy)
    (ht : ∀ t', Names r.alg alg t' ↔ t' = t) (hr : t.isRsa = true) (p q dp dq qinv lp lq ldp ldq lqinv : Bytes)
    (ps : List HostPolicy) (hps : ∀ p ∈ ps, p.valid) (hlp : LenEnc p.length lp) (hlq : LenEnc q.length lq)
    (hldp : LenEnc dp.length ldp) (hldq : LenEnc dq.length ldq) (hlqinv : LenEnc qinv.length lqinv)
    (hp : p.length = x.cr.priv t) (hq : q.length = x.cr.priv t) (hdp : dp.length ≤ x.cr.priv t) (hdq : dq.length ≤ x.cr.priv t)
    (hqinv : qinv.length ≤ x.cr.priv t) (hpo : (x.cr.imp t).primeOk p = true) (hqo : (x.cr.imp t).primeOk q = true)
    (hi : IsImport i sl alg ([1] ++ lp ++ p ++ [2] ++ lq ++ q ++ [3] ++ ldp ++ dp ++ [4] ++ ldq ++ dq
        ++ [5] ++ lqinv ++ qinv ++ ps.flatMap HostPolicy.enc)) (ha : r.admin = true)
    (k0 : KeyMat) (m0 : Meta) (hk : f.keys sl = some ⟨k0, some m0⟩) :
    ∃ k m r', k.e = [0, 1, 0, 1] ∧ k.p = p ∧ k.q = q ∧ Padded (x.cr.priv t) dp k.dp ∧ Padded (x.cr.priv t) dq k.dq ∧
      Padded (x.cr.priv t) qinv k.qinv ∧ m = ⟨t, 2, m0.usage, pinAfter m0.pin ps, touchAfter m0.touch ps⟩ ∧
      step x ⟨f, some r⟩ (.apdu i) env = (⟨{ f with keys := fun s => if s = sl then some ⟨k, some m⟩ else f.keys s }, some r'⟩,
        .reply (.resp [] 0x9000)) := by
  have hkt := keyType_names ht
  subst hkt
  obtain ⟨key, r', ⟨h1, h2, h3, h4, h5, h6, h7, h8⟩, e⟩ := import_step (f := f) (r := r) (x := x) hi
    (names_kind ((ht _).2 rfl)).1
    (fun k m => Key.C67_piv_rsa (x.cr.imp _) (x.cr.kt _) (withPol k m) p q dp dq qinv lp lq ldp ldq lqinv ps hr hlp hlq hldp hldq
      hlqinv hp hq hdp hdq hqinv hpo hqo hps)
    ha hk he
  refine ⟨key, _, r', h1, h2, h3, h4, h5, h6, ?_, e⟩
  rw [h7, h8]
  rfl

/-! ### Keys stay -/

/-- Nothing in the history replaces the key of the slot; no read fails while switching on. -/
def NoRekey (sl : Slot) (h : List (Op × Env)) : Prop :=
  ∀ e ∈ h, ¬ Rekeys sl e.1 ∧ ∀ rnd, e.1 = .boot rnd → e.2.all cutsOnly

/-- **C98 (keys stay).** Whatever else is done, with any storage errors and power losses, the key of a slot stays the same
until GENERATE or IMPORT for the slot, or a reset. -/
theorem C98_kept (sl : Slot) (h : List (Op × Env)) : ∀ (s : St) (log : List (St × Op × Out)), NoRekey sl h →
    s.flash.alg.isSome = true → (run x s log h).1.flash.keys sl = s.flash.keys sl ∧ (run x s log h).1.flash.alg.isSome = true := by
  induction h with
  | nil => intro s log _ ha; exact ⟨rfl, ha⟩
  | cons e h ih =>
    obtain ⟨op, env⟩ := e
    intro s log hn ha
    have hk : KeyKept sl s.flash (step x s op env).1.flash := by
      obtain ⟨h1, h2⟩ := hn (op, env) (List.mem_cons_self ..)
      by_cases hb : ∃ rnd, op = .boot rnd
      · obtain ⟨rnd, rfl⟩ := hb
        rw [boot_kept (h2 rnd rfl) ha]
        exact ⟨rfl, id⟩
      · exact step_kept h1 fun rnd e => hb ⟨rnd, e⟩
    obtain ⟨h1, h2⟩ := ih (step x s op env).1 ((s, op, (step x s op env).2) :: log)
      (fun e he => hn e (List.mem_cons_of_mem _ he)) (hk.2 ha)
    exact ⟨h1.trans hk.1, h2⟩

/-- **C98 (the public key is of the key that signs).** If GENERATE for a slot gave out the public key `d₁`, and later, with no
GENERATE or IMPORT for that slot and no reset in between, but with anything else, power losses and storage errors included,
the slot answers with `d₂`, then one key has `d₁` as its public key and `d₂` as its signature or shared secret. -/
theorem C98_public_key_partial (hz : PubSizes x) (s : St) (ha : s.flash.alg.isSome = true) (g : In) (eg : Env) (sl : Slot)
    (alg : Byte) (ps : List HostPolicy) (hg : IsGenerate g sl alg ps)
    (hgen : ∀ t k, g.gen t = some k → t.isRsa = true → k.e.length = 4) (d₁ : Bytes)
    (h₁ : (step x s (.apdu g) eg).2 = .reply (.resp d₁ 0x9000)) (h : List (Op × Env)) (hn : NoRekey sl h)
    (i : In) (env : Env) (hi : IsUse i sl) (d₂ : Bytes)
    (h₂ : (step x (run x (step x s (.apdu g) eg).1 [] h).1 (.apdu i) env).2 = .reply (.resp d₂ 0x9000)) :
    ∃ k t l, PublicKey x [0x7F, 0x49] t k d₁ ∧ Template i.c.data l ∧
      ((∃ ch sg, AsksSign l ch ∧ d₂ = answer t.isRsa (if t.isRsa then x.cr.sig t else sg.length) sg ∧
          (t.isRsa = true ∨ t.isWei = true ∨ ch.length = x.cr.priv t → Computes x t k ch sg)) ∨
       (∃ pt z, AsksEcdh l pt ∧ d₂ = answer false (x.cr.priv t) z ∧ AgreesOn x t k pt z)) := by
  obtain ⟨r, k, k0, old, m, _, _, _, _, _, _, _, _, _, hk, hf, hpub⟩ := C98_generated hz s g eg sl alg ps hg hgen d₁ h₁
  have ha' : (step x s (.apdu g) eg).1.flash.alg.isSome = true := by rw [hf]; exact ha
  have hkept := (C98_kept (x := x) sl h _ [] hn ha').1
  obtain ⟨r', k', m', l, _, hk', _, hT, hh⟩ := C98_right_key_partial _ i env sl d₂ hi h₂
  have e := hk'.1
  rw [hkept, hk.1] at e
  cases e
  exact ⟨k, m.type, l, hpub, hT, hh⟩

end Verif.Piv
