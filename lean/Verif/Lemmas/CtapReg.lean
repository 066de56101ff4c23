import Verif.Spec.CtapReg
import Verif.Props.CtapExclude
/-
The command makeCredential when the file system works: its answer, case by case.
-/
namespace Verif.Ctap
open Cmd Verif.Spec.Reg

variable {x : Ext} {i : In}

/-- The search for the slot of a new credential. -/
theorem foldUp_place (rp uid : Bytes) (l : List Dc) (i : Nat) (fd : Option Nat) :
    match l.findIdx? fun d => !d.deleted && Cid.rp d.cid == rp && d.user.id == uid with
    | some k => (foldUp (slotBody rp uid) l i fd).2 = i + k ∧ k < l.length
    | none => (foldUp (slotBody rp uid) l i fd).2 = i + l.length ∧
        (foldUp (slotBody rp uid) l i fd).1 = fd.or ((l.findIdx? (·.deleted)).map (i + ·)) := by
  induction l generalizing i fd with
  | nil => simp [foldUp]
  | cons b l ih =>
    unfold foldUp slotBody
    by_cases hd : b.deleted = true
    · rw [if_pos hd]
      have ih := ih (i + 1) (some (fd.getD i))
      rw [List.findIdx?_cons, List.findIdx?_cons, if_neg (by simp [hd]), if_pos hd]
      revert ih
      show (match l.findIdx? _ with
        | some k => (foldUp (slotBody rp uid) l (i + 1) (some (fd.getD i))).2 = _ ∧ _
        | none => _) → _
      cases l.findIdx? fun d => !d.deleted && Cid.rp d.cid == rp && d.user.id == uid with
      | some k =>
        rintro ⟨h1, h2⟩
        exact ⟨h1.trans (show i + 1 + k = i + (k + 1) by omega), show k + 1 < (b :: l).length by simp; omega⟩
      | none =>
        rintro ⟨h1, h2⟩
        refine ⟨h1.trans (by simp; omega), h2.trans ?_⟩
        cases fd <;> rfl
    · rw [if_neg hd]
      have hd : b.deleted = false := by simpa using hd
      by_cases hs : Cid.rp b.cid = rp ∧ b.user.id = uid
      · rw [List.findIdx?_cons, if_pos (by simp [hd, hs.1, hs.2])]
        have : (rp == Cid.rp b.cid && uid == b.user.id) = true := by simp [hs.1, hs.2]
        simp only [this]
        exact ⟨rfl, by simp⟩
      · have : (rp == Cid.rp b.cid && uid == b.user.id) = false := by
          rw [Bool.and_eq_false_iff]
          rcases Classical.not_and_iff_not_or_not.mp hs with h | h
          · exact Or.inl (by simpa using fun e => h e.symm)
          · exact Or.inr (by simpa using fun e => h e.symm)
        simp only [this]
        have ih := ih (i + 1) fd
        rw [List.findIdx?_cons, List.findIdx?_cons, if_neg (by
          intro h
          simp [hd] at h
          exact hs h), if_neg (by simp [hd])]
        revert ih
        show (match l.findIdx? _ with
          | some k => (foldUp (slotBody rp uid) l (i + 1) fd).2 = _ ∧ _
          | none => _) → _
        cases l.findIdx? fun d => !d.deleted && Cid.rp d.cid == rp && d.user.id == uid with
        | some k =>
          rintro ⟨h1, h2⟩
          exact ⟨h1.trans (show i + 1 + k = i + (k + 1) by omega), show k + 1 < (b :: l).length by simp; omega⟩
        | none =>
          rintro ⟨h1, h2⟩
          refine ⟨h1.trans (by simp; omega), h2.trans ?_⟩
          cases l.findIdx? (·.deleted) with
          | none => rfl
          | some k =>
            show fd.or (some (i + 1 + k)) = fd.or (some (i + (k + 1)))
            rw [show i + 1 + k = i + (k + 1) by omega]

/-- The slot that is chosen. -/
def slotOf (l : List Dc) (rp uid : Bytes) : Nat :=
  let e := foldUp (slotBody rp uid) l 0 none
  if e.2 == l.length then e.1.getD e.2 else e.2

theorem slot_place (l : List Dc) (new : Dc) (hl : l.length ≤ 64) :
    (slotOf l (Cid.rp new.cid) new.user.id < 64 → place l new = some (setAt l (slotOf l (Cid.rp new.cid) new.user.id) new)) ∧
    (64 ≤ slotOf l (Cid.rp new.cid) new.user.id → place l new = none) := by
  have h := foldUp_place (Cid.rp new.cid) new.user.id l 0 none
  unfold place slotOf
  dsimp only
  revert h
  cases l.findIdx? fun d => !d.deleted && Cid.rp d.cid == Cid.rp new.cid && d.user.id == new.user.id with
  | some k =>
    rintro ⟨h1, h2⟩
    rw [h1, Nat.zero_add, if_neg (by simp; omega)]
    refine ⟨fun _ => ?_, fun h => by omega⟩
    unfold setAt
    rw [if_pos h2]
  | none =>
    rintro ⟨h1, h2⟩
    rw [h1, h2, Nat.zero_add, if_pos (by simp)]
    cases hd : l.findIdx? (·.deleted) with
    | some k =>
      have hk : k < l.length := (List.findIdx?_eq_some_iff_getElem.mp hd).1
      simp only [Option.map_some, Option.none_or, Option.getD_some, Nat.zero_add]
      refine ⟨fun _ => ?_, fun h => by omega⟩
      unfold setAt
      rw [if_pos hk]
    | none =>
      simp only [Option.map_none, Option.none_or, Option.getD_none]
      refine ⟨fun h => ?_, fun h => by rw [if_neg (by omega)]⟩
      rw [if_pos h]
      unfold setAt
      rw [if_neg (by omega)]

theorem full_place (d : Facts) (q : McReq) (cid : Bytes) (hl : d.recs.length ≤ 64) (hr : Cid.rp cid = q.rpHash) :
    full d q = true ↔ place d.recs (stored q cid) = none := by
  unfold full place
  show _ ↔ (match d.recs.findIdx? fun c => !c.deleted && Cid.rp c.cid == Cid.rp cid && c.user.id == q.user.id with
    | some p => _
    | none => _) = none
  rw [hr]
  constructor
  · intro h
    simp only [Bool.and_eq_true, List.all_eq_true, beq_iff_eq] at h
    have h1 : d.recs.findIdx? (fun c => !c.deleted && Cid.rp c.cid == q.rpHash && c.user.id == q.user.id) = none := by
      rw [List.findIdx?_eq_none_iff]
      intro c hc
      have := h.2 c hc
      revert this
      cases c.deleted <;> cases Cid.rp c.cid == q.rpHash <;> cases c.user.id == q.user.id <;> decide
    have h2 : d.recs.findIdx? (·.deleted) = none := by
      rw [List.findIdx?_eq_none_iff]
      intro c hc
      have := h.2 c hc
      revert this
      cases c.deleted <;> simp
    rw [h1, h2]
    dsimp only
    rw [if_neg (by omega)]
  · intro h
    cases h1 : d.recs.findIdx? (fun c => !c.deleted && Cid.rp c.cid == q.rpHash && c.user.id == q.user.id) with
    | some p => rw [h1] at h; cases h
    | none =>
      rw [h1] at h
      dsimp only at h
      cases h2 : d.recs.findIdx? (·.deleted) with
      | some p => rw [h2] at h; cases h
      | none =>
        rw [h2] at h
        dsimp only at h
        by_cases hl' : d.recs.length < 64
        · rw [if_pos hl'] at h; cases h
        · simp only [Bool.and_eq_true, List.all_eq_true, beq_iff_eq]
          refine ⟨by omega, fun c hc => ?_⟩
          have e1 := List.findIdx?_eq_none_iff.mp h1 c hc
          have e2 := List.findIdx?_eq_none_iff.mp h2 c hc
          revert e1 e2
          cases c.deleted <;> cases Cid.rp c.cid == q.rpHash <;> cases c.user.id == q.user.id <;> decide

/-! ### The parts of the command -/

section
variable {f : Flash} {r : Ram} {E : Err → Flash → Ram → Prop} {X : Flash → Ram → Prop}

theorem ok_pin {b : Bool} {Q : Bool → Flash → Ram → Prop} (hp : ∃ p, rdCert (·.pin) f = some p ∧ (b = true ↔ p ≠ []))
    (h : Q b f r) : wp allOk hasPin Q E X f r := by
  obtain ⟨p, h1, h2⟩ := hp
  apply ok_hasPin
  · intro h3
    rw [h1] at h3
    have : b = true := h2.mpr fun e => h3 (by rw [e])
    subst this
    exact h
  · intro h3
    rw [h1] at h3
    cases h3
    cases b with
    | false => exact h
    | true => exact absurd rfl (h2.mp rfl)

theorem ok_wait {c : Byte} {Q : Unit → Flash → Ram → Prop} (h : touch i c = none → Q () f r)
    (h' : ∀ e, touch i c = some e → E (.code e) f r) : wp allOk (wait i c) Q E X f r := by
  unfold wait
  unfold touch at h h'
  by_cases hn : i.nfc = true
  · rw [if_pos hn] at h ⊢
    exact wp_pure (h rfl)
  · rw [if_neg hn] at h h' ⊢
    cases hp : i.presence with
    | ok =>
      rw [hp] at h
      exact wp_pure (h rfl)
    | cancel =>
      rw [hp] at h'
      exact wp_fail (h' _ rfl)
    | timeout =>
      rw [hp] at h'
      exact wp_fail (h' _ rfl)

theorem ok_emptyAuth {b : Bool} {a : Option Bytes} {Q : Unit → Flash → Ram → Prop}
    (hp : ∃ p, rdCert (·.pin) f = some p ∧ (b = true ↔ p ≠ [])) (h : a ≠ some [] → Q () f r)
    (h' : a = some [] → E (.code ((touch i 0x27).getD (if b then 0x31 else 0x35))) f r) :
    wp allOk (emptyAuth i a) Q E X f r := by
  unfold emptyAuth
  by_cases ha : a = some []
  · rw [if_pos (by simp [ha])]
    have h' := h' ha
    apply wp_bind
    apply ok_wait
    · intro ht
      have ht : touch i 0x27 = none := ht
      rw [ht] at h'
      apply wp_bind
      apply ok_pin hp
      apply wp_fail
      cases b <;> exact h'
    · intro e ht
      have ht : touch i 0x27 = some e := ht
      rw [ht] at h'
      exact h'
  · rw [if_neg (by simpa using ha)]
    exact wp_pure (h ha)

theorem ok_verifyToken {m a : Bytes} {p : Nat} {Q : Bool → Flash → Ram → Prop}
    (h1 : r.tok.inUse = false → Q false f r)
    (h2 : r.tok.inUse = true → Q (verifyMac x r.tok.token m a p) f { r with tok := { r.tok with timeout := i.tick + 30000 } }) :
    wp allOk (verifyToken x i m a p) Q E X f r := by
  unfold verifyToken
  apply wp_bind
  apply wp_get
  cases hu : r.tok.inUse with
  | false => exact wp_pure (h1 hu)
  | true =>
    apply wp_bind
    apply wp_mod
    exact wp_pure (h2 hu)

theorem mac_iff {k m a : Bytes} {p : Nat} : verifyMac x k m a p = true ↔ Authenticates x k m a p := by
  unfold verifyMac Authenticates
  by_cases hp : p = 1
  · simp only [hp, beq_self_eq_true, if_true, beq_iff_eq]
    exact eq_comm
  · have : (p == 1) = false := by simpa using hp
    simp only [this, hp, if_false, Bool.false_eq_true, beq_iff_eq]
    exact eq_comm

theorem ok_mcAuth {d : Facts} {q : McReq} {Q : Bool → Flash → Ram → Prop}
    (hp : ∃ p, rdCert (·.pin) f = some p ∧ (d.pin = true ↔ p ≠ [])) (hl : r.consec = d.left) (ht : r.tok = d.tok)
    (h0 : uv d q = false → Q false f r)
    (h34 : uv d q = true → d.left = 0 → E (.code 0x34) f r)
    (h33 : uv d q = true → d.left ≠ 0 → ¬ Authorized x d.tok permMc q.rpHash q.cdh q.pinAuth (q.proto.getD 0) →
      ∀ r', E (.code 0x33) f r')
    (h1 : uv d q = true → d.left ≠ 0 → Authorized x d.tok permMc q.rpHash q.cdh q.pinAuth (q.proto.getD 0) →
      ∀ t, t.inUse = d.tok.inUse → t.up = d.tok.up → Q true f { r with tok := t }) :
    wp allOk (mcAuth x i q) Q E X f r := by
  unfold mcAuth
  apply wp_bind
  apply ok_pin hp
  unfold uv at h0 h34 h33 h1
  cases ha : q.pinAuth with
  | none =>
    rw [ha] at h0
    exact wp_pure (h0 (by simp))
  | some a =>
    rw [ha] at h0 h34 h33 h1
    simp only [Option.isSome_some, Bool.and_true] at h0 h34 h33 h1
    show wp allOk (if (!d.pin) = true then _ else _) _ _ _ _ _
    cases hpin : d.pin with
    | false => exact wp_pure (h0 hpin)
    | true =>
      have h34 := h34 hpin
      have h33 := h33 hpin
      have h1 := h1 hpin
      rw [if_neg (by simp)]
      apply wp_bind
      apply wp_get
      apply wp_bind
      apply wp_failIf
      · intro h
        exact h34 (by rw [← hl]; simpa using h)
      intro h
      have hne : d.left ≠ 0 := by rw [← hl]; simpa using h
      have h33 := h33 hne
      have h1 := h1 hne
      rw [← ht] at h33 h1
      apply wp_bind
      apply ok_verifyToken
      · intro hu
        apply wp_bind
        apply wp_failIf
        · intro _
          exact h33 (fun h => by rw [h.inUse] at hu; cases hu) _
        · intro h; cases h
      · intro hu
        apply wp_bind
        apply wp_failIf
        · intro h
          refine h33 (fun h' => ?_) _
          obtain ⟨a', e, hm⟩ := h'.mac
          cases e
          rw [mac_iff.mpr hm] at h
          cases h
        intro hmac
        have hmac : verifyMac x r.tok.token q.cdh a (q.proto.getD 0) = true := by
          cases hv : verifyMac x r.tok.token q.cdh a (q.proto.getD 0) with
          | true => rfl
          | false => rw [hv] at hmac; cases hmac
        apply wp_bind
        apply wp_failIf
        · intro h
          refine h33 (fun h' => ?_) _
          have := h'.perm
          unfold Tok.has at h
          simp at h
          exact this h
        intro hperm
        apply wp_bind
        apply wp_failIf
        · intro h
          refine h33 (fun h' => ?_) _
          have := h'.rp
          unfold Tok.rpOk at h
          cases hr : r.tok.rp with
          | none => rw [hr] at h; cases h
          | some e =>
            rw [hr] at h
            have := this e hr
            simp [this] at h
        intro hrp
        apply wp_bind
        apply wp_failIf
        · intro h
          refine h33 (fun h' => ?_) _
          unfold Tok.verifiedFlag at h
          rw [h'.inUse, h'.uv] at h
          cases h
        intro huv
        apply wp_bind
        apply wp_mod
        apply wp_pure
        refine h1 ⟨hu, ?_, ?_, ?_, ⟨a, rfl, mac_iff.mp hmac⟩⟩ _ rfl rfl
        · unfold Tok.verifiedFlag at huv
          rw [hu] at huv
          simpa using huv
        · unfold Tok.has at hperm
          simpa using hperm
        · intro e he
          unfold Tok.rpOk at hrp
          rw [he] at hrp
          simpa using hrp

theorem ok_mcExclude {d : Facts} {q : McReq} {b : Bool} {Q : Unit → Flash → Ram → Prop} (hk : rdCert (·.kh) f = some d.kh)
    (ht : (q.pinAuth.isSome && r.tok.presentFlag) = seen d q)
    (l : List Bytes) (buf : Bytes) (hl : ∀ e ∈ l, e.length = 70)
    (h0 : (¬ ∃ e ∈ l, Cid.rp e = q.rpHash ∧ Authentic x d.kh e ∧ (Cid.cp e = 3 → b = true)) → Q () f r)
    (h1 : (∃ e ∈ l, Cid.rp e = q.rpHash ∧ Authentic x d.kh e ∧ (Cid.cp e = 3 → b = true)) →
      E (.code (if seen d q then 0x19 else (touch i 0x19).getD 0x19)) f r) :
    wp allOk (mcExclude x i q b l buf) Q E X f r := by
  induction l generalizing buf with
  | nil => exact wp_pure (h0 (by rintro ⟨_, h, _⟩; cases h))
  | cons e l ih =>
    have next : ∀ buf, ¬ (Cid.rp e = q.rpHash ∧ Authentic x d.kh e ∧ (Cid.cp e = 3 → b = true)) →
        wp allOk (mcExclude x i q b l buf) Q E X f r := by
      intro buf hn
      refine ih buf (fun e he => hl e (List.mem_cons_of_mem _ he)) ?_ ?_
      · intro h
        apply h0
        rintro ⟨e', h1, h2⟩
        rcases List.mem_cons.mp h1 with rfl | h1
        · exact hn h2
        · exact h ⟨e', h1, h2⟩
      · rintro ⟨e', h1', h2⟩
        exact h1 ⟨e', List.mem_cons_of_mem _ h1', h2⟩
    unfold mcExclude
    rw [overlay_full (hl e List.mem_cons_self)]
    show wp _ (if (Cid.rp e != q.rpHash) = true then _ else _) _ _ _ _ _
    by_cases hrp : Cid.rp e = q.rpHash
    · rw [if_neg (by simp [hrp])]
      apply wp_bind
      unfold verifyKh
      apply wp_bind
      refine wp_ok_rdOr hk ?_
      by_cases ha : Authentic x d.kh e
      · rw [if_pos (by unfold Authentic at ha; simp [ha])]
        apply wp_pure
        show wp _ (if (Cid.cp e != 3 || b) = true then _ else _) _ _ _ _ _
        by_cases hc : Cid.cp e = 3 → b = true
        · rw [if_pos (by
            by_cases h3 : Cid.cp e = 3
            · simp [hc h3]
            · simp [h3])]
          have h1 := h1 ⟨e, List.mem_cons_self, hrp, ha, hc⟩
          apply wp_bind
          apply wp_get
          rw [ht]
          cases hs : seen d q with
          | true =>
            rw [hs] at h1
            exact wp_fail h1
          | false =>
            rw [hs] at h1
            apply wp_bind
            apply ok_wait
            · intro hx
              have hx : touch i 0x19 = none := hx
              rw [hx] at h1
              exact wp_fail h1
            · intro c hx
              have hx : touch i 0x19 = some c := hx
              rw [hx] at h1
              exact h1
        · rw [if_neg (by
            intro h
            apply hc
            intro h3
            rw [h3] at h
            simpa using h)]
          exact next _ fun h => hc h.2.2
      · rw [if_neg (by
          intro h
          exact ha (eq_of_beq h).symm)]
        apply wp_pure
        exact next _ fun h => ha h.2.1
    · rw [if_pos (by simp [hrp])]
      exact next _ fun h => hrp h.1

theorem ok_mcPresence {d : Facts} {q : McReq} {Q : Unit → Flash → Ram → Prop}
    (ht : (q.pinAuth.isSome && r.tok.presentFlag) = seen d q)
    (h0 : seen d q = true ∨ touch i 0x27 = none → ∀ t, Q () f { r with tok := t })
    (h1 : seen d q = false → ∀ c, touch i 0x27 = some c → E (.code c) f r) :
    wp allOk (takePresence i q.pinAuth) Q E X f r := by
  unfold takePresence
  apply wp_bind
  apply wp_get
  rw [ht]
  cases hs : seen d q with
  | true =>
    wzeta
    rw [if_pos rfl]
    apply wp_mod
    exact h0 (Or.inl hs) _
  | false =>
    wzeta
    rw [if_neg (by decide)]
    apply wp_bind
    apply ok_wait
    · intro hx
      apply wp_mod
      exact h0 (Or.inr hx) _
    · intro c hx
      exact h1 hs c hx

theorem ok_counter {n : UInt32} {c : Cert} {Q : UInt32 → Flash → Ram → Prop} (hc : f.cert = some c) (hn : c.ctr = some n)
    (h : Q (n + 1) { f with cert := some { c with ctr := some (n + 1) } } r) : wp allOk increaseCounter Q E X f r := by
  unfold increaseCounter
  apply wp_bind
  refine wp_ok_rdOr (a := n) (by unfold rdCert; rw [hc]; exact hn) ?_
  apply wp_bind
  refine wp_wr (f' := { f with cert := some { c with ctr := some (n + 1) } }) (by unfold updCert; rw [hc]; rfl) ?_ nofun nofun
  exact wp_pure h

/-- Storing a credential, in a store that is not in the middle of an update. -/
theorem ok_mcStore {q : McReq} {cid : Bytes} {l : List Dc} {ms : List Meta} {a : Attr} {Q : Unit → Flash → Ram → Prop}
    (hd : f.dc = some ⟨l, some a⟩) (hm : f.dm = some ms) (hl : l.length ≤ 64) (hr : Cid.rp cid = q.rpHash)
    (h0 : ∀ l' a' ms', place l (stored q cid) = some l' → Q () { f with dc := some ⟨l', some a'⟩, dm := some ms' } r)
    (h1 : place l (stored q cid) = none → E (.code 0x28) f r) :
    wp allOk (mcStore q cid) Q E X f r := by
  have hsl := slot_place l (stored q cid) hl
  rw [show Cid.rp (stored q cid).cid = q.rpHash from hr, show (stored q cid).user.id = q.user.id from rfl] at hsl
  unfold slotOf at hsl
  dsimp only at hsl
  have hrecs : rdRecs f = some l := by unfold rdRecs; rw [hd]; rfl
  unfold mcStore
  apply wp_bind
  refine wp_ok_rdOr (a := l.length) (by simp [hrecs]) ?_
  apply wp_bind
  refine wp_scanUp hrecs nofun nofun (by omega) ?_
  rw [List.drop_zero]
  revert hsl
  generalize foldUp (slotBody q.rpHash q.user.id) l 0 none = e
  obtain ⟨fd, p0⟩ := e
  dsimp only
  generalize (if p0 == l.length then fd.getD p0 else p0) = p
  intro hsl
  apply wp_bind
  apply wp_failIf
  · intro hp
    exact h1 (hsl.2 (by simpa using hp))
  intro hp
  have hp : p < 64 := by simpa using hp
  apply wp_bind
  refine wp_ok_rdOr (a := a) (by unfold rdAttr; rw [hd]; rfl) ?_
  apply wp_bind
  refine wp_wr (updAttr_eq hd _) ?_ nofun nofun
  apply wp_bind
  refine wp_wr (updRec_eq rfl _ _) ?_ nofun nofun
  generalize hdd : (⟨cid, q.user, false, q.lbk,
    match q.credBlob with
    | some b => if b.length ≤ 32 then b else []
    | none => []⟩ : Dc) = dn
  have hst : dn = stored q cid := by
    rw [← hdd]
    unfold stored
    congr 1
    cases q.credBlob with
    | none => rfl
    | some b =>
      show (if b.length ≤ 32 then b else []) = ((some b).filter (·.length ≤ 32)).getD []
      rw [Option.filter_some]
      by_cases hb : b.length ≤ 32
      · rw [if_pos hb, if_pos (by simpa using hb)]; rfl
      · rw [if_neg hb, if_neg (by simpa using hb)]; rfl
  rw [hst]
  apply wp_bind
  refine wp_ok_rdOr (a := ms.length) (by simp [hm]) ?_
  apply wp_bind
  refine wp_scanUp (recs := fun f => f.dm) (l := ms) (by exact hm) nofun nofun (by omega) ?_
  generalize foldUp (metaBody q.rpHash) (ms.drop 0) 0 (none, none) = e
  obtain ⟨⟨fm, m⟩, j⟩ := e
  dsimp only
  apply wp_bind
  refine wp_wr (updMeta_eq (ms := ms) (by exact hm) _ _) ?_ nofun nofun
  refine wp_wr (updAttr_eq rfl _) ?_ nofun nofun
  exact h0 _ _ _ (hsl.1 hp)

/-- What a registration leaves alone. -/
structure Rest (f f' : Flash) : Prop where
  pin : rdCert (·.pin) f' = rdCert (·.pin) f
  tries : rdCert (·.pinCtr) f' = rdCert (·.pinCtr) f
  kh : rdCert (·.kh) f' = rdCert (·.kh) f
  he : rdCert (·.he) f' = rdCert (·.he) f

theorem Rest.rfl {f : Flash} : Rest f f := ⟨Eq.refl _, Eq.refl _, Eq.refl _, Eq.refl _⟩

theorem ok_mcFinish {d : Facts} {q : McReq} {Q : Resp → Flash → Ram → Prop} (hm : ∀ k m, (x.hmac k m).length = 32)
    (hn : i.rndNonce.length = 16) (hp : q.rpHash.length = 32) {c : Cert} {a : Attr} {ms : List Meta}
    (hc : f.cert = some c) (hctr : c.ctr = some d.ctr) (hkh : c.kh = some d.kh) (hhe : c.he = some d.he) (hkey : c.key.isSome = true)
    (hd : f.dc = some ⟨d.recs, some a⟩) (hdm : f.dm = some ms) (hl : d.recs.length ≤ 64) (halg : algOk r.sm2 q.alg = true)
    (h0 : ¬ (q.lbk = true ∧ q.rk ≠ .yes) → ¬ (q.rk = .yes ∧ full d q = true) → ∀ cid, Issued x d i q cid → ∀ l', after d q cid = some l' →
      ∀ f', Rest f f' → f'.counter = some (d.ctr + 1) → rdRecs f' = some l' → Q (.mc (answer x d q cid)) f' r)
    (h2c : (q.lbk = true ∧ q.rk ≠ .yes) → E (.code 0x2C) f r)
    (h28 : ¬ (q.lbk = true ∧ q.rk ≠ .yes) → (q.rk = .yes ∧ full d q = true) → ∀ f', Rest f f' → rdRecs f' = some d.recs → E (.code 0x28) f' r) :
    wp allOk (mcFinish x i q (uv d q)) Q E X f r := by
  unfold mcFinish
  apply wp_bind
  apply wp_failIf
  · intro h
    exact h2c (by simpa using h)
  intro hlbk
  have hlbk : ¬ (q.lbk = true ∧ q.rk ≠ .yes) := by
    rintro ⟨h1, h2⟩
    rw [h1] at hlbk
    simp at hlbk
    exact h2 hlbk
  have h0 := h0 hlbk
  have h28 := h28 hlbk
  apply wp_bind
  unfold makeAuthData
  apply wp_bind
  refine ok_counter hc hctr ?_
  rw [if_pos (by
    have := (mcFlags (mcExt q) (uv d q)).1
    simpa using this)]
  apply wp_bind
  apply wp_get
  apply wp_bind
  apply wp_failIf
  · intro h
    rw [halg] at h
    cases h
  intro _
  apply wp_bind
  refine wp_ok_rdOr (a := d.kh) (by unfold rdCert; exact hkh) ?_
  apply wp_pure
  dsimp only [Option.getD_some]
  generalize hcid : makeCid x d.kh i.rndNonce (if q.rk == .yes then 1 else 0) (if q.protect == 0 then 1 else q.protect) q.rpHash q.alg = cid
  have hiss : Issued x d i q cid := by
    obtain ⟨p1, p2, p3, p4, p5, p6⟩ := makeCid_parts (x := x) (kh := d.kh) (dc := if q.rk == .yes then 1 else 0)
      (cp := if q.protect == 0 then 1 else q.protect) (alg := q.alg) hm hn hp
    have p7 := makeCid_nonce (kh := d.kh) (dc := if q.rk == .yes then 1 else 0)
      (cp := if q.protect == 0 then 1 else q.protect) (alg := q.alg) hm hn hp
    rw [hcid] at p1 p2 p3 p4 p5 p6 p7
    refine ⟨p2, p1, p3, p7, ?_, ?_, p6⟩
    · rw [p4]; cases q.rk <;> rfl
    · rw [p5]
      by_cases h : q.protect = 0
      · rw [if_pos h, if_pos (by simp [h])]
      · rw [if_neg h, if_neg (by simpa using h)]
  have h0 := fun h => h0 h cid hiss
  have tail : ∀ l' f', f'.cert = some { c with ctr := some (d.ctr + 1) } → rdRecs f' = some l' → after d q cid = some l' →
      ¬ (q.rk = .yes ∧ full d q = true) → wp allOk (do
        let _ ← Cmd.rdOr (rdCert (·.key)) (.code Code.unhandled)
        let _ ← Cmd.rdOr (rdCert (fun c => some c.data)) (.code Code.unhandled)
        let lbk ← if q.lbk then (do let k ← largeBlobKey x cid; pure (some k)) else pure none
        return Resp.mc ⟨⟨q.rpHash, 0x41 ||| (if mcExt q then 0x80 else 0) ||| (if uv d q then 0x04 else 0), d.ctr + 1, some cid⟩,
          q.credBlob.map fun b => b.length ≤ 32 && q.rk == .yes,
          if q.protect != 0 then some q.protect else none, q.hmacSecret, q.cdh, lbk⟩) Q E X f' r := by
    intro l' f' hc' hr' hl' hnf
    have hans : ∀ lbk, lbk = (if q.lbk then some (x.hmac (lbTweak d.he) ((Cid.nonce cid).take 16)) else none) →
        (⟨⟨q.rpHash, 0x41 ||| (if mcExt q then 0x80 else 0) ||| (if uv d q then 0x04 else 0), d.ctr + 1, some cid⟩,
          q.credBlob.map fun b => b.length ≤ 32 && q.rk == .yes,
          if q.protect != 0 then some q.protect else none, q.hmacSecret, q.cdh, lbk⟩ : McResp) = answer x d q cid := by
      rintro lbk rfl
      unfold answer
      congr 1
      · congr 1
        have hext : (mcExt q = true) ↔ (q.hmacSecret = true ∨ q.protect ≠ 0 ∨ q.credBlob ≠ none) := by
          unfold mcExt
          cases q.credBlob <;> simp
        by_cases he : mcExt q = true
        · rw [if_pos he, if_pos (hext.mp he)]
          cases uv d q <;> decide
        · rw [if_neg he, if_neg (fun h => he (hext.mpr h))]
          cases uv d q <;> decide
      · cases q.credBlob with
        | none => rfl
        | some b =>
          simp only [Option.map_some, Option.some.injEq]
          by_cases hb : b.length ≤ 32 <;> cases q.rk <;> simp [hb]
      · by_cases h : q.protect = 0
        · rw [if_pos h, if_neg (by simp [h])]
        · rw [if_neg h, if_pos (by simpa using h)]
    have hq : Q (.mc (answer x d q cid)) f' r := by
      refine h0 hnf l' hl' f' ?_ (by unfold Flash.counter; rw [hc']; rfl) hr'
      constructor <;> (unfold rdCert; rw [hc', hc]; rfl)
    apply wp_bind
    obtain ⟨k, hk⟩ := Option.isSome_iff_exists.mp hkey
    refine wp_ok_rdOr (a := k) (by unfold rdCert; rw [hc']; exact hk) ?_
    apply wp_bind
    refine wp_ok_rdOr (a := c.data) (by unfold rdCert; rw [hc']; rfl) ?_
    by_cases hb : q.lbk = true
    · rw [if_pos hb]
      apply wp_bind
      apply wp_bind
      unfold largeBlobKey
      apply wp_bind
      refine wp_ok_rdOr (a := d.he) (by unfold rdCert; rw [hc']; exact hhe) ?_
      apply wp_pure
      apply wp_pure
      apply wp_pure
      rw [hans _ (by rw [if_pos hb])]
      exact hq
    · rw [if_neg hb]
      apply wp_bind
      apply wp_pure
      apply wp_pure
      rw [hans _ (by rw [if_neg hb])]
      exact hq
  by_cases hrk : q.rk = .yes
  · rw [if_pos (by simp [hrk])]
    have hfp := full_place d q cid hl hiss.rp
    apply wp_bind
    refine ok_mcStore hd hdm hl hiss.rp ?_ ?_
    · intro l' a' ms' hpl
      refine tail l' _ rfl rfl ?_ ?_
      · unfold after
        rw [if_pos hrk]
        exact hpl
      · rintro ⟨_, h⟩
        rw [hfp.mp h] at hpl
        cases hpl
    · intro hpl
      refine h28 ⟨hrk, hfp.mpr hpl⟩ _ ?_ ?_
      · constructor <;> (unfold rdCert; rw [hc]; rfl)
      · unfold rdRecs
        show Option.map _ f.dc = _
        rw [hd]
        rfl
  · rw [if_neg (by simpa using hrk)]
    refine tail d.recs _ rfl ?_ ?_ ?_
    · unfold rdRecs
      show Option.map _ f.dc = _
      rw [hd]
      rfl
    · unfold after
      rw [if_neg hrk]
    · rintro ⟨h, _⟩
      exact hrk h

theorem ok_consistent (h : ∃ a, rdAttr f = some a ∧ a.add = false ∧ a.del = false) {Q : Unit → Flash → Ram → Prop} (hQ : Q () f r) :
    wp allOk consistency Q E X f r := by
  obtain ⟨a, h1, h2, h3⟩ := h
  unfold consistency
  apply wp_bind
  refine wp_ok_rdOr (a := a) h1 ?_
  rw [if_neg (by simp [h2, h3])]
  exact wp_pure hQ

/-- The command, from its parts. -/
theorem ok_makeCredential {d : Facts} {q : McReq} (hm : ∀ k m, (x.hmac k m).length = 32) (hn : i.rndNonce.length = 16)
    (hp : q.rpHash.length = 32) (hx : ∀ e ∈ q.exclude, e.length = 70) {s : St} (hs : Sees s i q d) :
    wp allOk (makeCredential x i (.ok q))
      (fun a f' _ => refusal x d i q = none ∧ ∃ cid, Issued x d i q cid ∧ a = .mc (answer x d q cid) ∧ rdRecs f' = after d q cid ∧
        (after d q cid).isSome = true ∧ f'.counter = some (d.ctr + 1) ∧ Rest s.flash f')
      (fun e f' _ => ∃ c, e = .code c ∧ refusal x d i q = some c ∧ rdRecs f' = some d.recs ∧ Rest s.flash f')
      (fun _ _ => False) s.flash (aged i s.ram) := by
  generalize hR : refusal x d i q = R
  unfold refusal at hR
  have same : ∀ {c : Byte}, R = some c → ∃ c', Err.code c = .code c' ∧ R = some c' ∧ rdRecs s.flash = some d.recs ∧ Rest s.flash s.flash :=
    fun {c} h => ⟨c, rfl, h, hs.recs, Rest.rfl⟩
  unfold makeCredential
  apply wp_bind
  refine ok_consistent hs.settled ?_
  apply wp_bind
  refine ok_emptyAuth hs.pin ?_ (fun h => ?_)
  rotate_left
  · rw [if_pos h] at hR
    exact same hR.symm
  intro h
  rw [if_neg h] at hR
  have hne := h
  apply wp_bind
  apply wp_failIf
  · intro h
    rw [if_pos (by
      cases ha : q.pinAuth <;> cases hb : q.proto <;> simp [ha, hb] at h ⊢)] at hR
    exact same hR.symm
  intro h
  rw [if_neg (by
    cases ha : q.pinAuth <;> cases hb : q.proto <;> simp [ha, hb] at h ⊢)] at hR
  apply wp_bind
  apply wp_failIf
  · intro h
    rw [if_pos (by simpa using h)] at hR
    exact same hR.symm
  intro h
  rw [if_neg (by
    rintro ⟨h1, h2⟩
    rw [h1, h2] at h
    cases h)] at hR
  apply wp_bind
  apply wp_failIf
  · intro h
    rw [if_pos (by simpa using h)] at hR
    exact same hR.symm
  intro h
  rw [if_neg (by simpa using h)] at hR
  apply wp_bind
  refine ok_pin hs.pin ?_
  apply wp_bind
  apply wp_failIf
  · intro h
    rw [if_pos (by
      simp only [Bool.and_eq_true, Option.isNone_iff_eq_none, beq_iff_eq] at h
      exact ⟨h.1.1, h.1.2, h.2⟩)] at hR
    exact same hR.symm
  intro h
  rw [if_neg (by
    rintro ⟨h1, h2, h3⟩
    rw [h1, h2, h3] at h
    cases h)] at hR
  have last : ∀ r', (¬ (uv d q = true ∧ d.left = 0)) →
      (¬ (uv d q = true ∧ ¬ Authorized x d.tok permMc q.rpHash q.cdh q.pinAuth (q.proto.getD 0))) →
      r'.tok.inUse = d.tok.inUse → r'.tok.up = d.tok.up → r'.sm2 = s.ram.sm2 →
      wp allOk (do mcExclude x i q (uv d q) q.exclude i.junk; takePresence i q.pinAuth; mcFinish x i q (uv d q))
      (fun a f' _ => R = none ∧ ∃ cid, Issued x d i q cid ∧ a = .mc (answer x d q cid) ∧ rdRecs f' = after d q cid ∧
        (after d q cid).isSome = true ∧ f'.counter = some (d.ctr + 1) ∧ Rest s.flash f')
      (fun e f' _ => ∃ c, e = .code c ∧ R = some c ∧ rdRecs f' = some d.recs ∧ Rest s.flash f')
      (fun _ _ => False) s.flash r' := by
    intro r' n34 n33 ht1 ht2 hsm
    rw [if_neg n34, if_neg n33] at hR
    have hseen : (q.pinAuth.isSome && r'.tok.presentFlag) = seen d q := by
      unfold Tok.presentFlag seen
      rw [ht1, ht2, Bool.and_assoc]
    apply wp_bind
    refine ok_mcExclude (d := d) hs.kh hseen q.exclude i.junk hx ?_ ?_
    rotate_left
    · intro h
      rw [if_pos (show Barred x d.kh q (uv d q) from h)] at hR
      exact same hR.symm
    intro h
    rw [if_neg (show ¬ Barred x d.kh q (uv d q) from h)] at hR
    apply wp_bind
    refine ok_mcPresence (d := d) hseen ?_ ?_
    rotate_left
    · intro h1 c h2
      rw [if_pos ⟨h1, by rw [h2]; nofun⟩, h2] at hR
      exact same hR.symm
    intro h t
    rw [if_neg (by
      rintro ⟨h1, h2⟩
      rcases h with h | h
      · rw [h1] at h; cases h
      · exact h2 h)] at hR
    obtain ⟨c, hc⟩ : ∃ c, s.flash.cert = some c := by
      cases hc : s.flash.cert with
      | some c => exact ⟨c, rfl⟩
      | none =>
        have := hs.kh
        unfold rdCert at this
        rw [hc] at this
        cases this
    have rd : ∀ {α : Type} (g : Cert → Option α), rdCert g s.flash = g c := by
      intro α g
      unfold rdCert
      rw [hc]
      rfl
    obtain ⟨a, ha, _⟩ := hs.settled
    obtain ⟨ms, hms⟩ := Option.isSome_iff_exists.mp hs.metas
    have hdc : s.flash.dc = some ⟨d.recs, some a⟩ := by
      have h1 := hs.recs
      unfold rdRecs at h1
      unfold rdAttr at ha
      cases hd : s.flash.dc with
      | none => rw [hd] at h1; cases h1
      | some g =>
        obtain ⟨l, oa⟩ := g
        rw [hd] at h1 ha
        cases h1
        cases ha
        rfl
    refine ok_mcFinish (d := d) (c := c) (a := a) (ms := ms) hm hn hp hc ?_ ?_ ?_ ?_ hdc hms hs.room ?_ ?_ ?_ ?_
    · have := hs.ctr
      unfold Flash.counter at this
      rw [hc] at this
      exact this
    · exact (rd _).symm.trans hs.kh
    · exact (rd _).symm.trans hs.he
    · have := hs.attest
      rw [rd] at this
      exact this
    · unfold algOk
      show (q.alg == ES256 || q.alg == EDDSA || (r'.sm2.enabled && q.alg == r'.sm2.algo)) = true
      rw [hsm]
      rcases hs.alg with h | h | ⟨h, h'⟩
      · simp [h]
      · simp [h]
      · simp [h, ← h']
    · intro h1 h2 cid hi l' hl' f' hf hct hrec
      rw [if_neg h1, if_neg h2] at hR
      exact ⟨hR.symm, cid, hi, rfl, hrec.trans hl'.symm, by rw [hl']; rfl, hct, hf⟩
    · intro h1
      rw [if_pos h1] at hR
      exact same hR.symm
    · intro h1 h2 f' hf hrec
      rw [if_neg h1, if_pos h2] at hR
      exact ⟨_, rfl, hR.symm, hrec, hf⟩
  have htok : (aged i s.ram).tok = d.tok := hs.tok
  apply wp_ite <;> intro hc
  · have hu : uv d q = false := by
      unfold uv
      simp only [Bool.and_eq_true, Option.isNone_iff_eq_none] at hc
      rw [hc.2]
      simp
    have := last (aged i s.ram) (by rw [hu]; rintro ⟨h, _⟩; cases h) (by rw [hu]; rintro ⟨h, _⟩; cases h) (by rw [htok]) (by rw [htok]) rfl
    rw [hu] at this
    exact this
  · apply wp_bind
    refine ok_mcAuth (d := d) hs.pin hs.left htok ?_ ?_ ?_ ?_
    · intro hu
      have := last (aged i s.ram) (by rw [hu]; rintro ⟨h, _⟩; cases h) (by rw [hu]; rintro ⟨h, _⟩; cases h) (by rw [htok]) (by rw [htok]) rfl
      rw [hu] at this
      exact this
    · intro hu h0
      rw [if_pos ⟨hu, h0⟩] at hR
      exact same hR.symm
    · intro hu h0 ha r'
      rw [if_neg (fun h => h0 h.2), if_pos ⟨hu, ha⟩] at hR
      exact same hR.symm
    · intro hu h0 ha t h1 h2
      have := last { aged i s.ram with tok := t } (fun h => h0 h.2) (fun h => h.2 ha) h1 h2 rfl
      rw [hu] at this
      exact this

end

end Verif.Ctap
