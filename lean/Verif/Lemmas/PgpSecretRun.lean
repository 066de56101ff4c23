import Verif.Lemmas.PgpSecret
/-
The OpenPGP applet and the machine of `Spec/PgpSecret.lean`: the commands that leave the PINs alone, and histories.
-/
set_option linter.unusedSimpArgs false
namespace Verif.Pgp
open Cmd Verif.Spec.Pgp Verif.KeyFile

variable {A : Fault → Prop} {x : Ext} {i : In} {f f' : Flash} {r r' : Ram} {m : Mach}

/-! ### Flash -/

/-- The files of the PINs and the state of the applet stay. -/
def PinStay (f f' : Flash) : Prop := f'.pw1 = f.pw1 ∧ f'.pw3 = f.pw3 ∧ f'.rc = f.rc ∧ termOf f' = termOf f
instance : PreOrd PinStay :=
  ⟨fun _ => ⟨rfl, rfl, rfl, rfl⟩, fun h h' => ⟨h'.1.trans h.1, h'.2.1.trans h.2.1, h'.2.2.1.trans h.2.2.1, h'.2.2.2.trans h.2.2.2⟩⟩

theorem setData_pm {g : Data → Data} {e : Reply} (h : ∀ d, (g d).term = d.term) : Moves PinStay (setData g e) := by
  unfold setData
  apply Moves.wrOr
  intro f f' h'
  obtain ⟨d, hd, rfl⟩ := Option.map_eq_some_iff.mp h'
  refine ⟨rfl, rfl, rfl, ?_⟩
  show (some (g d)).bind _ = f.data.bind _
  rw [hd]; exact h d

theorem setKey_pm {k : K} {g : PKey → PKey} : Moves PinStay (setKey k g) := by
  unfold setKey
  apply Moves.wrOr
  intro f f' h'
  obtain ⟨p, hp, rfl⟩ := Option.map_eq_some_iff.mp h'
  exact ⟨rfl, rfl, rfl, rfl⟩

theorem writeKey_pm {k : K} {mat : Key.KeyMat} {m : Meta} : Moves PinStay (writeKey k mat m) := by
  unfold writeKey
  mvs (first | with_reducible exact setKey_pm | (intro f f' h; cases h; exact ⟨rfl, rfl, rfl, rfl⟩))

theorem resetCtr_pm {e : Reply} : Moves PinStay (resetCtr e) := setData_pm fun _ => rfl

/-- Closes what is left of a walk. -/
macro "pm" : tactic => `(tactic| first
  | with_reducible exact setKey_pm
  | with_reducible exact writeKey_pm
  | with_reducible exact resetCtr_pm
  | ((with_reducible apply setData_pm); intro _; rfl)
  | (intro f f' h; cases h; exact ⟨rfl, rfl, rfl, rfl⟩))

theorem select_pm {c : Apdu.Capdu} : Moves PinStay (select c) := by unfold select getAttr; mvs pm
theorem selectData_pm {c : Apdu.Capdu} : Moves PinStay (selectData c) := by unfold selectData; mvs pm
theorem getNext_pm {c : Apdu.Capdu} : Moves PinStay (getNext c) := by unfold getNext readCert; mvs pm
theorem getChallenge_pm : Moves PinStay (getChallenge i) := by unfold getChallenge; mvs pm
theorem touch_pm : Moves PinStay (touch i) := by unfold touch; mvs pm
theorem readKey_pm {k : K} : Moves PinStay (readKey k) := by unfold readKey readMeta; mvs pm
theorem generate_pm : Moves PinStay (generate x i) := by
  unfold generate; mvs (first | with_reducible exact readKey_pm | pm)
theorem importKey_pm : Moves PinStay (importKey x i) := by
  unfold importKey needAdmin readMeta; mvs (first | with_reducible exact readKey_pm | pm)
set_option maxHeartbeats 2000000 in
theorem signOrAuth_pm {b : Bool} : Moves PinStay (signOrAuth x i b) := by
  unfold signOrAuth readMeta getAttr
  mvs (first | with_reducible exact readKey_pm | with_reducible exact touch_pm | pm)
theorem decipher_pm : Moves PinStay (decipher x i) := by
  unfold decipher readMeta
  mvs (first | with_reducible exact readKey_pm | with_reducible exact touch_pm | pm)
theorem putAttr_pm {c : Apdu.Capdu} {k : K} : Moves PinStay (putAttr c k) := by unfold putAttr readMeta; mvs pm
theorem putUif_pm {k : K} : Moves PinStay (putUif i k) := by unfold putUif readMeta; mvs pm
theorem putCert_pm {c : Apdu.Capdu} : Moves PinStay (putCert c) := by unfold putCert; mvs pm
theorem putCache_pm {c : Apdu.Capdu} : Moves PinStay (putCache c) := by unfold putCache; mvs pm
theorem putPwStatus_pm {c : Apdu.Capdu} : Moves PinStay (putPwStatus c) := by unfold putPwStatus; mvs pm
theorem putAttrOf_pm {c : Apdu.Capdu} {lo hi : Nat} {w : M Unit} (h : Moves PinStay w) : Moves PinStay (putAttrOf c lo hi w) := by
  unfold putAttrOf; mvs exact h

theorem url_pm {d : Bytes} :
    Moves PinStay (Cmd.wrOr (fun f : Flash => some { f with data := some { (f.data.getD Data.empty) with url := d } }) ioErr : M Unit) := by
  apply Moves.wrOr
  intro f f' h
  cases h
  refine ⟨rfl, rfl, rfl, ?_⟩
  show (f.data.getD Data.empty).term = f.data.bind _
  cases f.data <;> rfl

theorem putData_pm (ht : tagOf i.c ≠ 0xD3) : Moves PinStay (putData x i) := by
  unfold putData needAdmin
  simp only [ht, if_false]
  mvs (first
    | with_reducible exact putAttr_pm | with_reducible exact putUif_pm | with_reducible exact putCert_pm
    | with_reducible exact putCache_pm | with_reducible exact putPwStatus_pm
    | ((with_reducible apply putAttrOf_pm); with_reducible exact url_pm)
    | ((with_reducible apply putAttrOf_pm); pm)
    | pm)

/-! ### The session -/

/-- The flags of the PINs stay. -/
def PinSeen (r r' : Ram) : Prop := r'.pw1 = r.pw1 ∧ r'.pw3 = r.pw3
instance : PreOrd PinSeen := ⟨fun _ => ⟨rfl, rfl⟩, fun h h' => ⟨h'.1.trans h.1, h'.2.trans h.2⟩⟩

/-- Closes what is left of a walk. -/
macro "ps" : tactic => `(tactic| first
  | exact fun _ => ⟨rfl, rfl⟩
  | (intro _; exact ⟨rfl, rfl⟩)
  | (intro _; split <;> exact ⟨rfl, rfl⟩))

theorem select_ps {c : Apdu.Capdu} : Keeps PinSeen (select c) := by unfold select getAttr; kps ps
theorem selectData_ps {c : Apdu.Capdu} : Keeps PinSeen (selectData c) := by unfold selectData; kps ps
theorem getNext_ps {c : Apdu.Capdu} : Keeps PinSeen (getNext c) := by unfold getNext readCert; kps ps
theorem getChallenge_ps : Keeps PinSeen (getChallenge i) := by unfold getChallenge; kps ps
theorem touch_ps : Keeps PinSeen (touch i) := by unfold touch; kps ps
theorem readKey_ps {k : K} : Keeps PinSeen (readKey k) := by unfold readKey readMeta; kps ps
theorem writeKey_ps {k : K} {mat : Key.KeyMat} {m : Meta} : Keeps PinSeen (writeKey k mat m) := by
  unfold writeKey setKey; kps ps
theorem generate_ps : Keeps PinSeen (generate x i) := by
  unfold generate resetCtr setData
  kps (first | with_reducible exact readKey_ps | with_reducible exact writeKey_ps | ps)
theorem importKey_ps : Keeps PinSeen (importKey x i) := by
  unfold importKey needAdmin readMeta resetCtr setData
  kps (first | with_reducible exact readKey_ps | with_reducible exact writeKey_ps | ps)
set_option maxHeartbeats 2000000 in
theorem signOrAuth_ps {b : Bool} : Keeps PinSeen (signOrAuth x i b) := by
  unfold signOrAuth readMeta setData getAttr
  kps (first | with_reducible exact readKey_ps | with_reducible exact writeKey_ps | with_reducible exact touch_ps | ps)
theorem decipher_ps : Keeps PinSeen (decipher x i) := by
  unfold decipher readMeta
  kps (first | with_reducible exact readKey_ps | with_reducible exact touch_ps | ps)
theorem putAttr_ps {c : Apdu.Capdu} {k : K} : Keeps PinSeen (putAttr c k) := by unfold putAttr readMeta setKey; kps ps
theorem putUif_ps {k : K} : Keeps PinSeen (putUif i k) := by unfold putUif readMeta setKey; kps ps
theorem putCert_ps {c : Apdu.Capdu} : Keeps PinSeen (putCert c) := by unfold putCert; kps ps
theorem putCache_ps {c : Apdu.Capdu} : Keeps PinSeen (putCache c) := by unfold putCache setData; kps ps
theorem putPwStatus_ps {c : Apdu.Capdu} : Keeps PinSeen (putPwStatus c) := by unfold putPwStatus setData; kps ps
theorem putAttrOf_ps {c : Apdu.Capdu} {lo hi : Nat} {w : M Unit} (h : Keeps PinSeen w) : Keeps PinSeen (putAttrOf c lo hi w) := by
  unfold putAttrOf; kps exact h

theorem putData_ps (ht : tagOf i.c ≠ 0xD3) : Keeps PinSeen (putData x i) := by
  unfold putData needAdmin
  simp only [ht, if_false]
  kps (first
    | with_reducible exact putAttr_ps | with_reducible exact putUif_ps | with_reducible exact putCert_ps
    | with_reducible exact putCache_ps | with_reducible exact putPwStatus_ps
    | ((with_reducible apply putAttrOf_ps); unfold setData; exact .wrOr _ _)
    | ((with_reducible apply putAttrOf_ps); unfold setKey; exact .wrOr _ _)
    | ((with_reducible apply putAttrOf_ps); exact .wrOr _ _)
    | ps)

/-- Both, as a weakest precondition. -/
theorem moves_wp {A : Fault → Prop} {c : M Reply} {R : Flash → Flash → Prop} (h : Moves R c)
    {Q : Reply → Flash → Ram → Prop} {E : Reply → Flash → Ram → Prop} {X : Flash → Ram → Prop} (hw : wp A c Q E X f r) :
    wp A c (fun a f' r' => Q a f' r' ∧ R f f') (fun e f' r' => E e f' r' ∧ R f f') (fun f' r' => X f' r' ∧ R f f') f r := by
  intro env henv
  have h1 := h ⟨f, r, env⟩
  have h2 := hw env henv
  cases hm : c.run ⟨f, r, env⟩ with
  | mk o w =>
    rw [hm] at h1 h2
    cases o with
    | none => exact ⟨h2, h1⟩
    | some y => cases y <;> exact ⟨⟨h2.1, h1⟩, h2.2⟩

theorem repr_stay (h : PinStay f f') (hm : Repr f m) : Repr f' m := by
  obtain ⟨h1, h2, h3, h4⟩ := h
  refine ⟨fun w => ?_, by rw [h4]; exact hm.term⟩
  cases w
  · show Stores _ f'.pw1 _
    rw [h1]; exact hm.pins .pw1
  · show Stores _ f'.pw3 _
    rw [h2]; exact hm.pins .pw3
  · show Stores _ f'.rc _
    rw [h3]; exact hm.pins .rc

theorem ram_seen (h : PinSeen r r') (ho : RamOk r m) : RamOk r' m :=
  ⟨by rw [h.1]; exact ho.1, by rw [h.2]; exact ho.2⟩

/-! ### The PW status bytes -/

/-- What GET DATA may show. -/
def Shows (m : Mach) (i : In) (a : Reply) : Prop :=
  tagOf i.c = 0xC4 → ∀ d, a = .resp d 0x9000 →
    ∃ s, d.map (·.toNat) = [s, 64, 64, 64, m.pw1.tries, if m.rc.value = [] then 0 else m.rc.tries, m.pw3.tries]

theorem tries_wp {w : Which} (hm : Repr f m) {Q : Byte → Flash → Ram → Prop} {E : Reply → Flash → Ram → Prop}
    {X : Flash → Ram → Prop}
    (hQ : ∀ n : Byte, n.toNat = (if (secretAt m w).value = [] then 0 else (secretAt m w).tries) → Q n f r) (hX : X f r) :
    wp cutsOnly (retries w) Q E X f r := by
  unfold retries
  apply wp_bind
  apply wp_onPin Pin.getRetries_wp
  · rintro n p q ⟨h, rfl, rfl⟩
    rw [set_get_F, set_get_R]
    have hn := retries_exact (hm.pins w) h
    subst hn
    refine wp_pure (hQ _ ?_)
    obtain ⟨_, c, _, hc⟩ := hm.pins w
    have := c.toNat_lt
    rw [hc] at this
    split
    · rfl
    · exact UInt8.toNat_ofNat_of_lt' this
  · rintro p q ⟨h, rfl, rfl⟩
    rw [set_get_F, set_get_R]
    exact hX

theorem getData_exact (hm : Repr f m) :
    wp cutsOnly (getData i) (fun a f' r' => f' = f ∧ r' = r ∧ Shows m i a) (fun a f' r' => f' = f ∧ r' = r ∧ Shows m i a)
      (fun f' _ => f' = f) f r := by
  by_cases ht : tagOf i.c = 0xC4
  · unfold getData readMeta
    simp only [ht, Nat.reduceEqDiff, if_false, if_true]
    apply wp_ite <;> intro hl
    · exact wp_throw ⟨rfl, rfl, fun _ d e => by cases e⟩
    have bad : Shows m i ioErr := fun _ d e => by cases e
    apply wp_bind; apply wp_rdOr
    rotate_left
    · exact fun _ => ⟨rfl, rfl, bad⟩
    · exact fun _ => ⟨rfl, rfl, bad⟩
    · exact fun _ => rfl
    intro _ _
    apply wp_bind; apply wp_rdOr
    rotate_left
    · exact fun _ => ⟨rfl, rfl, bad⟩
    · exact fun _ => ⟨rfl, rfl, bad⟩
    · exact fun _ => rfl
    intro _ _
    apply wp_bind; apply wp_rdOr
    rotate_left
    · exact fun _ => ⟨rfl, rfl, bad⟩
    · exact fun _ => ⟨rfl, rfl, bad⟩
    · exact fun _ => rfl
    intro _ _
    unfold pwStatus getAttr
    apply wp_bind; apply wp_bind; apply wp_rdOr
    rotate_left
    · exact fun _ => ⟨rfl, rfl, bad⟩
    · exact fun _ => ⟨rfl, rfl, bad⟩
    · exact fun _ => rfl
    intro s _
    apply wp_bind
    refine tries_wp hm (fun a ha => ?_) rfl
    apply wp_bind
    refine tries_wp hm (fun b hb => ?_) rfl
    apply wp_bind
    refine tries_wp hm (fun c hc => ?_) rfl
    refine wp_pure (wp_pure ⟨rfl, rfl, fun _ d e => ?_⟩)
    cases e
    rw [if_neg (value_ne (by decide) hm)] at ha hc
    refine ⟨s.toNat, ?_⟩
    simp only [List.map_cons, List.map_nil, ha, hb, hc]
    rfl
  · have hn : ∀ a, Shows m i a := fun a h => absurd h ht
    unfold getData readMeta getAttr appData readCert
    wps
    all_goals try first | exact ⟨rfl, rfl, hn _⟩ | exact rfl
    · refine discretionary_wp (fun _ => ?_) (fun e he => ⟨rfl, rfl, hn _⟩) (fun h => rfl)
      wps
      exact ⟨rfl, rfl, hn _⟩
    · refine pwStatus_wp (fun _ => ?_) ⟨rfl, rfl, hn _⟩ (fun h => rfl)
      wps
      exact ⟨rfl, rfl, hn _⟩

/-! ### Any command -/

/-- What a reply, flash and the variables are after a command. -/
def Fits' (m : Mach) (c : Apdu.Capdu) (a : Reply) (f' : Flash) (r' : Ram) : Prop :=
  ((m.command c).1 = none ∧ m.status c a ∨ ∃ sw, (m.command c).1 = some sw ∧ a = .sw sw) ∧
    Repr f' (m.command c).2 ∧ RamOk r' (m.command c).2

theorem fits_of {c : Apdu.Capdu} {res : Nat × Mach} {a : Reply} (h : m.command c = (some res.1, res.2)) (hd : Does res a f' r') :
    Fits' m c a f' r' := by
  unfold Fits'
  rw [h]
  exact ⟨.inr ⟨_, rfl, hd.1⟩, hd.2.1, hd.2.2⟩

theorem fits_none {c : Apdu.Capdu} {a : Reply} (h : m.command c = (none, m)) (hs : m.status c a) (hm : Repr f' m)
    (ho : RamOk r' m) : Fits' m c a f' r' := by
  unfold Fits'
  rw [h]
  exact ⟨.inl ⟨rfl, hs⟩, hm, ho⟩

/-- A command that leaves the PINs alone. -/
theorem other_exact {t : Byte} (hx : x.Ok) (ht : termOf f = some t) (h : m.command i.c = (none, m)) (hi : i.c.ins ≠ 0xCA)
    (hf : Moves PinStay (dispatch x i t)) (hr : Keeps PinSeen (dispatch x i t)) (hm : Repr f m) (ho : RamOk r m) :
    wp cutsOnly (dispatch x i t) (Fits' m i.c) (Fits' m i.c) (fun f' _ => Left m i.c f') f r := by
  have hs : ∀ a, m.status i.c a := fun a h => absurd h hi
  exact wp_mono (moves_wp hf (hr.wp (dispatch_wp hx ht)))
    (fun a f' r' h' => fits_none h (hs a) (repr_stay h'.2 hm) (ram_seen h'.1.2 ho))
    (fun a f' r' h' => fits_none h (hs a) (repr_stay h'.2 hm) (ram_seen h'.1.2 ho))
    (fun f' r' h' => left_self (repr_stay h'.2 hm))

theorem tag_rc : tagOf i.c = 0xD3 ↔ i.c.p1 = 0 ∧ i.c.p2 = 0xD3 := by
  unfold tagOf
  have h1 := i.c.p1.toNat_lt
  have h2 := i.c.p2.toNat_lt
  constructor
  · intro h
    exact ⟨UInt8.toNat_inj.mp (show _ = 0 by omega), UInt8.toNat_inj.mp (show _ = 0xD3 by omega)⟩
  · rintro ⟨e1, e2⟩
    rw [e1, e2]; rfl

/-- The commands that the machine does not settle. -/
def Silent (c : Apdu.Capdu) : Prop :=
  c.ins ≠ 0x44 ∧ c.ins ≠ 0x20 ∧ c.ins ≠ 0x24 ∧ c.ins ≠ 0x2C ∧ ¬(c.ins = 0xDA ∧ c.p1 = 0 ∧ c.p2 = 0xD3) ∧ c.ins ≠ 0xE6

theorem command_silent (hc : i.c.cla = 0) (h : Silent i.c) (hg : m.ended = true → i.c.ins = 0xCC ∨ i.c.ins = 0xA4) :
    m.command i.c = (none, m) := by
  obtain ⟨h1, h2, h3, h4, h5, h6⟩ := h
  unfold Mach.command
  rw [if_neg (fun h => h hc)]
  split
  · rfl
  next hn =>
  rw [if_neg (fun h => hn (hg h))]

theorem silent_exact {t : Byte} (hx : x.Ok) (ht : termOf f = some t) (hc : i.c.cla = 0) (h : Silent i.c)
    (hg : m.ended = true → i.c.ins = 0xCC ∨ i.c.ins = 0xA4) (hm : Repr f m) (ho : RamOk r m) :
    wp cutsOnly (dispatch x i t) (Fits' m i.c) (Fits' m i.c) (fun f' _ => Left m i.c f') f r := by
  have hcmd := command_silent hc h hg
  obtain ⟨h1, h2, h3, h4, h5, h6⟩ := h
  by_cases hi : i.c.ins = 0xCA
  · have e : dispatch x i t = getData i := by simp only [dispatch, hi]; rfl
    rw [e]
    have key : ∀ a f' r', f' = f ∧ r' = r ∧ Shows m i a → Fits' m i.c a f' r' := by
      rintro a _ _ ⟨rfl, rfl, hs⟩
      refine fits_none hcmd ?_ hm ho
      intro _ e1 e2
      exact hs (by unfold tagOf; rw [e1, e2]; rfl)
    exact wp_mono (getData_exact hm) key key (fun f' _ h => by rw [h]; exact left_self hm)
  · have ht' : i.c.ins = 0xDA → tagOf i.c ≠ 0xD3 := fun hd ht => h5 ⟨hd, tag_rc.1 ht⟩
    refine other_exact hx ht hcmd hi ?_ ?_ hm ho
    · unfold dispatch
      simp only [h1, h2, h3, h4, h6, hi, beq_iff_eq, if_false]
      mvs (first
        | with_reducible exact select_pm | with_reducible exact selectData_pm | with_reducible exact getNext_pm
        | with_reducible exact importKey_pm | with_reducible exact generate_pm | with_reducible exact signOrAuth_pm
        | with_reducible exact decipher_pm | with_reducible exact getChallenge_pm
        | (refine putData_pm (ht' ?_); assumption))
    · unfold dispatch
      simp only [h1, h2, h3, h4, h6, hi, beq_iff_eq, if_false]
      kps (first
        | with_reducible exact select_ps | with_reducible exact selectData_ps | with_reducible exact getNext_ps
        | with_reducible exact importKey_ps | with_reducible exact generate_ps | with_reducible exact signOrAuth_ps
        | with_reducible exact decipher_ps | with_reducible exact getChallenge_ps
        | (refine putData_ps (ht' ?_); assumption))

theorem putData_rc (hd : tagOf i.c = 0xD3) : putData x i = (do needAdmin; putRc x i.c) := by
  unfold putData
  simp only [hd, Nat.reduceEqDiff, if_false, if_true]

theorem loud_exact {t : Byte} (hx : x.Ok) (hp : Plain (.apdu i)) (hc : i.c.cla = 0) (h44 : i.c.ins ≠ 0x44) (h : ¬ Silent i.c)
    (he : m.ended = false) (hm : Repr f m) (ho : RamOk r m) :
    wp cutsOnly (dispatch x i t) (Fits' m i.c) (Fits' m i.c) (fun f' _ => Left m i.c f') f r := by
  obtain ⟨hj, h255⟩ := hp i rfl
  by_cases h1 : i.c.ins = 0x20
  · have e : dispatch x i t = verify x i := by simp only [dispatch, h1]; rfl
    have ec : m.command i.c = (some (m.verify i.c.p1 i.c.p2 i.c.data).1, (m.verify i.c.p1 i.c.p2 i.c.data).2) := by
      unfold Mach.command; rw [hc, h1, he]; rfl
    rw [e]
    exact wp_mono (verify_exact hx (h255 (.inl h1)) hm ho) (fun _ _ _ h => fits_of ec h) (fun _ _ _ h => fits_of ec h)
      (fun f' _ h => by rw [h]; exact left_self hm)
  by_cases h2 : i.c.ins = 0x24
  · have e : dispatch x i t = changeRef x i := by simp only [dispatch, h2]; rfl
    rw [e]
    exact wp_mono (change_exact hx hj (h255 (.inr (.inl h2))) hc h2 he hm ho) (fun _ _ _ h => fits_of (command24 hc he h2) h)
      (fun _ _ _ h => fits_of (command24 hc he h2) h) (fun _ _ h => h)
  by_cases h3 : i.c.ins = 0x2C
  · have e : dispatch x i t = resetRetry x i := by simp only [dispatch, h3]; rfl
    rw [e]
    exact wp_mono (unblock_exact hx hj (h255 (.inr (.inr h3))) hc h3 he hm ho) (fun _ _ _ h => fits_of (command2C hc he h3) h)
      (fun _ _ _ h => fits_of (command2C hc he h3) h) (fun _ _ h => h)
  by_cases h4 : i.c.ins = 0xDA ∧ i.c.p1 = 0 ∧ i.c.p2 = 0xD3
  · have e : dispatch x i t = putData x i := by simp only [dispatch, h4.1]; rfl
    have ec := commandDA (m := m) hc he h4.1 h4.2.1 h4.2.2
    rw [e, putData_rc (tag_rc.2 h4.2)]
    apply wp_bind
    apply needAdmin_wp
    · intro hv
      rw [ho.2] at hv
      exact wp_mono (putRc_exact hc h4.1 h4.2.1 h4.2.2 he hm ho hv) (fun _ _ _ h => fits_of ec h) (fun _ _ _ h => fits_of ec h)
        (fun _ _ h => h)
    · intro hv
      rw [ho.2] at hv
      exact fits_of ec (does_of (by unfold Mach.putRc; rw [if_pos hv]) hm ho)
  by_cases h5 : i.c.ins = 0xE6
  · have e : dispatch x i t = terminate i.c := by simp only [dispatch, h5]; rfl
    have ec : m.command i.c = (some (m.terminate i.c.p1 i.c.p2).1, (m.terminate i.c.p1 i.c.p2).2) := by
      unfold Mach.command; rw [hc, h5, he]; rfl
    rw [e]
    exact wp_mono (terminate_exact hm ho) (fun _ _ _ h => fits_of ec h) (fun _ _ _ h => fits_of ec h)
      (fun f' _ h => by rw [h]; exact left_self hm)
  exact absurd ⟨h44, h1, h2, h3, h4, h5⟩ h

/-- Up to the `switch`. -/
theorem process_pre {A : Fault → Prop} (hA : ¬ A .fail) (hm : Repr f m) (ho : RamOk r m)
    (hd : ∀ t r0, i.c.cla = 0 → t = (if m.ended then 1 else 0) → (m.ended = true → i.c.ins = 0x44 ∨ i.c.ins = 0xA4) → RamOk r0 m →
      wp A (dispatch x i t) (Fits' m i.c) (Fits' m i.c) (fun f' _ => Left m i.c f') f r0) :
    wp A (process x i) (Fits' m i.c) (Fits' m i.c) (fun f' _ => Left m i.c f') f r := by
  unfold process
  apply wp_ite <;> intro hc
  · have hc : i.c.cla ≠ 0 := by simpa using hc
    exact wp_throw (fits_of (res := (0x6E00, m)) (by unfold Mach.command; rw [if_pos hc]) (does_of rfl hm ho))
  have hc : i.c.cla = 0 := by simpa using hc
  apply wp_bind; apply wp_get
  cases ht : track i.c r with
  | none =>
    have hi : i.c.ins = 0xCC := by
      unfold track at ht
      simp only at ht
      repeat' split at ht
      all_goals first | (cases ht; done) | simp_all
    exact wp_throw (fits_none (by unfold Mach.command; rw [hc, hi]; rfl) (fun h => by rw [hi] at h; cases h) hm ho)
  | some r0 =>
    simp only []
    have ho0 : RamOk r0 m := by
      obtain ⟨s, o, rfl⟩ := track_trk ht
      exact ⟨ho.1, ho.2⟩
    unfold getAttr
    apply wp_bind; apply wp_mod
    apply wp_bind
    apply wp_rdOr
    · intro t htm
      have htt : some t = some (if m.ended then 1 else 0) := htm.symm.trans hm.term
      have htt : t = if m.ended then 1 else 0 := by simpa using htt
      apply wp_ite <;> intro hg
      · have hg : t = 1 ∧ i.c.ins ≠ 0x44 ∧ i.c.ins ≠ 0xA4 := by simpa [and_assoc] using hg
        obtain ⟨ht1, h1, h2⟩ := hg
        have he : m.ended = true := by
          cases h : m.ended with
          | true => rfl
          | false => rw [h] at htt; rw [htt] at ht1; cases ht1
        refine wp_throw ?_
        by_cases hi : i.c.ins = 0xCC
        · exact fits_none (by unfold Mach.command; rw [hc, hi]; rfl) (fun h => by rw [hi] at h; cases h) hm ho0
        · refine fits_of (res := (0x6285, m)) ?_ (does_of rfl hm ho0)
          unfold Mach.command
          rw [if_neg (fun h => h hc), if_neg (fun h => h.elim hi h2), if_neg h1, if_pos he]
      · refine hd t r0 hc htt (fun he => ?_) ho0
        rw [he] at htt
        have htt : t = 1 := htt
        simp [htt] at hg
        by_cases h : i.c.ins = 0x44
        · exact .inl h
        · exact .inr (hg h)
    · intro h
      have := hm.term
      unfold termOf at this
      rw [h] at this; cases this
    · intro h; exact absurd h hA
    · intro h; exact left_self hm

theorem process_exact (hx : x.Ok) (hp : Plain (.apdu i)) (hi : i.c.ins ≠ 0x44) (hm : Repr f m) (ho : RamOk r m) :
    wp cutsOnly (process x i) (Fits' m i.c) (Fits' m i.c) (fun f' _ => Left m i.c f') f r := by
  refine process_pre (fun h => h rfl) hm ho fun t r0 hc ht hg ho0 => ?_
  by_cases hs : Silent i.c
  · exact silent_exact hx (by rw [ht]; exact hm.term) hc hs (fun h => (hg h).elim (fun h => absurd h hi) .inr) hm ho0
  · have he : m.ended = false := by
      cases h : m.ended with
      | false => rfl
      | true =>
        exfalso
        have := (hg h).resolve_left hi
        apply hs
        unfold Silent
        rw [this]
        exact ⟨by decide, by decide, by decide, by decide, fun h => absurd h.1 (by decide), by decide⟩
    exact loud_exact hx hp hc hi hs he hm ho0

theorem process_activate (hi : i.c.ins = 0x44) (hm : Repr f m) (ho : RamOk r m) :
    wp noFault (process x i) (Fits' m i.c) (Fits' m i.c) (fun f' _ => Left m i.c f') f r := by
  refine process_pre (fun h => by cases h) hm ho fun t r0 hc ht hg ho0 => ?_
  have e : dispatch x i t = activate i.c t := by simp only [dispatch, hi]; rfl
  have ec : m.command i.c = (some (m.activate i.c.p1 i.c.p2).1, (m.activate i.c.p1 i.c.p2).2) := by
    unfold Mach.command; rw [hc, hi]; rfl
  rw [e]
  exact wp_mono (activate_exact ht hm ho0) (fun _ _ _ h => fits_of ec h) (fun _ _ _ h => fits_of ec h) (fun _ _ h => h.elim)

/-! ### Histories -/

theorem command_powered {c : Apdu.Capdu} (h : m.powered = true) : (m.command c).2.powered = true := by
  have h1 : (m.verify c.p1 c.p2 c.data).2.powered = true := by unfold Mach.verify; (repeat' split) <;> exact h
  have h2 : (m.change c.p1 c.p2 c.data).2.powered = true := by unfold Mach.change; (repeat' split) <;> exact h
  have h3 : (m.unblock c.p1 c.p2 c.data).2.powered = true := by unfold Mach.unblock; (repeat' split) <;> exact h
  have h4 : (m.putRc c.data).2.powered = true := by unfold Mach.putRc; (repeat' split) <;> exact h
  have h5 : (m.terminate c.p1 c.p2).2.powered = true := by unfold Mach.terminate; (repeat' split) <;> exact h
  have h6 : (m.activate c.p1 c.p2).2.powered = true := by
    unfold Mach.activate; repeat' split
    all_goals first | exact h | rfl
  unfold Mach.command
  repeat' split
  all_goals first | exact h | exact h1 | exact h2 | exact h3 | exact h4 | exact h5 | exact h6

/-- The device and the machine. -/
structure Agree (s : St) (m : Mach) : Prop where
  files : Repr s.flash m
  on : ∀ r, s.ram = some r → m.powered = true ∧ RamOk r m
  off : s.ram = none → m.powered = false

theorem repr_quiet {m' : Mach} (h : Repr f m) (h1 : m'.pw1.value = m.pw1.value ∧ m'.pw1.tries = m.pw1.tries)
    (h3 : m'.pw3.value = m.pw3.value ∧ m'.pw3.tries = m.pw3.tries) (hr : m'.rc.value = m.rc.value ∧ m'.rc.tries = m.rc.tries)
    (he : m'.ended = m.ended) : Repr f m' := by
  refine ⟨fun w => ?_, by rw [he]; exact h.term⟩
  have := h.pins w
  cases w
  · unfold Stores at this ⊢
    simp only [secretAt, h1.1, h1.2] at this ⊢; exact this
  · unfold Stores at this ⊢
    simp only [secretAt, h3.1, h3.2] at this ⊢; exact this
  · unfold Stores at this ⊢
    simp only [secretAt, hr.1, hr.2] at this ⊢; exact this

theorem repr_closed (h : Repr f m) : Repr f m.closed := repr_quiet h ⟨rfl, rfl⟩ ⟨rfl, rfl⟩ ⟨rfl, rfl⟩ rfl
theorem repr_off (h : Repr f m) : Repr f m.off := repr_quiet h ⟨rfl, rfl⟩ ⟨rfl, rfl⟩ ⟨rfl, rfl⟩ rfl
theorem repr_on (h : Repr f m) : Repr f { m.closed with powered := true } :=
  repr_quiet h ⟨rfl, rfl⟩ ⟨rfl, rfl⟩ ⟨rfl, rfl⟩ rfl

theorem data_some (h : Repr f m) : f.data.isSome = true := by
  have := h.term
  unfold termOf at this
  cases hd : f.data with
  | none => rw [hd] at this; cases this
  | some _ => rfl

theorem boot_exact (hm : Repr f m) :
    wp cutsOnly (installOp false) (fun a f' r' => f' = f ∧ a = .sw 0x9000 ∧ RamOk r' m.closed)
      (fun _ _ _ => False) (fun f' _ => f' = f) f Ram.init := by
  have hd := data_some hm
  unfold installOp install
  apply wp_bind; apply wp_bind; apply wp_mod
  apply wp_ite <;> intro h
  · cases h
  apply wp_bind
  apply wp_rdF
  · intro _
    apply wp_ite <;> intro h
    · exact wp_pure (wp_pure ⟨rfl, rfl, rfl, rfl⟩)
    · exact absurd hd h
  · intro h; exact absurd rfl h
  · exact fun _ => rfl

theorem none_all {env : Env} (h : env.all noFault) : env.all cutsOnly := fun n => by
  have := h n
  intro e
  rw [e] at this; cases this

/-- An operation takes the device where it takes the machine. -/
theorem step_agree (hx : x.Ok) {s : St} {op : Op} {env : Env} (hp : Plain op) (he : env.all cutsOnly)
    (hr : Resets op → env.all noFault) (h : Agree s m) :
    ∃ m', m.Next op (step x s op env).2 m' ∧ Agree (step x s op env).1 m' := by
  obtain ⟨f, o⟩ := s
  cases op with
  | boot =>
    have e : step x ⟨f, o⟩ .boot env = exec (installOp false) f Ram.init env := by cases o <;> rfl
    rw [e]
    obtain ⟨o', f', r', h', e⟩ := exec_of_wp (P := fun o f' r' => match o with
      | .cut => f' = f
      | .done a => f' = f ∧ a = .sw 0x9000 ∧ RamOk r' m.closed) he
      (wp_mono (boot_exact h.files) (fun _ _ _ h => h) (fun _ _ _ h => h.elim) (fun _ _ h => h))
    rw [e]
    cases o' with
    | cut =>
      have h' : f' = f := h'
      subst h'
      exact ⟨_, .bootCut, ⟨repr_off h.files, (fun _ h => by cases h), fun _ => rfl⟩⟩
    | done a =>
      obtain ⟨rfl, rfl, h'⟩ := h'
      exact ⟨_, .boot, ⟨repr_on h.files, (fun _ h => by cases h; exact ⟨rfl, h'.1, h'.2⟩), (fun h => by cases h)⟩⟩
  | factory =>
    cases o with
    | none => exact ⟨m, .off (h.off rfl) (by intro e; cases e), h⟩
    | some r =>
      show ∃ m', m.Next _ (exec (installOp true) f r env).2 m' ∧ Agree (exec (installOp true) f r env).1 m'
      obtain ⟨o', f', r', h', e⟩ := exec_of_wp (P := fun o f' r' => InstEff noFault f r o f' r') (hr (.inl rfl)) factory_wp
      rw [e]
      cases h' with
      | done => exact ⟨_, .factory (h.on r rfl).1, ⟨factory_repr, (fun _ h => by cases h; exact ⟨rfl, rfl, rfl⟩),
          (fun h => by cases h)⟩⟩
      | fail h => cases h
      | cut h => cases h
  | deselect =>
    cases o with
    | none => exact ⟨m, .off (h.off rfl) (by intro e; cases e), h⟩
    | some r =>
      exact ⟨_, .deselect (h.on r rfl).1, ⟨repr_closed h.files,
        (fun _ e => by cases e; exact ⟨(h.on r rfl).1, rfl, rfl⟩), (fun h => by cases h)⟩⟩
  | apdu i =>
    cases o with
    | none => exact ⟨m, .off (h.off rfl) (by intro e; cases e), h⟩
    | some r =>
      obtain ⟨hpw, ho⟩ := h.on r rfl
      show ∃ m', m.Next _ (exec (process x i) f r env).2 m' ∧ Agree (exec (process x i) f r env).1 m'
      have fin : ∀ {A : Fault → Prop}, env.all A →
          wp A (process x i) (Fits' m i.c) (Fits' m i.c) (fun f' _ => Left m i.c f') f r →
          ∃ m', m.Next (.apdu i) (exec (process x i) f r env).2 m' ∧ Agree (exec (process x i) f r env).1 m' := by
        intro A he hw
        obtain ⟨o', f', r', h', e⟩ := exec_of_wp (P := fun o f' r' => match o with
          | .cut => Left m i.c f'
          | .done a => Fits' m i.c a f' r') he hw
        rw [e]
        cases o' with
        | cut =>
          obtain ⟨m', ht, hm'⟩ := h'
          exact ⟨m'.off, .cut hpw ht, ⟨repr_off hm', (fun _ h => by cases h), fun _ => rfl⟩⟩
        | done a =>
          obtain ⟨h1, h2, h3⟩ := h'
          refine ⟨(m.command i.c).2, ?_, ⟨h2, ?_, fun h => by cases h⟩⟩
          · rcases h1 with ⟨h1, hs⟩ | ⟨sw, h1, rfl⟩
            · exact .other hpw (by rw [← h1]) hs
            · exact .answer hpw (by rw [← h1])
          · rintro _ ⟨⟩
            exact ⟨command_powered hpw, h3⟩
      by_cases hi : i.c.ins = 0x44
      · exact fin (hr (.inr ⟨i, rfl, hi⟩)) (process_activate hi h.files ho)
      · exact fin he (process_exact hx hp hi h.files ho)

theorem pins_append {l l' : List (Op × Out)} {m m' m'' : Mach} (h : m.Trace l m') (h' : m'.Trace l' m'') :
    m.Trace (l ++ l') m'' := by
  induction h with
  | nil => exact h'
  | cons hn _ ih => exact .cons hn (ih h')

theorem run_agree (hx : x.Ok) {h : List (Op × Env)}
    (he : ∀ e ∈ h, Plain e.1 ∧ e.2.all cutsOnly ∧ (Resets e.1 → e.2.all noFault)) {s : St} {log : List Entry} {m0 : Mach}
    (ht : m0.Trace (observed log) m) (hs : Agree s m) :
    ∃ m', m0.Trace (observed (run x s log h).2) m' ∧ Agree (run x s log h).1 m' := by
  induction h generalizing s log m with
  | nil => exact ⟨m, ht, hs⟩
  | cons e h ih =>
    obtain ⟨op, env⟩ := e
    have h1 := he (op, env) (by simp)
    obtain ⟨m', hn, hs'⟩ := step_agree (op := op) hx h1.1 h1.2.1 h1.2.2 hs
    refine ih (fun e he' => he e (by simp [he'])) ?_ hs'
    have : observed ((s, op, (step x s op env).2) :: log) = observed log ++ [(op, (step x s op env).2)] := by
      simp [observed]
    rw [this]
    exact pins_append ht (.cons hn .nil)

end Verif.Pgp
