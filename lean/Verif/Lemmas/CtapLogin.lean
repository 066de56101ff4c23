import Verif.Spec.CtapLogin
import Verif.Lemmas.CtapReg
/-
The command getAssertion when the file system works: its answer, case by case.
-/
namespace Verif.Ctap
open Cmd Verif.Spec.Login
open Verif.Spec.Reg (Facts touch)

variable {x : Ext} {i : In}

/-- The search for a stored credential. -/
theorem foldUp_stored (rp n : Bytes) (l : List Dc) (j : Nat) (s : Dc × Bool) (hs : s.2 = false) :
    match l.find? fun c => !c.deleted && Cid.rp c.cid == rp && Cid.nonce c.cid == n with
    | some c => (foldUp (findBody rp n) l j s).1 = (c, true)
    | none => (foldUp (findBody rp n) l j s).1.2 = false := by
  induction l generalizing j s with
  | nil => exact hs
  | cons b l ih =>
    unfold foldUp findBody
    have hc : (!b.deleted && rp == Cid.rp b.cid && n == Cid.nonce b.cid) =
        (!b.deleted && Cid.rp b.cid == rp && Cid.nonce b.cid == n) := by
      rw [Bool.beq_comm (a := rp), Bool.beq_comm (a := n)]
    rw [List.find?_cons]
    dsimp only
    rw [hc]
    cases h : (!b.deleted && Cid.rp b.cid == rp && Cid.nonce b.cid == n) with
    | true => rfl
    | false => exact ih (j + 1) (b, false) rfl

theorem nonce_bytes {a b : Bytes} (h : Cid.nonce a = Cid.nonce b) : Cid.dc a = Cid.dc b ∧ Cid.cp a = Cid.cp b := by
  have get : ∀ (c : Bytes) (k : Nat), k < 18 → c.getD (16 + k) 0 = (Cid.nonce c).getD k 0 := by
    intro c k hk
    unfold Cid.nonce
    rw [List.getD_eq_getElem?_getD, List.getD_eq_getElem?_getD, List.getElem?_take, if_pos hk, List.getElem?_drop]
  unfold Cid.dc Cid.cp
  exact ⟨by rw [get a 16 (by omega), get b 16 (by omega), h], by rw [get a 17 (by omega), get b 17 (by omega), h]⟩

theorem listed_take (P : Dc → Bool) (l : List Dc) (k : Nat) (hk : k ≤ l.length) :
    ((List.range k).reverse.filter fun p => match l[p]? with
      | none => false
      | some d => P d).map (l[·]?) = (((l.take k).filter P).reverse).map some := by
  induction k with
  | zero => rfl
  | succ k ih =>
    have hlt : k < l.length := by omega
    rw [List.range_succ, List.reverse_append, List.take_succ_eq_append_getElem hlt]
    simp only [List.reverse_cons, List.reverse_nil, List.nil_append, List.cons_append, List.filter_append, List.reverse_append, List.filter_cons, List.filter_nil]
    rw [List.getElem?_eq_getElem hlt]
    dsimp only
    by_cases h : P l[k] = true
    · rw [if_pos h, if_pos h]
      simp only [List.map_cons, List.reverse_cons, List.reverse_nil, List.nil_append, List.cons_append]
      rw [ih (by omega), List.getElem?_eq_getElem hlt]
    · rw [if_neg h, if_neg h]
      simp only [List.reverse_nil, List.nil_append]
      exact ih (by omega)

/-- The slots that the command collects are those of the credentials of the specification. -/
theorem matching_listed (d : Facts) (q : GaReq) :
    (matching d.recs q.rpHash (uv d q)).map (d.recs[·]?) = (eligible d q).map some := by
  unfold matching eligible
  have := listed_take (fun c => !c.deleted && protectOk c.cid false (uv d q) && q.rpHash == Cid.rp c.cid) d.recs d.recs.length (Nat.le_refl _)
  rw [List.take_length] at this
  rw [show (fun c : Dc => !c.deleted && Cid.rp c.cid == q.rpHash && (uv d q || !(Cid.cp c.cid == 2 || Cid.cp c.cid == 3))) =
    (fun c => !c.deleted && protectOk c.cid false (uv d q) && q.rpHash == Cid.rp c.cid) from ?_]
  · exact this
  · funext c
    rw [Bool.beq_comm (a := q.rpHash)]
    unfold protectOk
    cases c.deleted <;> cases Cid.rp c.cid == q.rpHash <;> cases uv d q <;> cases h2 : Cid.cp c.cid == 2 <;>
      cases h3 : Cid.cp c.cid == 3 <;> rfl

section
variable {f : Flash} {r : Ram} {E : Err → Flash → Ram → Prop} {X : Flash → Ram → Prop}

theorem login_allow {d : Facts} {q : GaReq} {Q : Dc × Bytes → Flash → Ram → Prop} (hk : rdCert (·.kh) f = some d.kh)
    (hr : rdRecs f = some d.recs) (l : List Bytes) (buf : Dc) (hb : ∃ c, buf = ⟨c, ⟨[], [], []⟩, false, false, []⟩)
    (hl : ∀ e ∈ l, e.length = 70) (hg : ∀ e ∈ l, Suits x d q e → Cid.dc e ≠ 0 → stored d q e ≠ none)
    (h0 : named x d q l = none → E (.code 0x2E) f r)
    (h1 : ∀ c, named x d q l = some c → (∃ e ∈ l, Cid.nonce c.cid = Cid.nonce e ∧ Suits x d q e) → Cid.rp c.cid = q.rpHash →
      (Cid.dc c.cid = 0 → c.cid ∈ l ∧ Authentic x d.kh c.cid) → (Cid.dc c.cid ≠ 0 → c ∈ d.recs ∧ c.deleted = false) →
      Q (c, khPri x d.kh (Cid.nonce c.cid)) f r) :
    wp allOk (gaAllow x q (uv d q) l buf) Q E X f r := by
  induction l generalizing buf with
  | nil => exact wp_fail (h0 rfl)
  | cons e l ih =>
    obtain ⟨c0, rfl⟩ := hb
    have next : ∀ b : Bytes, named x d q (e :: l) = named x d q l →
        wp allOk (gaAllow x q (uv d q) l ⟨b, ⟨[], [], []⟩, false, false, []⟩) Q E X f r := by
      intro b hn
      rw [hn] at h0 h1
      refine ih _ ⟨b, rfl⟩ (fun e he => hl e (List.mem_cons_of_mem _ he)) (fun e he => hg e (List.mem_cons_of_mem _ he)) h0 ?_
      rintro c h2 ⟨e', h3, h4⟩ h5 h6 h7
      exact h1 c h2 ⟨e', List.mem_cons_of_mem _ h3, h4⟩ h5 (fun h => ⟨List.mem_cons_of_mem _ (h6 h).1, (h6 h).2⟩) h7
    unfold gaAllow
    dsimp only
    rw [overlay_full (hl e List.mem_cons_self)]
    by_cases hrp : Cid.rp e = q.rpHash
    · rw [if_neg (by simp [hrp])]
      apply wp_bind
      unfold verifyKh
      apply wp_bind
      refine wp_ok_rdOr hk ?_
      by_cases ha : Authentic x d.kh e
      · rw [if_pos (by unfold Authentic at ha; simp [ha])]
        apply wp_pure
        show wp _ (if (!protectOk e true (uv d q)) = true then _ else _) _ _ _ _ _
        by_cases hc : Cid.cp e = 3 → uv d q = true
        · have hfit : Suits x d q e := ⟨hrp, ha, hc⟩
          rw [if_neg (by
            unfold protectOk
            by_cases h2 : Cid.cp e = 2
            · simp [h2]
            · by_cases h3 : Cid.cp e = 3
              · simp [h3, hc h3]
              · simp [h2, h3])]
          by_cases hd : Cid.dc e = 0
          · rw [if_neg (by simp [hd])]
            apply wp_pure
            refine h1 ⟨e, ⟨[], [], []⟩, false, false, []⟩ ?_ ⟨e, List.mem_cons_self, rfl, hfit⟩ hrp (fun _ => ⟨List.mem_cons_self, ha⟩) (fun h => absurd hd h)
            unfold named
            rw [if_pos hfit, if_pos hd]
          · rw [if_pos (by simpa using hd)]
            obtain ⟨c, hst⟩ := Option.ne_none_iff_exists'.mp (hg e List.mem_cons_self hfit hd)
            apply wp_bind
            refine wp_ok_rdOr (a := d.recs.length) (by simp [hr]) ?_
            apply wp_bind
            refine wp_scanUp hr nofun nofun (by omega) ?_
            rw [List.drop_zero]
            have hfu := foldUp_stored q.rpHash (Cid.nonce e) d.recs 0 (⟨e, ⟨[], [], []⟩, false, false, []⟩, false) rfl
            have hst' := hst
            unfold stored at hst'
            rw [hst'] at hfu
            dsimp only at hfu
            generalize foldUp (findBody q.rpHash (Cid.nonce e)) d.recs 0 (⟨e, ⟨[], [], []⟩, false, false, []⟩, false) = o at hfu
            obtain ⟨⟨d', hit⟩, j⟩ := o
            cases hfu
            show wp _ (if true = true then _ else _) _ _ _ _ _
            rw [if_pos rfl]
            apply wp_pure
            have hp := List.find?_some hst'
            simp only [Bool.and_eq_true, Bool.not_eq_true', beq_iff_eq] at hp
            have hb := nonce_bytes hp.2
            rw [← hp.2]
            refine h1 c ?_ ⟨e, List.mem_cons_self, hp.2, hfit⟩ hp.1.2 (fun h => absurd (hb.1.symm.trans h) hd)
              (fun _ => ⟨List.mem_of_find?_eq_some hst', hp.1.1⟩)
            unfold named
            rw [if_pos hfit, if_neg hd, hst]
            rfl
        · have hc' : Cid.cp e = 3 ∧ uv d q = false := by
            by_cases h3 : Cid.cp e = 3
            · refine ⟨h3, ?_⟩
              cases hu : uv d q with
              | false => rfl
              | true => exact absurd (fun _ => hu) hc
            · exact absurd (fun h => absurd h h3) hc
          rw [if_pos (by unfold protectOk; simp [hc'.1, hc'.2])]
          refine next _ ?_
          conv => lhs; unfold named
          rw [if_neg (fun h => hc h.2.2)]
      · rw [if_neg (by
          intro h
          exact ha (eq_of_beq h).symm)]
        apply wp_pure
        refine next _ ?_
        conv => lhs; unfold named
        rw [if_neg (fun h => ha h.2.1)]
    · rw [if_pos (by simp [hrp])]
      refine next _ ?_
      conv => lhs; unfold named
      rw [if_neg (fun h => hrp h.1)]

theorem login_check {d : Facts} {q : GaReq} {Q : Unit → Flash → Ram → Prop}
    (hp : ∃ p, rdCert (·.pin) f = some p ∧ (d.pin = true ↔ p ≠ [])) (hl : r.consec = d.left) (ht : r.tok = d.tok)
    (h0 : q.pinAuth = some [] → E (.code ((touch i 0x27).getD (if d.pin then 0x31 else 0x35))) f r)
    (h14 : q.pinAuth ≠ some [] → q.pinAuth ≠ none ∧ q.proto = none → E (.code 0x14) f r)
    (h2C : q.pinAuth ≠ some [] → ¬ (q.pinAuth ≠ none ∧ q.proto = none) → q.uv = .yes ∧ q.pinAuth = none → ∀ r', E (.code 0x2C) f r')
    (h2B : q.pinAuth ≠ some [] → ¬ (q.pinAuth ≠ none ∧ q.proto = none) → ¬ (q.uv = .yes ∧ q.pinAuth = none) → q.rk ≠ .absent →
      ∀ r', E (.code 0x2B) f r')
    (h34 : q.pinAuth ≠ some [] → ¬ (q.pinAuth ≠ none ∧ q.proto = none) → ¬ (q.uv = .yes ∧ q.pinAuth = none) → ¬ (q.rk ≠ .absent) →
      uv d q = true ∧ d.left = 0 → ∀ r', E (.code 0x34) f r')
    (h33 : q.pinAuth ≠ some [] → ¬ (q.pinAuth ≠ none ∧ q.proto = none) → ¬ (q.uv = .yes ∧ q.pinAuth = none) → ¬ (q.rk ≠ .absent) →
      ¬ (uv d q = true ∧ d.left = 0) → uv d q = true ∧ ¬ Authorized x d.tok permGa q.rpHash q.cdh q.pinAuth (q.proto.getD 0) →
      ∀ r', E (.code 0x33) f r')
    (h1 : q.pinAuth ≠ some [] → ¬ (q.pinAuth ≠ none ∧ q.proto = none) → ¬ (q.uv = .yes ∧ q.pinAuth = none) → ¬ (q.rk ≠ .absent) →
      ¬ (uv d q = true ∧ d.left = 0) → ¬ (uv d q = true ∧ ¬ Authorized x d.tok permGa q.rpHash q.cdh q.pinAuth (q.proto.getD 0)) →
      ∀ t, t.inUse = d.tok.inUse → t.up = d.tok.up → Q () f { r with tok := t, ga := { r.ga with uv := uv d q, up := false } }) :
    wp allOk (gaCheck x i q) Q E X f r := by
  unfold gaCheck
  apply wp_bind
  refine ok_emptyAuth hp ?_ h0
  intro n0
  apply wp_bind
  apply wp_failIf
  · intro h
    refine h14 n0 ?_
    cases ha : q.pinAuth <;> cases hb : q.proto <;> simp [ha, hb] at h ⊢
  intro h
  have n14 : ¬ (q.pinAuth ≠ none ∧ q.proto = none) := by
    cases ha : q.pinAuth <;> cases hb : q.proto <;> simp [ha, hb] at h ⊢
  apply wp_bind
  apply wp_mod
  apply wp_bind
  apply wp_failIf
  · intro h
    exact h2C n0 n14 (by simpa using h) _
  intro h
  have n2C : ¬ (q.uv = .yes ∧ q.pinAuth = none) := by
    rintro ⟨h1, h2⟩
    rw [h1, h2] at h
    cases h
  apply wp_bind
  apply wp_failIf
  · intro h
    exact h2B n0 n14 n2C (by simpa using h) _
  intro h
  have n2B : ¬ (q.rk ≠ .absent) := by simpa using h
  have h34 := h34 n0 n14 n2C n2B
  have h33 := h33 n0 n14 n2C n2B
  have h1 := h1 n0 n14 n2C n2B
  apply wp_bind
  apply ok_pin hp
  unfold uv at h34 h33 h1
  cases ha : q.pinAuth with
  | none =>
    rw [ha] at h1
    simp only [Option.isSome_none, Bool.and_false, Bool.false_eq_true, false_and, not_false_eq_true, forall_const] at h1
    apply wp_pure
    exact h1 r.tok (by rw [ht]) (by rw [ht])
  | some a =>
    rw [ha] at h34 h33 h1
    simp only [Option.isSome_some, Bool.and_true] at h34 h33 h1
    show wp allOk (if (!d.pin) = true then _ else _) _ _ _ _ _
    cases hpin : d.pin with
    | false =>
      rw [hpin] at h1
      apply wp_pure
      exact h1 (by rintro ⟨h, _⟩; cases h) (by rintro ⟨h, _⟩; cases h) r.tok (by rw [ht]) (by rw [ht])
    | true =>
      rw [hpin] at h34 h33 h1
      rw [if_neg (by simp)]
      apply wp_bind
      apply wp_get
      apply wp_bind
      apply wp_failIf
      · intro h
        have h : (r.consec == 0) = true := h
        exact h34 ⟨rfl, by rw [← hl]; simpa using h⟩ _
      intro h
      have h : (r.consec == 0) = false := h
      have hne : ¬ (true = true ∧ d.left = 0) := by
        rintro ⟨_, h2⟩
        rw [hl, h2] at h
        cases h
      have h33 := fun hn => h33 hne ⟨rfl, hn⟩
      have h1 := fun hy => h1 hne (fun h => h.2 hy)
      rw [← ht] at h33 h1
      apply wp_bind
      apply ok_verifyToken
      · intro hu
        have hu : r.tok.inUse = false := hu
        apply wp_bind
        apply wp_failIf
        · intro _
          exact h33 (fun h => by rw [h.inUse] at hu; cases hu) _
        · intro h; cases h
      · intro hu
        have hu : r.tok.inUse = true := hu
        apply wp_bind
        apply wp_failIf
        · intro h
          refine h33 (fun h' => ?_) _
          obtain ⟨a', e, hm⟩ := h'.mac
          cases e
          have h : (!verifyMac x r.tok.token q.cdh a (q.proto.getD 0)) = true := h
          rw [mac_iff.mpr hm] at h
          cases h
        intro hmac
        have hmac : verifyMac x r.tok.token q.cdh a (q.proto.getD 0) = true := by
          have hmac : (!verifyMac x r.tok.token q.cdh a (q.proto.getD 0)) = false := hmac
          cases hv : verifyMac x r.tok.token q.cdh a (q.proto.getD 0) with
          | true => rfl
          | false => rw [hv] at hmac; cases hmac
        apply wp_bind
        apply wp_mod
        apply wp_bind
        apply wp_failIf
        · intro h
          have h : (!r.tok.verifiedFlag) = true := h
          refine h33 (fun h' => ?_) _
          unfold Tok.verifiedFlag at h
          rw [h'.inUse, h'.uv] at h
          cases h
        intro huv
        have huv : (!r.tok.verifiedFlag) = false := huv
        apply wp_bind
        apply wp_failIf
        · intro h
          have h : (!r.tok.has permGa) = true := h
          refine h33 (fun h' => ?_) _
          have := h'.perm
          unfold Tok.has at h
          simp at h
          exact this h
        intro hperm
        have hperm : (!r.tok.has permGa) = false := hperm
        apply wp_bind
        apply wp_failIf
        · intro h
          have h : (!r.tok.rpOk q.rpHash) = true := h
          refine h33 (fun h' => ?_) _
          have := h'.rp
          unfold Tok.rpOk at h
          cases hr : r.tok.rp with
          | none => rw [hr] at h; cases h
          | some e =>
            rw [hr] at h
            have := this e hr
            simp [this] at h
        intro hrp
        have hrp : (!r.tok.rpOk q.rpHash) = false := hrp
        apply wp_mod
        refine h1 ⟨hu, ?_, ?_, ?_, ⟨a, rfl, mac_iff.mp hmac⟩⟩ _ rfl rfl
        · unfold Tok.verifiedFlag at huv
          rw [hu] at huv
          simpa using huv
        · unfold Tok.has at hperm
          simpa using hperm
        · intro e he
          unfold Tok.rpOk at hrp
          rw [he] at hrp
          simpa using hrp

theorem protect_named {c e : Bytes} {b : Bool} (h : Cid.nonce c = Cid.nonce e) (h3 : Cid.cp e = 3 → b = true) : protectOk c true b = true := by
  have hc := (nonce_bytes h).2
  unfold protectOk
  rw [hc]
  by_cases h2 : Cid.cp e = 2
  · simp [h2]
  · by_cases h4 : Cid.cp e = 3
    · simp [h4, h3 h4]
    · simp [h2, h4]

theorem login_select {d : Facts} {q : GaReq} {Q : Dc × Bytes → Flash → Ram → Prop} (hk : rdCert (·.kh) f = some d.kh)
    (hr : rdRecs f = some d.recs) (hq : r.ga.req = q) (hu : r.ga.uv = uv d q) (hc : r.ga.ctr = 0)
    (hl : ∀ e ∈ q.allow, e.length = 70) (hg : ∀ e ∈ q.allow, Suits x d q e → Cid.dc e ≠ 0 → stored d q e ≠ none)
    (hown : ∀ c ∈ d.recs, c.deleted = false → Authentic x d.kh c.cid)
    (hal : ∀ e, e ∈ q.allow ∨ (∃ c ∈ d.recs, c.deleted = false ∧ c.cid = e) → Cid.rp e = q.rpHash → Authentic x d.kh e →
      algOk r.sm2 (Cid.alg e) = true)
    (h0 : chosen x d q = none → ∀ r', E (.code 0x2E) f r')
    (h1 : ∀ c, chosen x d q = some c → protectOk c.cid (q.allow.length > 0) (uv d q) = true → algOk r.sm2 (Cid.alg c.cid) = true →
      ∀ l, Q (c, khPri x d.kh (Cid.nonce c.cid)) f
        { r with ga := { r.ga with num := if q.allow = [] then (eligible d q).length else 1, list := l } }) :
    wp allOk (gaSelect x) Q E X f r := by
  unfold gaSelect
  apply wp_bind
  apply wp_get
  wzeta
  rw [hq]
  unfold chosen at h0 h1
  by_cases ha : q.allow = []
  · rw [if_pos ha] at h0
    simp only [if_pos ha] at h1
    rw [if_neg (by simp [ha]), if_pos (by simp [hc])]
    have hml := matching_listed d q
    apply wp_bind
    refine wp_ok_rdOr (a := d.recs.length) (by simp [hr]) ?_
    apply wp_bind
    apply wp_mod
    apply wp_bind
    refine wp_scanDown hr nofun nofun (Nat.le_refl _) ?_
    rw [hu, foldDown_matching]
    apply wp_bind
    apply wp_mod
    apply wp_bind
    have hlen : (matching d.recs q.rpHash (uv d q)).length = (eligible d q).length := by
      simpa using congrArg List.length hml
    apply wp_failIf
    · intro h
      rw [hlen] at h
      refine h0 ?_ _
      have : eligible d q = [] := List.eq_nil_of_length_eq_zero (by simpa using h)
      rw [this]
      rfl
    intro h
    apply wp_bind
    apply wp_get
    apply wp_bind
    show wp allOk (rdRec rdRecs ((matching d.recs q.rpHash (uv d q)).getD r.ga.ctr 0)) _ _ _ _ _
    rw [hc]
    cases hm : matching d.recs q.rpHash (uv d q) with
    | nil =>
      rw [hm] at h
      cases h
    | cons p ps =>
      have hmem : p ∈ matching d.recs q.rpHash (uv d q) := by rw [hm]; exact List.mem_cons_self
      obtain ⟨c, hc1, hc2, hc3, _⟩ := mem_matching.mp hmem
      have hprot : protectOk c.cid false (uv d q) = true := by
        unfold matching at hmem
        rw [List.mem_filter] at hmem
        have := hmem.2
        rw [hc1] at this
        simp only [Bool.and_eq_true] at this
        exact this.1.2
      have hrec : c ∈ d.recs := List.mem_of_getElem? hc1
      have hau := hown c hrec hc2
      have hhead : (eligible d q).head? = some c := by
        rw [hm, List.map_cons, hc1] at hml
        cases he : eligible d q with
        | nil => rw [he] at hml; cases hml
        | cons b l =>
          rw [he, List.map_cons] at hml
          have := (List.cons.inj hml).1
          cases this
          rfl
      apply wp_rdRec
      · intro l b e1 e2
        rw [hr] at e1
        cases e1
        rw [List.getD_cons_zero, hc1] at e2
        cases e2
        apply wp_bind
        refine wp_mono (ok_verifyKh hk hau) ?_ (fun _ _ _ h => h.elim) (fun _ _ h => h.elim)
        rintro k f' r' ⟨rfl, rfl, rfl⟩
        apply wp_pure
        have := h1 c hhead (by rw [ha]; exact hprot) (hal _ (Or.inr ⟨c, hrec, hc2, rfl⟩) hc3 hau) (p :: ps)
        rw [← hlen, hm] at this
        exact this
      · intro l e1 e2
        rw [hr] at e1
        cases e1
        rw [List.getD_cons_zero, hc1] at e2
        cases e2
      · intro e; rw [hr] at e; cases e
      · exact nofun
      · exact nofun
  · rw [if_neg ha] at h0
    simp only [if_neg ha] at h1
    have hpos : q.allow.length > 0 := List.length_pos_iff.mpr ha
    rw [if_pos hpos]
    apply wp_bind
    rw [hu]
    refine login_allow hk hr q.allow Dc.zero ⟨_, rfl⟩ hl hg (fun h => h0 h _) ?_
    rintro c hn ⟨e, he, hne, hs⟩ hrp h5 h6
    apply wp_bind
    apply wp_mod
    apply wp_pure
    refine h1 c hn ?_ ?_ r.ga.list
    · rw [show decide (q.allow.length > 0) = true from decide_eq_true hpos]
      exact protect_named hne hs.2.2
    · by_cases hd : Cid.dc c.cid = 0
      · exact hal _ (Or.inl (h5 hd).1) hrp (h5 hd).2
      · exact hal _ (Or.inr ⟨c, (h6 hd).1, (h6 hd).2, rfl⟩) hrp (hown c (h6 hd).1 (h6 hd).2)

theorem login_rest {d : Facts} {q : GaReq} {c : Dc} {Q : Resp → Flash → Ram → Prop} (he : rdCert (·.he) f = some d.he)
    (hc : f.counter = some d.ctr) (hs : q.hs = none) (hu : r.ga.uv = uv d q) (hup : r.ga.up = decide (q.up ≠ .no))
    (hn : r.ga.num = if q.allow = [] then (eligible d q).length else 1)
    (hpr : protectOk c.cid (q.allow.length > 0) (uv d q) = true) (hal : algOk r.sm2 (Cid.alg c.cid) = true)
    (h : ∀ r', Q (.ga (answer x d q c)) { f with cert := f.cert.map fun e => { e with ctr := some (d.ctr + 1) } } r') :
    wp allOk (gaRest x i q c (khPri x d.kh (Cid.nonce c.cid)) true) Q E X f r := by
  unfold gaRest
  apply wp_bind
  apply wp_get
  apply wp_bind
  apply wp_failIf
  · intro h
    rw [hu, hpr] at h
    cases h
  intro _
  rw [hs]
  wzeta
  apply wp_bind
  apply wp_pure
  apply wp_bind
  refine wp_mono (ok_authData i (gaFlags _ _ _).1 hc) ?_ (fun _ _ _ h => h.elim) (fun _ _ h => h.elim)
  rintro ad f' r' ⟨rfl, rfl, rfl⟩
  rw [hal]
  simp only [Bool.not_true, Bool.false_eq_true, if_false]
  have fin : ∀ lbk, lbk = (if c.lbk then some (x.hmac (lbTweak d.he) ((Cid.nonce c.cid).take 16)) else none) →
      Resp.ga ⟨c.cid, ⟨q.rpHash, (if q.credBlob || (none : Option HmacSecret).isSome then 0x80 else 0) ||| (if r'.ga.uv then 0x04 else 0)
        ||| (if r'.ga.up then 0x01 else 0), d.ctr + 1, none⟩, if q.credBlob then some c.blob else none, none, Cid.alg c.cid,
        khPri x d.kh (Cid.nonce c.cid), q.cdh,
        if Cid.dc c.cid != 0 then some c.user.id else none,
        if Cid.dc c.cid != 0 && (r'.ga.uv && decide (r'.ga.num > 1)) then some (c.user.name, c.user.disp) else none,
        if q.allow.length == 0 && true && decide (r'.ga.num > 1) then some r'.ga.num else none, lbk⟩ = .ga (answer x d q c) := by
    rintro _ rfl
    unfold answer
    rw [hu, hup, hn]
    refine congrArg Resp.ga ?_
    have e1 : ((if q.credBlob || (none : Option HmacSecret).isSome then 0x80 else 0) ||| (if uv d q then 0x04 else 0)
        ||| (if decide (q.up ≠ .no) then 0x01 else 0) : Byte) =
        (if q.up = .no then 0 else 0x01) + (if uv d q then 0x04 else 0) + (if q.credBlob then 0x80 else 0) := by
      cases q.credBlob <;> cases uv d q <;> cases q.up <;> decide
    rw [e1]
    by_cases ha : q.allow = []
    · simp [ha]
    · simp [ha]
  cases hl : c.lbk with
  | false =>
    rw [hl] at fin
    simp only [Bool.false_eq_true, if_false]
    apply wp_bind
    apply wp_pure
    apply wp_bind
    apply wp_mod
    apply wp_pure
    rw [fin none rfl]
    exact h _
  | true =>
    rw [hl] at fin
    simp only [if_true]
    unfold largeBlobKey
    apply wp_bind
    apply wp_bind
    apply wp_bind
    refine wp_ok_rdOr (a := d.he) ?_ ?_
    · rw [← he]
      unfold rdCert
      cases f.cert <;> rfl
    apply wp_pure
    apply wp_pure
    apply wp_bind
    apply wp_mod
    apply wp_pure
    rw [fin (some (x.hmac (lbTweak d.he) ((Cid.nonce c.cid).take 16))) rfl]
    exact h _

theorem login_presence {d : Facts} {q : GaReq} {Q : Unit → Flash → Ram → Prop}
    (ht : (q.pinAuth.isSome && r.tok.presentFlag) = seen d q)
    (h0 : seen d q = true ∨ touch i 0x27 = none → ∀ t, Q () f { r with tok := t })
    (h1 : seen d q = false → ∀ c, touch i 0x27 = some c → E (.code c) f r) :
    wp allOk (takePresence i q.pinAuth) Q E X f r := by
  unfold takePresence
  apply wp_bind
  apply wp_get
  rw [ht]
  cases hs : seen d q with
  | true =>
    wzeta
    rw [if_pos rfl]
    apply wp_mod
    exact h0 (Or.inl hs) _
  | false =>
    wzeta
    rw [if_neg (by decide)]
    apply wp_bind
    apply ok_wait
    · intro hx
      apply wp_mod
      exact h0 (Or.inr hx) _
    · intro c hx
      exact h1 hs c hx

/-- The command, from its parts. -/
theorem ok_getAssertion {d : Facts} {q : GaReq} (hx : ∀ e ∈ q.allow, e.length = 70) (hh : q.hs = none)
    (hg : ∀ e ∈ q.allow, Suits x d q e → Cid.dc e ≠ 0 → stored d q e ≠ none) {s : St} (hs : Sees x s i q d) :
    wp allOk (getAssertion x i (.ok q))
      (fun a f' _ => refusal x d i q = none ∧ ∃ c, chosen x d q = some c ∧ a = .ga (answer x d q c) ∧
        f' = { s.flash with cert := s.flash.cert.map fun e => { e with ctr := some (d.ctr + 1) } })
      (fun e f' _ => ∃ c, e = .code c ∧ refusal x d i q = some c ∧ f' = s.flash)
      (fun _ _ => False) s.flash (aged i s.ram) := by
  generalize hR : refusal x d i q = R
  unfold refusal at hR
  have same : ∀ {c : Byte}, R = some c → ∃ c', Err.code c = .code c' ∧ R = some c' ∧ s.flash = s.flash :=
    fun {c} h => ⟨c, rfl, h, rfl⟩
  unfold getAssertion
  apply wp_bind
  apply wp_mod
  apply wp_bind
  refine ok_consistent hs.settled ?_
  apply wp_bind
  apply wp_mod
  apply wp_bind
  refine login_check (d := d) hs.pin hs.left hs.tok ?_ ?_ ?_ ?_ ?_ ?_ ?_
  · intro h
    rw [if_pos h] at hR
    exact same hR.symm
  · intro h1 h
    rw [if_neg h1, if_pos h] at hR
    exact same hR.symm
  · intro h1 h2 h _
    rw [if_neg h1, if_neg h2, if_pos h] at hR
    exact same hR.symm
  · intro h1 h2 h3 h _
    rw [if_neg h1, if_neg h2, if_neg h3, if_pos h] at hR
    exact same hR.symm
  · intro h1 h2 h3 h4 h _
    rw [if_neg h1, if_neg h2, if_neg h3, if_neg h4, if_pos h] at hR
    exact same hR.symm
  · intro h1 h2 h3 h4 h5 h _
    rw [if_neg h1, if_neg h2, if_neg h3, if_neg h4, if_neg h5, if_pos h] at hR
    exact same hR.symm
  intro h1 h2 h3 h4 h5 h6 t ht1 ht2
  rw [if_neg h1, if_neg h2, if_neg h3, if_neg h4, if_neg h5, if_neg h6] at hR
  unfold gaFinish
  apply wp_bind
  refine login_select (d := d) (q := q) hs.kh hs.recs rfl rfl rfl hx hg hs.own ?_ ?_ ?_
  · intro e he hrp ha
    unfold algOk
    show (Cid.alg e == ES256 || Cid.alg e == EDDSA || (s.ram.sm2.enabled && Cid.alg e == s.ram.sm2.algo)) = true
    rcases hs.algs e he hrp ha with h | h | ⟨h, h'⟩
    · simp [h]
    · simp [h]
    · simp [h, ← h']
  · intro h _
    rw [if_pos h] at hR
    exact same hR.symm
  intro c hch hpr hal l
  rw [if_neg (by rw [hch]; exact nofun)] at hR
  apply wp_bind
  apply wp_get
  wzeta
  have fin : ∀ r' : Ram, R = none → r'.ga.uv = uv d q → r'.ga.up = decide (q.up ≠ .no) →
      (r'.ga.num = if q.allow = [] then (eligible d q).length else 1) → r'.sm2 = s.ram.sm2 →
      wp allOk (gaRest x i q c (khPri x d.kh (Cid.nonce c.cid)) true)
      (fun a f' _ => R = none ∧ ∃ c, chosen x d q = some c ∧ a = .ga (answer x d q c) ∧
        f' = { s.flash with cert := s.flash.cert.map fun e => { e with ctr := some (d.ctr + 1) } })
      (fun e f' _ => ∃ c, e = .code c ∧ R = some c ∧ f' = s.flash) (fun _ _ => False) s.flash r' := by
    intro r' hR' e1 e2 e3 e4
    exact login_rest hs.he hs.ctr hh e1 e2 e3 hpr (by rw [e4]; exact hal) fun _ => ⟨hR', c, hch, rfl, rfl⟩
  have hseen : ∀ tk : Tok, tk.inUse = d.tok.inUse → tk.up = d.tok.up → (q.pinAuth.isSome && tk.presentFlag) = seen d q := by
    intro tk e1 e2
    unfold Tok.presentFlag seen
    rw [e1, e2, Bool.and_assoc]
  by_cases hup : q.up = .no
  · rw [if_neg (fun h => h.1 hup)] at hR
    rw [if_neg (by
      show ¬ ((true && q.up != .no) = true)
      simp [hup])]
    exact fin _ hR.symm rfl (by rw [hup]; rfl) rfl rfl
  · rw [if_pos (by
      show (true && q.up != .no) = true
      simp [hup])]
    apply wp_bind
    refine login_presence (d := d) (q := q) (hseen t ht1 ht2) ?_ ?_
    · intro h t'
      apply wp_bind
      apply wp_mod
      refine fin _ ?_ rfl ?_ rfl rfl
      · rw [← hR]
        rcases h with h | h
        · rw [if_neg (by rw [h]; rintro ⟨_, h⟩; cases h)]
        · rw [h]
          exact ite_self _
      · show true = _
        rw [decide_eq_true hup]
    · intro h c' hc
      rw [if_pos ⟨hup, h⟩, hc] at hR
      exact same hR.symm

end

end Verif.Ctap
