import Verif.Spec.CtapBlobMach
import Verif.Props.CtapBlob
import Verif.Lemmas.CtapReg
/-
Large blobs: the command and the machine.
-/
namespace Verif.Ctap
open Cmd Verif.Spec.Blobs

variable {x : Ext} {i : In}

/-- The device is in the state of the machine. -/
structure Mirrors (f : Flash) (l : LbS) (m : Mach) : Prop where
  array : f.lb = some m.array
  up : match m.up with
    | .going b n => l = ⟨b.length, n⟩ ∧ (b ≠ [] → f.lbt = some b)
    | .over k => l.off = k ∧ l.len < k

/-- Nothing of the storage has changed but the array and the upload. -/
def BlobOnly (f f' : Flash) : Prop := f' = { f with lb := f'.lb, lbt := f'.lbt }

section
variable {f : Flash} {r : Ram} {E : Err → Flash → Ram → Prop} {X : Flash → Ram → Prop}

theorem blob_message {q : LbReq} (h : q.offset < 65536) : lbMsg x q = message x q := by
  unfold lbMsg message
  have h1 : q.offset / 256 / 256 = 0 := by omega
  have h2 : UInt8.ofNat 0 = 0 := rfl
  rw [h1, Nat.zero_div, h2]
  simp

theorem blob_auth {q : LbReq} {s : St} {Q : Unit → Flash → Ram → Prop} (hf : f = s.flash) (hc : r.consec = s.ram.consec)
    (ht : r.tok = s.ram.tok.observe i.tick) (ho : q.offset < 65536)
    (hX : X f r) (hQ : barrier x s i q = none → ∀ r', r'.lb = r.lb → Q () f r')
    (hE : ∀ c, barrier x s i q = some c → ∀ r', r'.lb = r.lb → E (.code c) f r') : wp cutsOnly (lbAuth x i q) Q E X f r := by
  subst hf
  unfold lbAuth hasPin
  unfold barrier at hQ hE
  apply wp_bind
  apply wp_bind
  apply wp_rdF
  rotate_left
  · intro h; exact absurd rfl h
  · intro _; exact hX
  intro _
  by_cases hp : rdCert (·.pin) s.flash = some []
  · rw [if_pos hp] at hQ
    rw [hp]
    apply wp_pure
    exact wp_pure (hQ rfl r rfl)
  · rw [if_neg hp] at hQ hE
    have hb : wp cutsOnly (match rdCert (·.pin) s.flash with
      | none => pure true
      | some p => pure (!p.isEmpty) : M Bool) (fun b f' r' => b = true ∧ f' = s.flash ∧ r' = r) (fun _ _ _ => False) (fun _ _ => False) s.flash r := by
      cases h : rdCert (·.pin) s.flash with
      | none => exact wp_pure ⟨rfl, rfl, rfl⟩
      | some p =>
        refine wp_pure ⟨?_, rfl, rfl⟩
        cases p with
        | nil => exact absurd h hp
        | cons _ _ => rfl
    refine wp_mono hb ?_ (fun _ _ _ h => h.elim) (fun _ _ h => h.elim)
    rintro b f' r' ⟨rfl, rfl, rfl⟩
    rw [if_neg (by simp)]
    cases ha : q.pinAuth with
    | none =>
      rw [if_pos ha] at hE
      exact wp_fail (hE _ rfl _ rfl)
    | some a =>
      rw [if_neg (by rw [ha]; simp)] at hQ hE
      cases hpr : q.proto with
      | none =>
        rw [if_pos hpr] at hE
        exact wp_fail (hE _ rfl _ rfl)
      | some p =>
        rw [if_neg (by rw [hpr]; simp)] at hQ hE
        dsimp only
        apply wp_bind
        apply wp_get
        apply wp_bind
        apply wp_failIf
        · intro h
          have h : s.ram.consec = 0 := by rw [← hc]; simpa using h
          rw [if_pos h] at hE
          exact hE _ rfl _ rfl
        intro h
        have h : ¬ s.ram.consec = 0 := by rw [← hc]; simpa using h
        rw [if_neg h] at hQ hE
        rw [← ht] at hQ hE
        rw [blob_message ho]
        apply wp_bind
        apply wp_verifyToken x i
        · intro hu
          apply wp_bind
          apply wp_failIf
          · intro _
            rw [if_neg (fun v : Vouched x r'.tok q => by rw [v.inUse] at hu; cases hu)] at hE
            exact hE _ rfl _ rfl
          · intro h; cases h
        · intro hu
          apply wp_bind
          apply wp_failIf
          · intro hm
            rw [if_neg (fun v : Vouched x r'.tok q => by
              obtain ⟨a', p', e1, e2, e3⟩ := v.mac
              rw [ha] at e1
              rw [hpr] at e2
              cases e1
              cases e2
              rw [mac_iff.mpr e3] at hm
              cases hm)] at hE
            exact hE _ rfl _ rfl
          intro hm
          have hm : verifyMac x r'.tok.token (message x q) a p = true := by simpa using hm
          apply wp_failIf
          · intro hp
            have hp : (!r'.tok.has permLbw) = true := hp
            rw [if_neg (fun v : Vouched x r'.tok q => by
              have := v.perm
              unfold Tok.has at hp
              simp at hp
              exact this hp)] at hE
            exact hE _ rfl _ rfl
          intro hp
          have hp : (!r'.tok.has permLbw) = false := hp
          have v : Vouched x r'.tok q := ⟨hu, ⟨a, p, ha, hpr, mac_iff.mp hm⟩, by
            unfold Tok.has at hp
            simpa using hp⟩
          rw [if_pos v] at hQ
          exact hQ rfl _ rfl

/-- A fragment. -/
theorem blob_write {q : LbReq} {s : St} {m : Mach} (hm : Mirrors s.flash s.ram.lb m) (ho : q.offset < 65536) (h17 : q.offset = 0 → 17 ≤ q.length) :
    wp cutsOnly (lbSet x i q)
      (fun a f' r' => (m.write x (barrier x s i q) q).2 = .resp a ∧ Mirrors f' r'.lb (m.write x (barrier x s i q) q).1 ∧ BlobOnly s.flash f')
      (fun e f' r' => ∃ c, e = .code c ∧ (m.write x (barrier x s i q) q).2 = .err c ∧ Mirrors f' r'.lb (m.write x (barrier x s i q) q).1 ∧
        BlobOnly s.flash f')
      (fun f' _ => f'.lb = s.flash.lb ∧ BlobOnly s.flash f') s.flash (aged i s.ram) := by
  generalize hg : barrier x s i q = g
  have key : ∀ (u : Upload) (r1 : Ram), (if q.offset = 0 then Upload.going [] q.length else m.up) = u → r1.consec = s.ram.consec →
      r1.tok = s.ram.tok.observe i.tick → Mirrors s.flash r1.lb ⟨m.array, u⟩ → (∀ b n, u = .going b n → q.offset = 0 → b = []) →
      (∀ b n, u = .going b n → q.offset = 0 → 0 < n) → wp cutsOnly (do
        let r ← Cmd.get
        failIf (q.offset != r.lb.off) Code.invalidSeq
        lbAuth x i q
        failIf (q.offset + q.set.length > r.lb.len) Code.invalidParameter
        Cmd.wrOr (fun f => some { f with
            lbt := some (if q.offset == 0 then q.set else writeAt (f.lbt.getD []) q.offset q.set) })
          (.code Code.unhandled)
        Cmd.mod fun r => { r with lb := { r.lb with off := r.lb.off + q.set.length } }
        if q.offset + q.set.length == r.lb.len then do
          Cmd.mod fun r => { r with lb := { r.lb with len := r.lb.len - 16 } }
          let n := r.lb.len - 16
          let b ← Cmd.rdOr (fun f => f.lbt) (.code Code.unhandled)
          failIf ((x.sha (b.take n)).take 16 != (b.drop n).take 16) Code.integrity
          Cmd.wrOr (fun f => f.lbt.map fun b => { f with lb := some b, lbt := none }) (.code Code.unhandled)
          return .empty
        else return .empty : M Resp)
      (fun a f' r' => (m.write x g q).2 = .resp a ∧ Mirrors f' r'.lb (m.write x g q).1 ∧ BlobOnly s.flash f')
      (fun e f' r' => ∃ c, e = .code c ∧ (m.write x g q).2 = .err c ∧ Mirrors f' r'.lb (m.write x g q).1 ∧ BlobOnly s.flash f')
      (fun f' _ => f'.lb = s.flash.lb ∧ BlobOnly s.flash f') s.flash r1 := by
    intro u r1 hu hc ht hmu hb0 hnp
    have hpos : r1.lb.off = u.pos := by
      cases u with
      | going b n => rw [hmu.up.1]; rfl
      | over k => exact hmu.up.1
    generalize hW : m.write x g q = W
    unfold Mach.write at hW
    rw [hu] at hW
    dsimp only at hW
    apply wp_bind
    apply wp_get
    apply wp_bind
    apply wp_failIf
    · intro h
      have h : q.offset ≠ u.pos := by rw [← hpos]; simpa using h
      rw [if_pos h] at hW
      subst hW
      exact ⟨_, rfl, rfl, hmu, rfl⟩
    intro h
    have hoff : q.offset = u.pos := by rw [← hpos]; simpa using h
    rw [if_neg (fun h => h hoff)] at hW
    apply wp_bind
    refine blob_auth (s := s) rfl hc ht ho ⟨rfl, rfl⟩ ?_ ?_
    rotate_left
    · intro c e r' hr'
      rw [hg] at e
      cases e
      subst hW
      exact ⟨_, rfl, rfl, hr' ▸ hmu, rfl⟩
    intro e r2 hr2
    rw [hg] at e
    cases e
    cases u with
    | over k =>
      subst hW
      apply wp_bind
      apply wp_failIf
      · intro _
        exact ⟨_, rfl, rfl, hr2 ▸ hmu, rfl⟩
      · intro h
        have h : ¬ q.offset + q.set.length > r1.lb.len := by simpa using h
        have hoff : q.offset = k := hoff
        have := hmu.up.2
        omega
    | going b n =>
      dsimp only at hW
      have hlb : r1.lb = ⟨b.length, n⟩ := hmu.up.1
      have hoff : q.offset = b.length := hoff
      have hlen : (b ++ q.set).length = q.offset + q.set.length := by rw [List.length_append, hoff]
      apply wp_bind
      apply wp_failIf
      · intro h
        rw [hlb] at h
        have h : n < (b ++ q.set).length := by rw [hlen]; simpa using h
        rw [if_pos h] at hW
        subst hW
        exact ⟨_, rfl, rfl, hr2 ▸ hmu, rfl⟩
      intro h
      rw [hlb] at h
      have hle : ¬ n < (b ++ q.set).length := by rw [hlen]; simpa using h
      rw [if_neg hle] at hW
      have hw : (if q.offset == 0 then q.set else writeAt (s.flash.lbt.getD []) q.offset q.set) = b ++ q.set := by
        by_cases h0 : q.offset = 0
        · rw [hb0 b n rfl h0]
          simp [h0]
        · have hne : (q.offset == 0) = false := by simp [h0]
          rw [hne, hmu.up.2 (by rintro rfl; exact h0 hoff), hoff]
          exact writeAt_end _ _
      apply wp_bind
      refine wp_wr (f' := { s.flash with lbt := some (b ++ q.set) }) (by rw [hw]) ?_ (fun h => absurd rfl h) (fun _ => ⟨rfl, rfl⟩)
      apply wp_bind
      apply wp_mod
      apply wp_ite <;> intro hfin
      · have hfin : (b ++ q.set).length = n := by
          have hfin := eq_of_beq hfin
          rw [hlb] at hfin
          rw [hlen]
          exact hfin
        rw [if_neg (by omega)] at hW
        have hnpos : 0 < n := by
          by_cases h0 : q.offset = 0
          · exact hnp b n rfl h0
          · omega
        apply wp_bind
        apply wp_mod
        wzeta
        apply wp_bind
        refine wp_rd (b := b ++ q.set) rfl ?_ (fun h => absurd rfl h) (fun _ => ⟨rfl, rfl⟩)
        apply wp_bind
        rw [hlb]
        have h16 : ((b ++ q.set).drop (n - 16)).take 16 = (b ++ q.set).drop (n - 16) :=
          List.take_of_length_le (by rw [List.length_drop, hfin]; omega)
        have hover : ∀ (f2 : Flash) (a : Bytes), f2.lb = some a → Mirrors f2 { off := r2.lb.off + q.set.length, len := r2.lb.len - 16 } ⟨a, .over n⟩ := by
          intro f2 a h
          refine ⟨h, ?_, ?_⟩
          · show r2.lb.off + q.set.length = n
            rw [hr2, hlb, ← hfin, List.length_append]
          · show r2.lb.len - 16 < n
            rw [hr2, hlb]
            show n - 16 < n
            omega
        apply wp_failIf
        · intro h
          have h : ((x.sha ((b ++ q.set).take (n - 16))).take 16 != ((b ++ q.set).drop (n - 16)).take 16) = true := h
          rw [h16] at h
          rw [if_neg (fun e => by rw [e] at h; simp at h)] at hW
          subst hW
          exact ⟨_, rfl, rfl, hover _ _ hm.array, rfl⟩
        intro h
        have h : ((x.sha ((b ++ q.set).take (n - 16))).take 16 != ((b ++ q.set).drop (n - 16)).take 16) = false := h
        rw [h16] at h
        have e : (x.sha ((b ++ q.set).take (n - 16))).take 16 = (b ++ q.set).drop (n - 16) := by simpa using h
        rw [if_pos e.symm] at hW
        subst hW
        apply wp_bind
        refine wp_wr (f' := { s.flash with lb := some (b ++ q.set), lbt := none }) rfl ?_ (fun h => absurd rfl h) (fun _ => ⟨rfl, rfl⟩)
        exact wp_pure ⟨rfl, hover _ _ rfl, rfl⟩
      · have hfin : (b ++ q.set).length ≠ n := by
          intro h
          apply hfin
          rw [hlb, ← hlen, h]
          exact beq_self_eq_true _
        rw [if_pos (by omega)] at hW
        subst hW
        refine wp_pure ⟨rfl, ⟨hm.array, ?_, fun _ => rfl⟩, rfl⟩
        show LbS.mk (r2.lb.off + q.set.length) r2.lb.len = ⟨(b ++ q.set).length, n⟩
        rw [hr2, hlb, List.length_append]
  unfold lbSet
  show wp cutsOnly _ _ _ _ s.flash (aged i s.ram)
  by_cases h0 : q.offset = 0
  · rw [if_pos (by simp [h0])]
    apply wp_bind
    apply wp_mod
    refine key (.going [] q.length) _ (if_pos h0) rfl rfl ⟨hm.array, rfl, fun h => absurd rfl h⟩ ?_ ?_
    · intro b n e _; cases e; rfl
    · intro b n e _; cases e; have := h17 h0; omega
  · rw [if_neg (by simp [h0])]
    exact key m.up _ (if_neg h0) rfl rfl hm (fun _ _ _ h => absurd h h0) (fun _ _ _ h => absurd h h0)

/-- Reading. -/
theorem blob_read {q : LbReq} {n : Nat} {s : St} {m : Mach} (hg : q.get = some n) (hm : Mirrors s.flash s.ram.lb m) :
    wp cutsOnly (largeBlobs x i (.ok q)) (fun a f' r' => m.read q.offset n = .resp a ∧ f' = s.flash ∧ r'.lb = s.ram.lb)
      (fun e f' r' => ∃ c, e = .code c ∧ m.read q.offset n = .err c ∧ f' = s.flash ∧ r'.lb = s.ram.lb)
      (fun f' _ => f' = s.flash) s.flash (aged i s.ram) := by
  unfold largeBlobs
  simp only [hg]
  unfold Mach.read
  apply wp_bind
  refine wp_rd (b := m.array.length) (by simp [hm.array]) ?_ (fun h => absurd rfl h) (fun _ => rfl)
  apply wp_bind
  apply wp_failIf
  · intro h
    have h : m.array.length < q.offset := by simpa using h
    exact ⟨_, rfl, if_pos h, rfl, rfl⟩
  intro h
  have h : ¬ m.array.length < q.offset := by simpa using h
  rw [if_neg h]
  apply wp_bind
  refine wp_rd (b := m.array) hm.array ?_ (fun h => absurd rfl h) (fun _ => rfl)
  refine wp_pure ⟨?_, rfl, rfl⟩
  congr 2
  split
  · rw [List.take_of_length_le (by rw [List.length_drop]; omega), List.take_of_length_le (by rw [List.length_drop]; omega)]
  · rfl

end

/-- Every operation. -/
theorem blob_next {s : St} {m : Mach} (hm : Mirrors s.flash s.ram.lb m) (op : Op) (env : Env) (hr : op.resets = false) (he : noFail env) (hz : Sane op) :
    ((step x s op env).2 = .cut ∧ Mirrors (step x s op env).1.flash (step x s op env).1.ram.lb m.lost) ∨
    ((∀ o, (m.next x s op).2 = some o → (step x s op env).2 = o) ∧
      Mirrors (step x s op env).1.flash (step x s op env).1.ram.lb (m.next x s op).1) := by
  have lost : ∀ (f : Flash), f.lb = s.flash.lb → Mirrors f Ram.init.lb m.lost := by
    intro f hf
    exact ⟨hf.trans hm.array, rfl, fun h => absurd rfl h⟩
  have frame : ∀ {α : Type} (c : M α) (g : α → Out), (∀ a, g a ≠ .cut) → (m.next x s op) = (m, none) → step x s op env = exec c g s env → Rel Blob c →
      ((step x s op env).2 = .cut ∧ Mirrors (step x s op env).1.flash (step x s op env).1.ram.lb m.lost) ∨
      ((∀ o, (m.next x s op).2 = some o → (step x s op env).2 = o) ∧
        Mirrors (step x s op env).1.flash (step x s op env).1.ram.lb (m.next x s op).1) := by
    intro α c g hg hn e hc
    rw [e, hn]
    obtain ⟨h1, h2⟩ := blob_exec (s := s) (env := env) (g := g) hc
    rcases h2 with ⟨h2, h3⟩ | ⟨h2, h3⟩
    · left
      rw [h2]
      exact ⟨h3, lost _ h1⟩
    · right
      refine ⟨nofun, h1.trans hm.array, ?_⟩
      rw [h2, h3]
      exact hm.up
  cases op with
  | powerOn i =>
    obtain ⟨h1, h2⟩ := step_boot (x := x) (i := i) (s := s) (env := env) (by rw [hm.array]; rfl) he
    rw [h1]
    rcases h2 with ⟨h2, h3⟩ | h2
    · left
      rw [h3]
      exact ⟨h2, lost _ rfl⟩
    · right
      rw [h2]
      exact ⟨nofun, lost _ rfl⟩
  | u2f i q => exact frame (u2f x i q) .u2f (fun _ => nofun) rfl rfl (bl_u2f x i q)
  | adminReset i => cases hr
  | installKey k =>
    have : Rel Blob (installKeyM k) := by
      unfold installKeyM
      rels (blobs)
    exact frame (installKeyM k) (fun _ => .done) (fun _ => nofun) rfl rfl this
  | installCert k =>
    have : Rel Blob (installCertM k) := by
      unfold installCertM
      rels (blobs)
    exact frame (installCertM k) (fun _ => .done) (fun _ => nofun) rfl rfl this
  | writeSm2 k =>
    have : Rel Blob (writeSm2M k) := by
      unfold writeSm2M
      rels (blobs)
    exact frame (writeSm2M k) (fun _ => .done) (fun _ => nofun) rfl rfl this
  | cbor i q =>
    have hre : q ≠ .reset := by rintro rfl; cases hr
    have other : (m.next x s (.cbor i q)) = (m, none) → (Op.cbor i q).writesBlob = none → _ := fun h1 h2 =>
      frame (process x i q) .resp (fun _ => nofun) h1 rfl (bl_process i hre h2)
    cases q with
    | lb q =>
      cases q with
      | error c => exact other rfl rfl
      | ok q =>
        cases hg : q.get with
        | some n =>
          have hn : m.next x s (.cbor i (.lb (.ok q))) = (m, some (m.read q.offset n)) := by
            show (match q.get with
              | some n => (m, some (m.read q.offset n))
              | none => _) = _
            rw [hg]
          rw [hn]
          refine cbor_wp (s := s) (i := i) (q := .lb (.ok q)) (env := env) (A := cutsOnly) (P := fun p : St × Out =>
            (p.2 = .cut ∧ Mirrors p.1.flash p.1.ram.lb m.lost) ∨ ((∀ o, some (m.read q.offset n) = some o → p.2 = o) ∧ Mirrors p.1.flash p.1.ram.lb m)) he
            (blob_read hg hm) ?_ ?_ ?_ ?_
          · rintro a f r ⟨h1, rfl, h3⟩
            refine Or.inr ⟨?_, h3 ▸ hm⟩
            rintro o ⟨⟩
            exact h1.symm
          · rintro c f r ⟨c', e, h1, rfl, h3⟩
            cases e
            refine Or.inr ⟨?_, h3 ▸ hm⟩
            rintro o ⟨⟩
            exact h1.symm
          · rintro u f r ⟨c', e, _⟩
            cases e
          · rintro f r rfl
            exact Or.inl ⟨rfl, lost _ rfl⟩
        | none =>
          have hn : m.next x s (.cbor i (.lb (.ok q))) = ((m.write x (barrier x s i q) q).1, some (m.write x (barrier x s i q) q).2) := by
            show (match q.get with
              | some n => (m, some (m.read q.offset n))
              | none => _) = _
            rw [hg]
          rw [hn]
          refine cbor_wp (s := s) (i := i) (q := .lb (.ok q)) (env := env) (A := cutsOnly) (P := fun p : St × Out =>
            (p.2 = .cut ∧ Mirrors p.1.flash p.1.ram.lb m.lost) ∨ ((∀ o, some (m.write x (barrier x s i q) q).2 = some o → p.2 = o) ∧
              Mirrors p.1.flash p.1.ram.lb (m.write x (barrier x s i q) q).1)) he
            (by
              show wp _ (largeBlobs x i (.ok q)) _ _ _ _ _
              unfold largeBlobs
              simp only [hg]
              exact blob_write hm hz.1 (hz.2 hg)) ?_ ?_ ?_ ?_
          · rintro a f r ⟨h1, h2, _⟩
            refine Or.inr ⟨?_, h2⟩
            rintro o ⟨⟩
            exact h1.symm
          · rintro c f r ⟨c', e, h1, h2, _⟩
            cases e
            refine Or.inr ⟨?_, h2⟩
            rintro o ⟨⟩
            exact h1.symm
          · rintro u f r ⟨c', e, _⟩
            cases e
          · rintro f r ⟨h1, _⟩
            exact Or.inl ⟨rfl, lost _ h1⟩
    | mc q => exact other rfl rfl
    | ga q => exact other rfl rfl
    | gna => exact other rfl rfl
    | info => exact other rfl rfl
    | cp q => exact other rfl rfl
    | reset => exact absurd rfl hre
    | cm q => exact other rfl rfl
    | sel => exact other rfl rfl
    | other c => exact other rfl rfl

end Verif.Ctap
