import Verif.Lemmas.CtapCp
/-
What one operation can do to the PIN, its counters and the token.
-/
namespace Verif.Ctap
open Cmd

/-- The outcome of running a command satisfies what its weakest precondition promises. -/
theorem exec_wp {α : Type} {A : Fault → Prop} {m : M α} {g : α → Out} {s : St} {env : Env}
    {Q : α → Flash → Ram → Prop} {E : Err → Flash → Ram → Prop} {X : Flash → Ram → Prop}
    {P : St × Out → Prop} (hA : ∀ n, A (env n)) (h : wp A m Q E X s.flash s.ram)
    (hQ : ∀ a f r, Q a f r → P (⟨f, r⟩, g a)) (hE : ∀ c f r, E (.code c) f r → P (⟨f, r⟩, .err c))
    (hU : ∀ u f r, E (.ub u) f r → P (⟨f, r⟩, .ub u)) (hX : ∀ f r, X f r → P (⟨f, Ram.init⟩, .cut)) :
    P (exec m g s env) := by
  have h1 := h env hA
  unfold exec
  cases hm : m.run ⟨s.flash, s.ram, env⟩ with
  | mk o w =>
    rw [hm] at h1
    cases o with
    | none => exact hX _ _ h1
    | some y =>
      cases y with
      | ok a => exact hQ _ _ _ h1.1
      | error e =>
        cases e with
        | code c => exact hE _ _ _ h1.1
        | ub u => exact hU _ _ _ h1.1

/-- What the certificate file holds after an installation that may have been interrupted. -/
structure Installed (i : In) (f f' : Flash) : Prop where
  pinCtr : rdCert (·.pinCtr) f' = rdCert (·.pinCtr) f
  pin : rdCert (·.pin) f' = rdCert (·.pin) f ∨ rdCert (·.pin) f' = some []
  kh : rdCert (·.kh) f' = rdCert (·.kh) f ∨ rdCert (·.kh) f' = some i.rndKh
  lb : f.lb.isSome = true → f'.lb.isSome = true

/-- The volatile state after an installation. -/
def installedRam (i : In) (r : Ram) : Ram := cpInit i { r with consec := 3, lastCmd := 0xFF }

/-- The effect of a CBOR command on PIN and token; `r` is the state after the token's age was checked. -/
inductive Eff (A : Fault → Prop) (x : Ext) (i : In) (f : Flash) (r : Ram) :
    Req → Option (Except Err Resp) → Flash → Ram → Prop
  | quiet {q o f' r'} : Quiet i.tick f r f' r' → Eff A x i f r q o f' r'
  | token {q f' r' z} : (q.sub = 5 ∨ q.sub = 9) → Match x r.ka q f →
      updCert (fun c => { c with pinCtr := some 8 }) f = some f' → r.consec ≠ 0 →
      decapsulate x r.ka q.key q.proto = some z →
      r' = { r with consec := 3, tok := newTok i q r.tok, lastCmd := r'.lastCmd } →
      Eff A x i f r (.cp (.ok q)) (some (.ok (.token (encrypt x i z i.rndTok q.proto)))) f' r'
  | changed {q f' r'} (n : Bytes) : q.sub = 4 → Match x r.ka q f → 16 ≤ n.length →
      updCert (fun c => { c with pin := some n, pinCtr := some 8 }) f = some f' →
      r' = { r with consec := 3, lastCmd := r'.lastCmd } →
      Eff A x i f r (.cp (.ok q)) (some (.ok .empty)) f' r'
  | failed {q e f' r' r''} : (q.sub = 4 ∨ q.sub = 5 ∨ q.sub = 9) → CpFail x q A (q.sub == 4) f r e f' r' →
      r'' = { r' with lastCmd := r''.lastCmd } → Eff A x i f r (.cp (.ok q)) (some (.error e)) f' r''
  | cut {q f' r'} : (q.sub = 4 ∨ q.sub = 5 ∨ q.sub = 9) → CpCut x q (q.sub == 4) f r.ka f' →
      Eff A x i f r (.cp (.ok q)) none f' r'
  | set {q o f' r'} : q.sub = 3 → rdCert (·.pin) f = some [] → r' = { r with lastCmd := r'.lastCmd } →
      (∃ n, 16 ≤ n.length ∧ (updCert (fun c => { c with pin := some n }) f = some f' ∨
        updCert (fun c => { c with pin := some n, pinCtr := some 8 }) f = some f')) →
      Eff A x i f r (.cp (.ok q)) o f' r'
  | reset {o f' r'} : Installed i f f' → r' = { installedRam i r with lastCmd := r'.lastCmd, sm2 := r'.sm2 } →
      Eff A x i f r .reset o f' r'

instance (i : In) : Pre (fun f _ f' _ => Installed i f f') where
  refl _ _ := ⟨rfl, Or.inl rfl, Or.inl rfl, id⟩
  trans _ _ _ _ _ _ a b := by
    refine ⟨b.pinCtr.trans a.pinCtr, ?_, ?_, fun h => b.lb (a.lb h)⟩
    · cases b.pin with
      | inl h => rw [h]; exact a.pin
      | inr h => exact Or.inr h
    · cases b.kh with
      | inl h => rw [h]; exact a.kh
      | inr h => exact Or.inr h

theorem Installed.ofCert {i : In} {f f' : Flash} (h : f'.cert = f.cert)
    (hl : f.lb.isSome = true → f'.lb.isSome = true) : Installed i f f' := by
  refine ⟨?_, Or.inl ?_, Or.inl ?_, hl⟩ <;> (unfold rdCert; rw [h])

theorem Installed.ofUpd {i : In} {g : Cert → Cert} {f f' : Flash} (h : updCert g f = some f')
    (h1 : ∀ c, (g c).pinCtr = c.pinCtr) (h2 : ∀ c, (g c).pin = c.pin ∨ (g c).pin = some [])
    (h3 : ∀ c, (g c).kh = c.kh ∨ (g c).kh = some i.rndKh) : Installed i f f' := by
  unfold updCert at h
  cases hd : f.cert with
  | none => rw [hd] at h; cases h
  | some c =>
    rw [hd] at h
    cases h
    refine ⟨?_, ?_, ?_, id⟩ <;> (unfold rdCert; rw [hd])
    · exact h1 c
    · exact h2 c
    · exact h3 c

theorem Installed.create {i : In} {f f' : Flash}
    (h : some { f with cert := some (f.cert.getD ⟨[], none, none, none, none, none, none, none⟩) } = some f') :
    Installed i f f' := by
  cases h
  cases hc : f.cert <;> (refine ⟨?_, Or.inl ?_, Or.inl ?_, id⟩ <;> (unfold rdCert; rw [hc]; rfl))

theorem Installed.attr {i : In} {a : Attr} {f f' : Flash} (h : updAttr a f = some f') : Installed i f f' := by
  unfold updAttr at h
  cases hd : f.dc with
  | none => rw [hd] at h; cases h
  | some _ => rw [hd] at h; cases h; exact Installed.ofCert rfl id

/-- RAM of an installation, up to what follows. -/
def RamIs (i : In) (r : Ram) (f : Flash) : Flash → Ram → Prop := fun f' r' =>
  Installed i f f' ∧ r' = { installedRam i r with sm2 := r'.sm2 }

theorem wp_install_any (i : In) (b : Bool) {A : Fault → Prop} {f : Flash} {r : Ram} :
    wp A (install i b) (fun _ => RamIs i r f) (fun _ => RamIs i r f) (RamIs i r f) f r := by
  have key : ∀ (m : M Unit), Rel (fun f r f' r' => Installed i f f' ∧ r' = { r with sm2 := r'.sm2 }) m →
      wp A m (fun _ => RamIs i r f) (fun _ => RamIs i r f) (RamIs i r f) f (installedRam i r) := by
    intro m h
    apply wp_mono (h A f (installedRam i r))
    · exact fun _ _ _ h => h
    · exact fun _ _ _ h => h
    · exact fun _ _ h => h
  have : Pre (fun f (r : Ram) f' (r' : Ram) => Installed i f f' ∧ r' = { r with sm2 := r'.sm2 }) := by
    constructor
    · intro f r
      exact ⟨Pre.refl (R := fun f _ f' _ => Installed i f f') f r, rfl⟩
    · intro f r f' r' f'' r'' a b
      refine ⟨Pre.trans (R := fun f _ f' _ => Installed i f f') f r f' r' f'' r'' a.1 b.1, ?_⟩
      rw [b.2, a.2]
  unfold install
  apply wp_bind
  apply wp_mod
  apply key
  rels (first
    | (intro f r; exact ⟨Pre.refl (R := fun f _ f' _ => Installed i f f') f r, rfl⟩)
    | (intro _ _ _ h; exact ⟨Installed.attr h, rfl⟩)
    | (intro _ _ _ h; exact ⟨Installed.create h, rfl⟩)
    | (intro _ _ _ h; cases h; exact ⟨Installed.ofCert rfl (fun h => by first | exact h | rfl), rfl⟩)
    | (intro _ _ _ h; exact ⟨Installed.ofUpd h (by intro _; rfl) (by intro _; exact Or.inl rfl) (by intro _; exact Or.inl rfl), rfl⟩)
    | (intro _ _ _ h; exact ⟨Installed.ofUpd h (by intro _; rfl) (by intro _; exact Or.inr rfl) (by intro _; exact Or.inl rfl), rfl⟩)
    | (intro _ _ _ h; exact ⟨Installed.ofUpd h (by intro _; rfl) (by intro _; exact Or.inl rfl) (by intro _; exact Or.inr rfl), rfl⟩))

section
variable {A : Fault → Prop} (x : Ext) (i : In) {f : Flash} {r : Ram}

theorem eff_of_quiet {q : Req} {m : M Resp} (h : Rel (Quiet i.tick) m) :
    wp A m (fun a f' r' => Eff A x i f r q (some (.ok a)) f' r') (fun e f' r' => Eff A x i f r q (some (.error e)) f' r')
      (fun f' r' => Eff A x i f r q none f' r') f r :=
  wp_mono (h A f r) (fun _ _ _ h => .quiet h) (fun _ _ _ h => .quiet h) (fun _ _ h => .quiet h)

theorem eff_setPin (hs : x.Sized) {q : CpReq} (h3 : q.sub = 3) :
    wp A (cpSetPin x q) (fun a f' r' => Eff A x i f r (.cp (.ok q)) (some (.ok a)) f' r')
      (fun e f' r' => Eff A x i f r (.cp (.ok q)) (some (.error e)) f' r')
      (fun f' r' => Eff A x i f r (.cp (.ok q)) none f' r') f r := by
  have refl : ∀ o, Eff A x i f r (.cp (.ok q)) o f r := fun o => .quiet (Pre.refl f r)
  unfold cpSetPin
  apply wp_bind
  apply wp_hasPin
  · intro b hb hb'
    apply wp_bind
    apply wp_failIf
    · intro _
      exact refl _
    intro hf
    have hp : rdCert (·.pin) f = some [] := by
      have : b = ((rdCert (·.pin) f).map fun q => !q.isEmpty).getD true := by
        cases hb with
        | inl h =>
          cases hb' h with
          | inl h => rw [hf] at h; cases h
          | inr h => exact h
        | inr h => exact h
      rw [hf] at this
      cases hc : rdCert (·.pin) f with
      | none => rw [hc] at this; cases this
      | some l =>
        rw [hc] at this
        cases l with
        | nil => rfl
        | cons a l => cases this
    apply wp_bind
    unfold shared
    apply wp_bind
    apply wp_get
    cases hz : decapsulate x r.ka q.key q.proto with
    | none => exact wp_fail (refl _)
    | some z =>
      apply wp_pure
      apply wp_bind
      apply wp_failIf
      · intro _
        exact refl _
      intro _
      apply wp_bind
      unfold decryptOr
      cases decrypt x z (q.newPinEnc.take (encSize q.proto)) q.proto with
      | none => exact wp_fail (refl _)
      | some plain =>
        apply wp_pure
        have hlen : 16 ≤ ((x.sha (plain.take (lastNonZero plain 63 + 1))).take 16).length := by
          rw [List.length_take, hs]
          decide
        unfold storeNewPin setPin setPinRetries
        apply wp_bind
        apply wp_bind
        apply wp_failIf
        · intro _
          exact refl _
        intro _
        apply wp_bind
        apply wp_wrOr
        · intro g hg
          apply wp_wrOr
          · intro g' hg'
            apply wp_pure
            refine .set h3 hp rfl ⟨_, hlen, Or.inr ?_⟩
            · unfold updCert at hg hg' ⊢
              cases hc : f.cert with
              | none => rw [hc] at hg; cases hg
              | some c =>
                rw [hc] at hg
                cases hg
                exact hg'
          · intro _
            exact .set h3 hp rfl ⟨_, hlen, Or.inl hg⟩
          · intro _
            exact .set h3 hp rfl ⟨_, hlen, Or.inl hg⟩
          · intro _
            exact .set h3 hp rfl ⟨_, hlen, Or.inl hg⟩
        · intro _
          exact refl _
        · intro _
          exact refl _
        · intro _
          exact refl _
  · intro _
    exact refl _

theorem eff_clientPin (hs : x.Sized) (q : Except Byte CpReq) :
    wp A (clientPin x i q) (fun a f' r' => Eff A x i f r (.cp q) (some (.ok a)) f' r')
      (fun e f' r' => Eff A x i f r (.cp q) (some (.error e)) f' r')
      (fun f' r' => Eff A x i f r (.cp q) none f' r') f r := by
  unfold clientPin
  cases q with
  | error c => exact wp_fail (.quiet (Pre.refl f r))
  | ok q =>
    show wp A (if q.sub == 1 then _ else _) _ _ _ f r
    apply wp_ite
    · intro _
      exact eff_of_quiet x i (by rels (quiet))
    intro _
    apply wp_ite
    · intro _
      exact eff_of_quiet x i (by rels (quiet))
    intro _
    apply wp_ite
    · intro h
      exact eff_setPin x i hs (eq_of_beq h)
    intro _
    apply wp_ite
    · intro h
      have h4 : q.sub = 4 := eq_of_beq h
      apply wp_mono (wp_changePin x q hs)
      · rintro a f' r' ⟨hm, ⟨n, hn, hu⟩, hr, ha⟩
        subst ha
        exact .changed n h4 hm hn hu (by rw [hr])
      · intro e f' r' hf
        exact .failed (Or.inl h4) (by rw [h4]; exact hf) rfl
      · intro f' r' hf
        exact .cut (Or.inl h4) (by rw [h4]; exact hf)
    intro hn4
    apply wp_ite
    · intro h
      have h5 : q.sub = 5 ∨ q.sub = 9 := by simpa using h
      have h4 : (q.sub == 4) = false := by simpa using hn4
      apply wp_mono (wp_getToken x i q)
      · rintro a f' r' ⟨hm, hu, hr, hc, z, hz, ha⟩
        subst ha
        exact .token h5 hm hu hc hz (by rw [hr])
      · intro e f' r' hf
        exact .failed (Or.inr h5) (by rw [h4]; exact hf) rfl
      · intro f' r' hf
        exact .cut (Or.inr h5) (by rw [h4]; exact hf)
    intro _
    exact wp_pure (.quiet (Pre.refl f r))

theorem eff_handle (hs : x.Sized) (q : Req) :
    wp A (handle x i q) (fun a f' r' => Eff A x i f r q (some (.ok a)) f' r')
      (fun e f' r' => Eff A x i f r q (some (.error e)) f' r')
      (fun f' r' => Eff A x i f r q none f' r') f r := by
  cases q with
  | mc q => exact eff_of_quiet x i (q_makeCredential x i q)
  | ga q => exact eff_of_quiet x i (q_getAssertion x i q)
  | gna => exact eff_of_quiet x i (q_getNextAssertion x i _)
  | info =>
    apply eff_of_quiet
    unfold handle
    rels (first | exact q_hasPin _ | quiet)
  | cp q => exact eff_clientPin x i hs q
  | reset =>
    unfold handle resetData
    apply wp_bind
    apply wp_failIf
    · intro _
      exact .quiet (Pre.refl f r)
    intro _
    apply wp_bind
    apply wp_mono (wp_install_any i true)
    · intro _ f' r' h
      exact wp_pure (.reset h.1 (by rw [h.2]))
    · intro _ f' r' h
      exact .reset h.1 (by rw [h.2])
    · intro f' r' h
      exact .reset h.1 (by rw [h.2])
  | cm q => exact eff_of_quiet x i (q_credMgmt x i q)
  | sel =>
    apply eff_of_quiet
    unfold handle
    rels (first | exact q_wait _ _ _ | quiet)
  | lb q => exact eff_of_quiet x i (q_largeBlobs x i q)
  | other c =>
    apply eff_of_quiet
    unfold handle
    rels (quiet)

theorem Eff.last {q : Req} {o : Option (Except Err Resp)} {f' : Flash} {r' : Ram} (h : Eff A x i f r q o f' r')
    (c : Byte) : Eff A x i f r q o f' { r' with lastCmd := c } := by
  cases h with
  | quiet h => exact .quiet (Pre.trans _ _ _ _ _ _ h Quiet.ram)
  | token h1 h2 h3 h4 h5 h6 => exact .token h1 h2 h3 h4 h5 (by rw [h6])
  | changed n h1 h2 h3 h4 h5 => exact .changed n h1 h2 h3 h4 (by rw [h5])
  | failed h1 h2 h3 => exact .failed h1 h2 (by rw [h3])
  | cut h1 h2 => exact .cut h1 h2
  | set h1 h2 h3 h4 => exact .set h1 h2 (by rw [h3]) h4
  | reset h1 h2 => exact .reset h1 (by rw [h2])

/-- The state in which a command is handled: an old token has been dropped. -/
def aged (r : Ram) : Ram := { r with tok := r.tok.observe i.tick }

theorem eff_process (hs : x.Sized) (q : Req) :
    wp A (process x i q) (fun a f' r' => Eff A x i f (aged i r) q (some (.ok a)) f' r')
      (fun e f' r' => Eff A x i f (aged i r) q (some (.error e)) f' r')
      (fun f' r' => Eff A x i f (aged i r) q none f' r') f r := by
  unfold process
  apply wp_bind
  apply wp_mod
  apply wp_bind
  apply wp_catch
  apply wp_mono (eff_handle (r := aged i r) x i hs q)
  · intro a f' r' h
    apply wp_bind
    apply wp_mod
    exact wp_pure (h.last x i _)
  · intro e f' r' h
    cases e with
    | code c =>
      apply wp_bind
      apply wp_mod
      exact wp_fail (h.last x i _)
    | ub u => exact wp_throw h
  · exact fun _ _ h => h

/-- The effect of a CBOR command on state and output. -/
def CborOut (A : Fault → Prop) (x : Ext) (i : In) (s : St) (q : Req) (p : St × Out) : Prop :=
  ∃ o r', Eff A x i s.flash (aged i s.ram) q o p.1.flash r' ∧
    (p.2 = .cut ∧ o = none ∧ p.1.ram = Ram.init ∨
     p.1.ram = r' ∧
      ((∃ a, o = some (.ok a) ∧ p.2 = .resp a) ∨ (∃ c, o = some (.error (.code c)) ∧ p.2 = .err c) ∨
       (∃ u, o = some (.error (.ub u)) ∧ p.2 = .ub u)))

theorem step_cbor (hs : x.Sized) (s : St) (q : Req) {env : Env} (hA : ∀ n, A (env n)) :
    CborOut A x i s q (step x s (.cbor i q) env) := by
  unfold step
  apply exec_wp (P := CborOut A x i s q) hA (eff_process x i hs q)
  · intro a f r h
    exact ⟨_, r, h, Or.inr ⟨rfl, Or.inl ⟨a, rfl, rfl⟩⟩⟩
  · intro c f r h
    exact ⟨_, r, h, Or.inr ⟨rfl, Or.inr (Or.inl ⟨c, rfl, rfl⟩)⟩⟩
  · intro u f r h
    exact ⟨_, r, h, Or.inr ⟨rfl, Or.inr (Or.inr ⟨u, rfl, rfl⟩)⟩⟩
  · intro f r h
    exact ⟨_, r, h, Or.inl ⟨rfl, rfl, rfl⟩⟩

/-- The effect of the other operations. -/
inductive OtherOut (x : Ext) (s : St) : Op → St × Out → Prop
  | boot {i f' r' o} : Installed i s.flash f' →
      (o = .cut ∧ r' = Ram.init ∨ r' = { installedRam i Ram.init with sm2 := r'.sm2 }) →
      OtherOut x s (.powerOn i) (⟨f', r'⟩, o)
  | reset {i f' r' o} : Installed i s.flash f' →
      (o = .cut ∧ r' = Ram.init ∨ r' = { installedRam i s.ram with sm2 := r'.sm2 }) →
      OtherOut x s (.adminReset i) (⟨f', r'⟩, o)
  | u2f {i q f' r' o} : Quiet i.tick s.flash s.ram f' r' → OtherOut x s (.u2f i q) (⟨f', r'⟩, o)
  | u2fCut {i q f' r'} : Quiet i.tick s.flash s.ram f' r' → OtherOut x s (.u2f i q) (⟨f', Ram.init⟩, .cut)
  | admin {op f' r' o} : (∀ i, op ≠ .powerOn i) → (∀ i, op ≠ .adminReset i) → (∀ i q, op ≠ .u2f i q) →
      (∀ now r, Quiet now s.flash r f' r) → (o = .cut ∧ r' = Ram.init ∨ r' = { s.ram with sm2 := r'.sm2 }) →
      OtherOut x s op (⟨f', r'⟩, o)

/-- Flash keeps PIN, counters and keys; RAM keeps all but the SM2 configuration. -/
def AdminRel : FRel := fun f r f' r' => (∀ now r, Quiet now f r f' r) ∧ r' = { r with sm2 := r'.sm2 }

instance : Pre AdminRel where
  refl _ _ := ⟨fun _ _ => Pre.refl _ _, rfl⟩
  trans _ _ _ _ _ _ a b := ⟨fun now r => Pre.trans _ _ _ _ _ _ (a.1 now r) (b.1 now r), by rw [b.2, a.2]⟩

theorem exec_admin {m : M Unit} (h : Rel AdminRel m) {s : St} {env : Env} {op : Op}
    (h1 : ∀ i, op ≠ .powerOn i) (h2 : ∀ i, op ≠ .adminReset i) (h3 : ∀ i q, op ≠ .u2f i q) :
    OtherOut x s op (exec m (fun _ => .done) s env) := by
  apply exec_wp (P := OtherOut x s op) (A := fun _ => True) (fun _ => trivial) (h _ _ _)
  · intro a f r h
    exact .admin h1 h2 h3 h.1 (Or.inr h.2)
  · intro a f r h
    exact .admin h1 h2 h3 h.1 (Or.inr h.2)
  · intro a f r h
    exact .admin h1 h2 h3 h.1 (Or.inr h.2)
  · intro f r h
    exact .admin h1 h2 h3 h.1 (Or.inl ⟨rfl, rfl⟩)

theorem quiet_createData {now : UInt32} {b : Bytes} {f f' : Flash} {r : Ram}
    (h : some { f with cert := some { f.cert.getD ⟨[], none, none, none, none, none, none, none⟩ with data := b } }
      = some f') : Quiet now f r f' r := by
  cases h
  cases hc : f.cert <;>
    (refine ⟨?_, ?_, ?_, ?_, rfl, rfl, rfl, id, TokLe.refl _ _⟩ <;> (unfold rdCert; rw [hc]; rfl))

theorem step_other (s : St) (op : Op) (env : Env) (h : ∀ i q, op ≠ .cbor i q) :
    OtherOut x s op (step x s op env) := by
  cases op with
  | cbor i q => exact absurd rfl (h i q)
  | powerOn i =>
    unfold step
    apply exec_wp (P := OtherOut x s (.powerOn i)) (A := fun _ => True) (fun _ => trivial) (wp_install_any i false)
    · intro a f r h
      exact .boot h.1 (Or.inr h.2)
    · intro a f r h
      exact .boot h.1 (Or.inr h.2)
    · intro a f r h
      exact .boot h.1 (Or.inr h.2)
    · intro f r h
      exact .boot h.1 (Or.inl ⟨rfl, rfl⟩)
  | adminReset i =>
    unfold step
    apply exec_wp (P := OtherOut x s (.adminReset i)) (A := fun _ => True) (fun _ => trivial) (wp_install_any i true)
    · intro a f r h
      exact .reset h.1 (Or.inr h.2)
    · intro a f r h
      exact .reset h.1 (Or.inr h.2)
    · intro a f r h
      exact .reset h.1 (Or.inr h.2)
    · intro f r h
      exact .reset h.1 (Or.inl ⟨rfl, rfl⟩)
  | u2f i q =>
    unfold step
    apply exec_wp (P := OtherOut x s (.u2f i q)) (A := fun _ => True) (fun _ => trivial) (q_u2f x i i.tick q _ _ _)
    · intro a f r h
      exact .u2f h
    · intro a f r h
      exact .u2f h
    · intro a f r h
      exact .u2f h
    · intro f r h
      exact .u2fCut h
  | installKey k =>
    refine exec_admin x ?_ (by intro _ h; cases h) (by intro _ h; cases h) (by intro _ _ h; cases h)
    unfold installKeyM
    rels (first
      | (intro _ _; exact ⟨fun _ _ => Pre.refl _ _, rfl⟩)
      | (intro _ _ _ h; exact ⟨fun _ _ => Quiet.updCert' h, rfl⟩))
  | installCert c =>
    refine exec_admin x ?_ (by intro _ h; cases h) (by intro _ h; cases h) (by intro _ _ h; cases h)
    unfold installCertM
    apply Rel.wrOr
    intro f r f' h
    exact ⟨fun _ _ => quiet_createData h, rfl⟩
  | writeSm2 c =>
    refine exec_admin x ?_ (by intro _ h; cases h) (by intro _ h; cases h) (by intro _ _ h; cases h)
    unfold writeSm2M
    rels (first
      | (intro _ _; exact ⟨fun _ _ => Pre.refl _ _, rfl⟩)
      | (intro _ _ _ h; exact ⟨fun _ _ => Quiet.updCert' h, rfl⟩))
end

end Verif.Ctap
