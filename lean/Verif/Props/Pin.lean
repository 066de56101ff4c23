import Verif.Lemmas.Pin
/-
C01-C04: PIN objects (`/repo/src/pin.c`).
-/
namespace Verif.Pin
open Verif.Spec.Pin (Abs Call Res)

/-- The admin PIN object: 6..64 bytes, `memcmp_s` returning -1 on difference. -/
def exCfg : Cfg := ⟨6, 64, -1⟩
example : exCfg.Ok := ⟨by decide, by decide⟩

/-- The factory admin PIN "123456" with 3 of 3 retries. -/
def exPin : Bytes := [0x31, 0x32, 0x33, 0x34, 0x35, 0x36]
def exSt : St := ⟨some ⟨exPin, some 3, some 3⟩, ⟨false⟩⟩

/-! ### C01 -/

/-- Calls that cannot give retries back: everything except creating, changing or clearing the
PIN. -/
def Op.cannotRefill : Op → Prop
  | .create .. | .update .. | .clear => False
  | _ => True

/-- **C01.** Once the counter of a PIN is 0, no history of calls other than create/update/clear,
with any candidates and under any storage failures and power cuts, ever accepts a candidate, sets
the validated flag, or changes anything on flash. -/
theorem C01_blocked_stays_blocked (cfg : Cfg) (hc : cfg.Ok) (p : PinFile) (hp : p.ctr = some 0)
    (ram : Ram) (h : List (Op × Env)) (hops : ∀ x ∈ h, x.1.cannotRefill)
    (hb : ∀ x ∈ h, x.1.bufOk) :
    (run cfg ⟨some p, ram⟩ h).1.flash = some p ∧
    (∀ o ∈ (run cfg ⟨some p, ram⟩ h).2, ∀ n, o ≠ .verified .ok n) ∧
    ((run cfg ⟨some p, ram⟩ h).1.ram.validated = true →
      ram.validated = true ∧ ∀ x ∈ h, x.1 = .getRetries) := by
  induction h generalizing ram with
  | nil => simp
  | cons x h ih =>
    have hstep : (step cfg ⟨some p, ram⟩ x.1 x.2).1.flash = some p ∧
        (∀ n, (step cfg ⟨some p, ram⟩ x.1 x.2).2 ≠ .verified .ok n) ∧
        ((step cfg ⟨some p, ram⟩ x.1 x.2).1.ram.validated = true →
          ram.validated = true ∧ x.1 = .getRetries) := by
      have hop := hops x (by simp)
      have hbx := hb x (by simp)
      obtain ⟨op, env⟩ := x
      cases op with
      | create => exact hop.elim
      | update => exact hop.elim
      | clear => exact hop.elim
      | verify st b l =>
        rcases verify_char cfg hc _ st b l hbx env _ rfl with
          h' | ⟨q, c, hf, hctr, h0, _⟩ | ⟨q, c, hf, hctr, h0, _⟩
        · rw [h'.1]; exact ⟨rfl, h'.2, fun h => Bool.noConfusion h⟩
        · cases hf; rw [hp] at hctr; cases hctr; exact absurd rfl h0
        · cases hf; rw [hp] at hctr; cases hctr; exact absurd rfl h0
      | getRetries =>
        have := exec_getRetries ⟨some p, ram⟩ env _ rfl
        refine ⟨this.2, ?_, fun h => ⟨this.1 h, rfl⟩⟩
        intro n
        simp only [step, exec]
        split <;> simp
      | powerOff => exact ⟨rfl, by simp [step], fun h => Bool.noConfusion h⟩
    obtain ⟨hf, ho, hv⟩ := hstep
    have ih' := ih (step cfg ⟨some p, ram⟩ x.1 x.2).1.ram
      (fun y hy => hops y (by simp [hy])) (fun y hy => hb y (by simp [hy]))
    have heq : (⟨some p, (step cfg ⟨some p, ram⟩ x.1 x.2).1.ram⟩ : St) =
        (step cfg ⟨some p, ram⟩ x.1 x.2).1 := St_eq hf
    rw [heq] at ih'
    simp only [run_cons]
    refine ⟨ih'.1, ?_, ?_⟩
    · intro o hom n
      rcases List.mem_cons.1 hom with rfl | hom
      · exact ho n
      · exact ih'.2.1 o hom n
    · intro hval
      have h1 := ih'.2.2 hval
      have h2 := hv h1.1
      refine ⟨h2.1, ?_⟩
      intro y hy
      rcases List.mem_cons.1 hy with rfl | hy
      · exact h2.2
      · exact h1.2 y hy

/-- Non-vacuity: a blocked PIN, the right candidate presented twice, flash failing once. -/
example : ∃ h : List (Op × Env), h.length = 3 ∧ (∀ x ∈ h, x.1.cannotRefill) ∧
    (∀ x ∈ h, x.1.bufOk) ∧
    (run exCfg ⟨some ⟨exPin, some 0, some 3⟩, ⟨false⟩⟩ h).2 =
      [.verified .authFail (some 0), .verified .ioFail none, .retries (some 0)] :=
  ⟨[(.verify [] exPin 6, Env.good), (.verify [] exPin 6, fun _ => .fail), (.getRetries, Env.good)],
    by decide, by simp [Op.cannotRefill], by simp [Op.bufOk, exPin], by decide⟩

/-! ### C02 -/

/-- The refinement, for histories: with working storage every history of verify / update /
get-retries / power-off calls gives exactly the answers of the abstract PIN. -/
theorem C02_refines_abstract_pin (cfg : Cfg) (hc : cfg.Ok) (hmax : cfg.maxLen ≤ 64) (s : St)
    (a : Abs) (hR : Rel s a) (h : List Op) (cs : List Call)
    (hcs : h.map Op.call = cs.map some) (hb : ∀ op ∈ h, op.bufOk) :
    let r := run cfg s (h.map fun op => (op, Env.good))
    let q := Spec.Pin.run cfg.minLen.toNat cfg.maxLen.toNat a cs
    Rel r.1 q.1 ∧ r.2.map Out.res = q.2.map some := by
  induction h generalizing s a cs with
  | nil =>
    cases cs with
    | nil => exact ⟨hR, rfl⟩
    | cons _ _ => simp at hcs
  | cons op h ih =>
    cases cs with
    | nil => simp at hcs
    | cons c cs =>
      simp only [List.map_cons, List.cons.injEq] at hcs
      obtain ⟨h1, h2⟩ := step_refines cfg hc hmax s a op c hcs.1 (hb op (by simp)) hR
      have h3 := ih _ _ h1 cs hcs.2 (fun o ho => hb o (by simp [ho]))
      simp only [List.map_cons, run_cons, Spec.Pin.run]
      exact ⟨h3.1, by simp only [h2, h3.2]⟩

/-- **C02.** With working storage, in any history of verify calls none of which succeeds, every
call with a permitted length costs exactly one retry until none is left: after `k` such calls the
counter is `start - k` (and 0 from then on), so at most `start` wrong candidates are ever
compared. -/
theorem C02_guess_budget (cfg : Cfg) (hc : cfg.Ok) (hmax : cfg.maxLen ≤ 64) (pin : Bytes)
    (hpin : pin.length ≤ 64) (c d : UInt8) (ram : Ram) (h : List Op)
    (hv : ∀ op ∈ h, ∃ st b l, op = .verify st b l) (hb : ∀ op ∈ h, op.bufOk)
    (hno : ∀ o ∈ (run cfg ⟨some ⟨pin, some c, some d⟩, ram⟩ (h.map fun op => (op, Env.good))).2,
      ∀ n, o ≠ .verified .ok n) :
    ∃ c' : UInt8, (run cfg ⟨some ⟨pin, some c, some d⟩, ram⟩
        (h.map fun op => (op, Env.good))).1.flash = some ⟨pin, some c', some d⟩ ∧
      c'.toNat = c.toNat - (h.filter fun op => match op with
        | .verify _ _ l => cfg.minLen ≤ l && l ≤ cfg.maxLen
        | _ => false).length := by
  induction h generalizing c ram with
  | nil => exact ⟨c, rfl, rfl⟩
  | cons op h ih =>
    obtain ⟨st, b, l, rfl⟩ := hv op (by simp)
    have hbx := hb _ (by simp : Op.verify st b l ∈ Op.verify st b l :: h)
    have hR : Rel ⟨some ⟨pin, some c, some d⟩, ram⟩ ⟨pin, c.toNat, d.toNat, ram.validated⟩ :=
      ⟨c, d, rfl, hpin, rfl, rfl, rfl⟩
    obtain ⟨h1, h2⟩ := step_refines cfg hc hmax _ _ (.verify st b l) _ rfl hbx hR
    have hno1 := hno (step cfg ⟨some ⟨pin, some c, some d⟩, ram⟩ (.verify st b l) Env.good).2
      (by simp)
    obtain ⟨c1, d1, hf, _, hl1, hm1, _⟩ := h1
    have hcl : (candidate b l).length = l.toNat := by
      have : l.toNat ≤ b.length := hbx
      simp [candidate]; omega
    have hres : (step cfg ⟨some ⟨pin, some c, some d⟩, ram⟩ (.verify st b l) Env.good).2.res ≠
        some .accepted := by
      intro hh
      cases ho : (step cfg ⟨some ⟨pin, some c, some d⟩, ram⟩ (.verify st b l) Env.good).2 with
      | verified r n => cases r <;> rw [ho] at hh <;> first | exact absurd ho (hno1 n) | skip
                        all_goals (cases n <;> simp [Out.res] at hh)
      | rc r => rw [ho] at hh; cases r <;> simp [Out.res] at hh
      | retries n => rw [ho] at hh; cases n <;> simp [Out.res] at hh
      | none => rw [ho] at hh; simp [Out.res] at hh
      | cut => rw [ho] at hh; simp [Out.res] at hh
    -- the abstract step cannot have been an acceptance
    have hpinmax : (Spec.Pin.step cfg.minLen.toNat cfg.maxLen.toNat
          ⟨pin, c.toNat, d.toNat, ram.validated⟩ (.verify (candidate b l))).1.pin = pin ∧
        (Spec.Pin.step cfg.minLen.toNat cfg.maxLen.toNat
          ⟨pin, c.toNat, d.toNat, ram.validated⟩ (.verify (candidate b l))).1.max = d.toNat ∧
        (Spec.Pin.step cfg.minLen.toNat cfg.maxLen.toNat
          ⟨pin, c.toNat, d.toNat, ram.validated⟩ (.verify (candidate b l))).1.left =
          c.toNat - (if cfg.minLen ≤ l && l ≤ cfg.maxLen then 1 else 0) := by
      rw [h2] at hres
      simp only [Spec.Pin.step, hcl] at hres ⊢
      by_cases hl : l.toNat < cfg.minLen.toNat ∨ cfg.maxLen.toNat < l.toNat
      · have : ¬ (cfg.minLen ≤ l ∧ l ≤ cfg.maxLen) := by
          rw [UInt8.le_iff_toNat_le, UInt8.le_iff_toNat_le]; omega
        simp [hl, this]
      · have : cfg.minLen ≤ l ∧ l ≤ cfg.maxLen := by
          rw [UInt8.le_iff_toNat_le, UInt8.le_iff_toNat_le]; omega
        simp only [hl, if_false] at hres ⊢
        by_cases h0 : c.toNat = 0
        · simp [h0]
        · simp only [h0, if_false] at hres ⊢
          by_cases hcd : candidate b l = pin
          · simp [hcd] at hres
          · simp [hcd, this]
    rw [hpinmax.1] at hf
    rw [hpinmax.2.1] at hm1
    rw [hpinmax.2.2] at hl1
    have hd : d1 = d := UInt8.toNat_inj.1 hm1.symm
    subst hd
    have ih' := ih c1 (step cfg ⟨some ⟨pin, some c, some d1⟩, ram⟩ (.verify st b l) Env.good).1.ram
      (fun o ho => hv o (by simp [ho])) (fun o ho => hb o (by simp [ho]))
    have heq : (⟨some ⟨pin, some c1, some d1⟩,
        (step cfg ⟨some ⟨pin, some c, some d1⟩, ram⟩ (.verify st b l) Env.good).1.ram⟩ : St) =
        (step cfg ⟨some ⟨pin, some c, some d1⟩, ram⟩ (.verify st b l) Env.good).1 := St_eq hf
    rw [heq] at ih'
    obtain ⟨c', hc'1, hc'2⟩ := ih' (by
      intro o ho n
      apply hno o
      simp only [List.map_cons, run_cons]
      exact List.mem_cons_of_mem _ ho)
    refine ⟨c', ?_, ?_⟩
    · simpa only [List.map_cons, run_cons] using hc'1
    · rw [hc'2, ← hl1]
      by_cases hll : (cfg.minLen ≤ l && l ≤ cfg.maxLen) = true <;> simp [hll] <;> omega

/-- Non-vacuity and the boundary: three wrong guesses (and one of wrong length, free) block the
factory PIN; the right PIN is then refused. -/
example : (run exCfg exSt ([Op.verify [] [0, 0, 0, 0, 0, 0] 6, .verify [] [0] 1,
      .verify [] [1, 1, 1, 1, 1, 1] 6, .verify [] [0x31, 0x32, 0x33, 0x34, 0x35, 0x36, 0x37] 7,
      .verify [] exPin 6].map fun op => (op, Env.good))).2 =
    [.verified .authFail (some 2), .verified .lengthInvalid none, .verified .authFail (some 1),
     .verified .authFail (some 0), .verified .authFail (some 0)] := by decide
example : Rel exSt ⟨exPin, 3, 3, false⟩ := ⟨3, 3, rfl, by decide, rfl, rfl, rfl⟩

/-! ### C03 -/

/-- **C03.** If the PIN is validated at the end of any history that started unvalidated (any calls,
any arguments, any storage failures and power cuts), then some call of the history was a verify
whose candidate equalled, byte for byte, the PIN stored at that moment, made with a non-zero retry
counter, and since then there was no other verify, no change of PIN with permitted length and no
end of session. -/
theorem C03_validated_only_by_pin (cfg : Cfg) (hc : cfg.Ok) (hmax : cfg.maxLen ≤ 64) (s : St)
    (hs : Short s.flash) (hs0 : s.ram.validated = false) (h : List (Op × Env))
    (hb : ∀ x ∈ h, x.1.bufOk) (hsh : ∀ x ∈ h, x.1.short)
    (hval : (run cfg s h).1.ram.validated = true) :
    ∃ h1 st b l env h2 p c, h = h1 ++ (.verify st b l, env) :: h2 ∧
      (run cfg s h1).1.flash = some p ∧ p.ctr = some c ∧ c ≠ 0 ∧
      candidate b l = p.data ∧ lenOk cfg l ∧ ∀ x ∈ h2, ¬ x.1.closes cfg := by
  suffices hsuff : (s.ram.validated = true ∧ ∀ x ∈ h, ¬ x.1.closes cfg) ∨
      ∃ h1 st b l env h2 p c, h = h1 ++ (.verify st b l, env) :: h2 ∧
      (run cfg s h1).1.flash = some p ∧ p.ctr = some c ∧ c ≠ 0 ∧
      candidate b l = p.data ∧ lenOk cfg l ∧ ∀ x ∈ h2, ¬ x.1.closes cfg by
    rcases hsuff with h | h
    · rw [hs0] at h; exact Bool.noConfusion h.1
    · exact h
  clear hs0
  induction h generalizing s with
  | nil => left; exact ⟨hval, by simp⟩
  | cons x h ih =>
    have hbx := hb x (by simp)
    have hsx := hsh x (by simp)
    rw [run_cons] at hval
    rcases ih _ (step_short cfg hc hmax s x.1 x.2 hbx hsx hs) (fun y hy => hb y (by simp [hy]))
      (fun y hy => hsh y (by simp [hy])) hval with ⟨hv, hn⟩ | hex
    · rcases step_validated cfg hc s x.1 x.2 hbx hv with ⟨hv', hn'⟩ | ⟨st, b, l, p, c, h1, h2, h3, h4, h5, h6⟩
      · left
        refine ⟨hv', ?_⟩
        intro y hy
        rcases List.mem_cons.1 hy with rfl | hy
        · exact hn'
        · exact hn y hy
      · right
        refine ⟨[], st, b, l, x.2, h, p, c, ?_, h2, h3, h4, ?_, h5, hn⟩
        · rw [← h1]; rfl
        · rw [h6, List.take_of_length_le (hs p h2)]
    · right
      obtain ⟨h1, st, b, l, env, h2, p, c, he, hf, rest⟩ := hex
      exact ⟨x :: h1, st, b, l, env, h2, p, c, by rw [he]; rfl, hf, rest⟩

/-- Non-vacuity: wrong guess, right guess, then a report - the PIN ends up validated. -/
example : (run exCfg exSt [(.verify [] [0, 0, 0, 0, 0, 0] 6, Env.good),
    (.verify [] exPin 6, Env.good), (.getRetries, Env.good)]).1.ram.validated = true ∧
    Short exSt.flash := ⟨by decide, by intro p hp; cases hp; decide⟩

/-- The assumption on `memcmp_s` is needed: were its "different" result 1, a longer wrong candidate
would be accepted. -/
theorem C03_memcmp_assumption_needed :
    (step ⟨6, 64, 1⟩ exSt (.verify [] [9, 9, 9, 9, 9, 9, 9] 7) Env.good).2 =
      .verified .ok (some 3) := by decide

/-! ### C04 -/

/-- **C04 (part).** A verify call interrupted or failing at any point leaves the stored PIN and the
default counter alone, and leaves the retry counter unchanged, one lower (wrong candidate), or - for
the right candidate only - back at the default.  What is missing from the full wish: the
counter is only lowered after the comparison, see `C04_uncharged_guess`. -/
theorem C04_power_cut_partial (cfg : Cfg) (hc : cfg.Ok) (s : St) (p : PinFile)
    (hp : s.flash = some p) (st b : Bytes) (l : UInt8) (hb : l.toNat ≤ b.length) (env : Env) :
    ∃ p', (step cfg s (.verify st b l) env).1.flash = some p' ∧ p'.data = p.data ∧
      p'.dflt = p.dflt ∧
      (p'.ctr = p.ctr ∨
       (∃ c, p.ctr = some c ∧ c ≠ 0 ∧ p'.ctr = some (c - 1) ∧ candidate b l ≠ p.data.take 64) ∨
       (∃ c, p.ctr = some c ∧ c ≠ 0 ∧ p'.ctr = p.dflt ∧ candidate b l = p.data.take 64)) := by
  rcases verify_char cfg hc s st b l hb env _ rfl with
    h | ⟨q, c, hf, hctr, h0, _, hcd, h⟩ | ⟨q, c, hf, hctr, h0, _, hcd, _, h⟩
  · exact ⟨p, by rw [h.1, hp], rfl, rfl, .inl rfl⟩
  · rw [hp] at hf; cases hf
    exact ⟨{ p with ctr := some (c - 1) }, by rw [h], rfl, rfl,
      .inr (.inl ⟨c, hctr, h0, rfl, hcd⟩)⟩
  · rw [hp] at hf; cases hf
    rcases h with ⟨h, _⟩ | ⟨d, hd, h, _⟩
    · exact ⟨p, by rw [h, hp], rfl, rfl, .inl rfl⟩
    · exact ⟨_, h, rfl, rfl, .inr (.inr ⟨c, hctr, h0, hd.symm, hcd⟩)⟩

/-- A schedule that lets the two reads of `pin_verify` through and cuts power at its write, i.e.
after the comparison. -/
def cutAtWrite : Env := fun n => if n < 2 then .ok else .cut

/-- **C04 (refutation of the full wish).** Cutting power right after the comparison charges
nothing: any number of wrong candidates can be compared this way and the counter is still where it
was. -/
theorem C04_uncharged_guess (cfg : Cfg) (hc : cfg.Ok) (p : PinFile) (c : UInt8)
    (hctr : p.ctr = some c) (h0 : c ≠ 0) (guesses : List (Bytes × Bytes × UInt8))
    (hg : ∀ g ∈ guesses, g.2.2.toNat ≤ g.2.1.length ∧ lenOk cfg g.2.2 ∧
      candidate g.2.1 g.2.2 ≠ p.data.take 64) :
    run cfg ⟨some p, ⟨false⟩⟩ (guesses.map fun g => (.verify g.1 g.2.1 g.2.2, cutAtWrite)) =
      (⟨some p, ⟨false⟩⟩, guesses.map fun _ => .cut) := by
  induction guesses with
  | nil => rfl
  | cons g gs ih =>
    obtain ⟨hb, hl, hcd⟩ := hg g (by simp)
    have hm := match_iff cfg hc (p.data.take 64) g.1 g.2.1 g.2.2 hb
    have hmm : mismatch cfg (p.data.take 64) g.1 g.2.1 g.2.2 = true := by
      cases h : mismatch cfg (p.data.take 64) g.1 g.2.1 g.2.2
      · exact absurd (hm.1 h) hcd
      · rfl
    have hstep : step cfg ⟨some p, ⟨false⟩⟩ (.verify g.1 g.2.1 g.2.2) cutAtWrite =
        (⟨some p, ⟨false⟩⟩, .cut) := by
      simp [step, exec, verify, FsM.bind_eq, FsM.modRam_eq, (lenOk_iff cfg _).2 hl, rdCtr, rdData,
        wrCtr, FsM.read_eq, FsM.write_eq, cutAtWrite, hctr, h0, hmm]
    simp only [List.map_cons, run_cons, hstep]
    rw [ih (fun g hg' => hg g (by simp [hg']))]

/-- Non-vacuity: seven wrong guesses against a PIN with three retries leave three retries. -/
example : (run exCfg exSt ((List.replicate 7 ([], [0, 0, 0, 0, 0, 0], 6)).map
    fun (g : Bytes × Bytes × UInt8) => (.verify g.1 g.2.1 g.2.2, cutAtWrite))).1 = exSt := by
  decide

end Verif.Pin
