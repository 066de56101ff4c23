import Verif.Model.Pin
import Verif.Spec.Pin
/-
Helper lemmas for the PIN properties.
-/
namespace Verif.Pin
set_option linter.unusedSimpArgs false

theorem match_iff (cfg : Cfg) (hc : cfg.Ok) (real st b : Bytes) (l : UInt8)
    (hb : l.toNat ≤ b.length) :
    mismatch cfg real st b l = false ↔ candidate b l = real := by
  unfold mismatch memcmpS candidate
  rw [decide_eq_false_iff_not, Classical.not_not]
  obtain ⟨h0, h1⟩ := hc
  have hlen : (b.take l.toNat).length = l.toNat := by simp; omega
  by_cases hr : real.length = l.toNat
  · have : (real ++ st).take l.toNat = real := by rw [← hr]; simp
    rw [this]
    by_cases he : List.take l.toNat b = real <;> simp [hr, he]; omega
  · have hne : List.take l.toNat b ≠ real := by
      intro h; rw [h] at hlen; exact hr hlen
    simp only [ne_eq, hr, not_false_eq_true, if_true, hne, iff_false]
    split <;> omega

theorem lenOk_iff (cfg : Cfg) (l : UInt8) :
    (decide (l < cfg.minLen) || decide (l > cfg.maxLen)) = false ↔ lenOk cfg l := by
  simp [lenOk, UInt8.lt_iff_toNat_lt, UInt8.le_iff_toNat_le]

theorem not_lenOk {cfg : Cfg} {l : UInt8} (h : ¬ lenOk cfg l) :
    (decide (l < cfg.minLen) || decide (l > cfg.maxLen)) = true := by
  cases h' : (decide (l < cfg.minLen) || decide (l > cfg.maxLen))
  · exact absurd ((lenOk_iff cfg l).1 h') h
  · rfl

/-- Complete case analysis of one verify call, for every state and fault schedule. -/
theorem verify_char (cfg : Cfg) (hc : cfg.Ok) (s : St) (st b : Bytes) (l : UInt8)
    (hb : l.toNat ≤ b.length) (env : Env) (r : St × Out)
    (hr : r = step cfg s (.verify st b l) env) :
    -- nothing happened
    (r.1 = ⟨s.flash, ⟨false⟩⟩ ∧ ∀ n, r.2 ≠ .verified .ok n) ∨
    -- a wrong candidate was compared and charged
    (∃ p c, s.flash = some p ∧ p.ctr = some c ∧ c ≠ 0 ∧ lenOk cfg l ∧
      candidate b l ≠ p.data.take 64 ∧
      r = (⟨some { p with ctr := some (c - 1) }, ⟨false⟩⟩, .verified .authFail (some (c - 1)))) ∨
    -- the right candidate was compared
    (∃ p c, s.flash = some p ∧ p.ctr = some c ∧ c ≠ 0 ∧ lenOk cfg l ∧
      candidate b l = p.data.take 64 ∧ r.1.ram = ⟨true⟩ ∧
      ((r.1.flash = s.flash ∧ r.2 = .verified .ioFail (some c)) ∨
       ∃ d, p.dflt = some d ∧ r.1.flash = some { p with ctr := some d } ∧
        r.2 = .verified .ok (some c))) := by
  subst hr
  obtain ⟨f, ram⟩ := s
  simp only [step, exec, verify]
  by_cases hl : (decide (l < cfg.minLen) || decide (l > cfg.maxLen)) = true
  · left; simp [hl]
  have hl' : lenOk cfg l := (lenOk_iff cfg l).1 (by simpa using hl)
  simp only [FsM.bind_eq, FsM.modRam_eq, hl]
  cases f with
  | none => left; cases h0 : env 0 <;> simp [rdCtr, FsM.read_eq, h0]
  | some p =>
    cases hctr : p.ctr with
    | none => left; cases h0 : env 0 <;> simp [rdCtr, FsM.read_eq, h0, hctr]
    | some c =>
      by_cases hc0 : c = 0
      · left; cases h0 : env 0 <;> simp [rdCtr, FsM.read_eq, h0, hctr, hc0]
      have hm := match_iff cfg hc (p.data.take 64) st b l hb
      cases h0 : env 0
      case fail => left; simp [rdCtr, FsM.read_eq, h0]
      case cut => left; simp [rdCtr, FsM.read_eq, h0]
      cases h1 : env 1
      case fail => left; simp [rdCtr, rdData, FsM.read_eq, h0, h1, hctr, hc0]
      case cut => left; simp [rdCtr, rdData, FsM.read_eq, h0, h1, hctr, hc0]
      cases hmm : mismatch cfg (p.data.take 64) st b l
      case false =>
        have hcand := hm.1 hmm
        cases hd : p.dflt with
        | none =>
          cases h2 : env 2 <;>
            simp [rdCtr, rdData, rdDflt, FsM.read_eq, h0, h1, h2, hctr, hc0, hmm, hd, hl', hcand]
        | some d =>
          cases h2 : env 2
          case ok =>
            cases h3 : env 3 <;>
              simp [rdCtr, rdData, rdDflt, wrCtr, FsM.read_eq, FsM.write_eq, h0, h1, h2, h3, hctr,
                hc0, hmm, hd, hl', hcand]
          all_goals
            simp [rdCtr, rdData, rdDflt, FsM.read_eq, h0, h1, h2, hctr, hc0, hmm, hd, hl', hcand]
      case true =>
        have hcand : candidate b l ≠ p.data.take 64 := by
          intro h; rw [hm.2 h] at hmm; exact Bool.noConfusion hmm
        cases h2 : env 2 <;>
          simp [rdCtr, rdData, wrCtr, FsM.read_eq, FsM.write_eq, h0, h1, h2, hctr, hc0,
            hmm, hl', hcand]

theorem exec_create (b : Bytes) (n : UInt8) (s : St) (env : Env) (r : St × Out)
    (hr : r = exec (create b n) .rc s env) :
    (r.1.ram.validated = true → s.ram.validated = true) ∧
    (r.1.flash = s.flash ∨ ∃ p, r.1.flash = some p ∧ p.data = b) := by
  subst hr
  obtain ⟨f, ram⟩ := s
  simp only [exec, create]
  cases h0 : env 0
  case ok =>
    cases h1 : env 1
    case ok =>
      cases h2 : env 2 <;>
        simp [wrFile, wrCtr, wrDflt, FsM.write_eq, h0, h1, h2]
    all_goals simp [wrFile, wrCtr, wrDflt, FsM.write_eq, h0, h1]
  all_goals simp [wrFile, FsM.write_eq, h0]

theorem exec_clear (s : St) (env : Env) (r : St × Out) (hr : r = exec clear .rc s env) :
    (r.1.ram.validated = true → s.ram.validated = true) ∧
    (r.1.flash = s.flash ∨ ∃ p, r.1.flash = some p ∧ p.data = []) := by
  subst hr
  obtain ⟨f, ram⟩ := s
  simp only [exec, clear]
  cases h0 : env 0
  case ok =>
    cases h1 : env 1
    case ok =>
      cases hd : (f.getD ⟨[], none, none⟩).dflt <;>
      cases h2 : env 2 <;>
        simp [wrFile, wrCtr, rdDflt, FsM.write_eq, FsM.read_eq, h0, h1, h2, hd]
    all_goals simp [wrFile, wrCtr, rdDflt, FsM.write_eq, FsM.read_eq, h0, h1]
  all_goals simp [wrFile, FsM.write_eq, h0]

theorem exec_getRetries (s : St) (env : Env) (r : St × Out)
    (hr : r = exec getRetries .retries s env) :
    (r.1.ram.validated = true → s.ram.validated = true) ∧ r.1.flash = s.flash := by
  subst hr
  obtain ⟨f, ram⟩ := s
  simp only [exec, getRetries]
  cases h0 : env 0
  case ok =>
    by_cases hz : f.map (·.data.length) = some 0
    · simp [rdSize, rdCtr, FsM.read_eq, h0, hz]
    cases h1 : env 1
    case ok =>
      cases hd : f.bind (·.ctr) <;> simp [rdSize, rdCtr, FsM.read_eq, h0, h1, hd, hz]
    all_goals simp [rdSize, rdCtr, FsM.read_eq, h0, h1, hz]
  case fail =>
    cases h1 : env 1
    case ok =>
      cases hd : f.bind (·.ctr) <;> simp [rdSize, rdCtr, FsM.read_eq, h0, h1, hd]
    all_goals simp [rdSize, rdCtr, FsM.read_eq, h0, h1]
  case cut => simp [rdSize, FsM.read_eq, h0]

theorem exec_update (cfg : Cfg) (b : Bytes) (l : UInt8) (s : St) (env : Env) (r : St × Out)
    (hr : r = exec (update cfg b l) .rc s env) :
    (¬ lenOk cfg l ∧ r = (s, .rc .lengthInvalid)) ∨
    (lenOk cfg l ∧ r.1.ram = ⟨false⟩ ∧
      (r.1.flash = s.flash ∨ ∃ p, r.1.flash = some p ∧ p.data = b.take l.toNat)) := by
  subst hr
  obtain ⟨f, ram⟩ := s
  simp only [exec, update]
  by_cases hl : (decide (l < cfg.minLen) || decide (l > cfg.maxLen)) = true
  · left
    refine ⟨fun h => ?_, by simp [hl]⟩
    rw [← lenOk_iff] at h; rw [h] at hl; exact Bool.noConfusion hl
  right
  refine ⟨(lenOk_iff cfg l).1 (by simpa using hl), ?_⟩
  simp only [FsM.bind_eq, FsM.modRam_eq, hl]
  cases h0 : env 0
  case ok =>
    cases h1 : env 1
    case ok =>
      cases hd : (f.getD ⟨[], none, none⟩).dflt <;>
      cases h2 : env 2 <;>
        simp [wrFile, wrCtr, rdDflt, FsM.write_eq, FsM.read_eq, h0, h1, h2, hd]
    all_goals simp [wrFile, wrCtr, rdDflt, FsM.write_eq, FsM.read_eq, h0, h1]
  all_goals simp [wrFile, FsM.write_eq, h0]

theorem step_short (cfg : Cfg) (hc : cfg.Ok) (hmax : cfg.maxLen ≤ 64) (s : St) (op : Op)
    (env : Env) (hb : op.bufOk) (ho : op.short) (hs : Short s.flash) :
    Short (step cfg s op env).1.flash := by
  cases op with
  | create b n =>
    rcases (exec_create b n s env _ rfl).2 with h | ⟨p, h, hp⟩
    · simpa [step, h] using hs
    · intro q hq; simp only [step, h] at hq; cases hq; rw [hp]; exact ho
  | verify st b l =>
    rcases verify_char cfg hc s st b l hb env _ rfl with
      h | ⟨p, c, hf, _, _, _, _, h⟩ | ⟨p, c, hf, _, _, _, _, _, h⟩
    · rw [h.1]; exact hs
    · rw [h]; intro q hq; cases hq; exact hs p hf
    · rcases h with ⟨h, _⟩ | ⟨d, _, h, _⟩
      · rw [h]; exact hs
      · rw [h]; intro q hq; cases hq; exact hs p hf
  | update b l =>
    rcases exec_update cfg b l s env _ rfl with ⟨_, h⟩ | ⟨hl, _, h | ⟨p, h, hp⟩⟩
    · simp only [step, h]; exact hs
    · simp only [step, h]; exact hs
    · intro q hq; simp only [step, h] at hq; cases hq
      rw [hp, List.length_take]
      have h1 := UInt8.le_iff_toNat_le.1 hl.2
      have h2 := UInt8.le_iff_toNat_le.1 hmax
      have : (64 : UInt8).toNat = 64 := rfl
      omega
  | clear =>
    rcases (exec_clear s env _ rfl).2 with h | ⟨p, h, hp⟩
    · simpa [step, h] using hs
    · intro q hq; simp only [step, h] at hq; cases hq; rw [hp]; simp
  | getRetries => rw [show (step cfg s .getRetries env).1.flash = s.flash from
      (exec_getRetries s env _ rfl).2]; exact hs
  | powerOff => exact hs

/-- One step: how the validated flag can be set. -/
theorem step_validated (cfg : Cfg) (hc : cfg.Ok) (s : St) (op : Op) (env : Env) (hb : op.bufOk)
    (h : (step cfg s op env).1.ram.validated = true) :
    (s.ram.validated = true ∧ ¬ op.closes cfg) ∨
    (∃ st b l p c, op = .verify st b l ∧ s.flash = some p ∧ p.ctr = some c ∧ c ≠ 0 ∧
      lenOk cfg l ∧ candidate b l = p.data.take 64) := by
  cases op with
  | create b n => left; exact ⟨(exec_create b n s env _ rfl).1 h, id⟩
  | verify st b l =>
    rcases verify_char cfg hc s st b l hb env _ rfl with
      h' | ⟨p, c, _, _, _, _, _, h'⟩ | ⟨p, c, hf, hctr, h0, hl, hcd, _⟩
    · rw [h'.1] at h; exact Bool.noConfusion h
    · rw [h'] at h; exact Bool.noConfusion h
    · right; exact ⟨st, b, l, p, c, rfl, hf, hctr, h0, hl, hcd⟩
  | update b l =>
    rcases exec_update cfg b l s env _ rfl with ⟨hl, h'⟩ | ⟨_, h', _⟩
    · left; simp only [step, h'] at h; exact ⟨h, hl⟩
    · simp only [step, h'] at h; exact Bool.noConfusion h
  | clear => left; exact ⟨(exec_clear s env _ rfl).1 h, id⟩
  | getRetries => left; exact ⟨(exec_getRetries s env _ rfl).1 h, id⟩
  | powerOff => exact Bool.noConfusion h

@[simp] theorem run_nil (cfg : Cfg) (s : St) : run cfg s [] = (s, []) := rfl
@[simp] theorem run_cons (cfg : Cfg) (s : St) (x : Op × Env) (h : List (Op × Env)) :
    run cfg s (x :: h) = ((run cfg (step cfg s x.1 x.2).1 h).1,
      (step cfg s x.1 x.2).2 :: (run cfg (step cfg s x.1 x.2).1 h).2) := rfl

theorem St_eq {s : St} {f : Flash} (h : s.flash = f) : (⟨f, s.ram⟩ : St) = s := by
  subst h; rfl

/-! ### Refinement to the abstract PIN -/
open Verif.Spec.Pin (Abs Call Res)

theorem step_refines (cfg : Cfg) (hc : cfg.Ok) (hmax : cfg.maxLen ≤ 64) (s : St) (a : Abs)
    (op : Op) (cl : Call) (hcl : op.call = some cl) (hb : op.bufOk) (hR : Rel s a) :
    Rel (step cfg s op Env.good).1 (Spec.Pin.step cfg.minLen.toNat cfg.maxLen.toNat a cl).1 ∧
    (step cfg s op Env.good).2.res =
      some (Spec.Pin.step cfg.minLen.toNat cfg.maxLen.toNat a cl).2 := by
  obtain ⟨f, ram⟩ := s
  obtain ⟨c, d, hf, hlen, hleft, hmx, hv⟩ := hR
  simp only at hf hv; subst hf
  have hmax' := UInt8.le_iff_toNat_le.1 hmax
  have e64 : (64 : UInt8).toNat = 64 := rfl
  have hlo : ∀ (b : Bytes) (l : UInt8), l.toNat ≤ b.length →
      (candidate b l).length = l.toNat := by
    intro b l h; simp [candidate]; omega
  cases op with
  | create b n => exact absurd hcl (by simp [Op.call])
  | clear => exact absurd hcl (by simp [Op.call])
  | powerOff =>
    simp only [Op.call, Option.some.injEq] at hcl; subst hcl
    exact ⟨⟨c, d, rfl, hlen, hleft, hmx, rfl⟩, rfl⟩
  | getRetries =>
    simp only [Op.call, Option.some.injEq] at hcl; subst hcl
    have : step cfg ⟨some ⟨a.pin, some c, some d⟩, ram⟩ .getRetries Env.good =
        (⟨some ⟨a.pin, some c, some d⟩, ram⟩, .retries (some (if a.pin = [] then 0 else c.toNat))) := by
      by_cases hz : a.pin = []
      · simp [step, exec, getRetries, rdSize, rdCtr, FsM.read_eq, Env.good, hz]
      · have : a.pin.length ≠ 0 := by simpa using hz
        simp [step, exec, getRetries, rdSize, rdCtr, FsM.read_eq, Env.good, hz]
    rw [this]
    refine ⟨⟨c, d, rfl, hlen, hleft, hmx, hv⟩, ?_⟩
    simp [Out.res, Spec.Pin.step, hleft]
  | verify st b l =>
    simp only [Op.call, Option.some.injEq] at hcl; subst hcl
    have hcl := hlo b l hb
    simp only [Spec.Pin.step, hcl]
    by_cases hl : lenOk cfg l
    · have hl' := (lenOk_iff cfg l).2 hl
      have h1 := UInt8.le_iff_toNat_le.1 hl.1
      have h2 := UInt8.le_iff_toNat_le.1 hl.2
      have hnl : ¬ (l.toNat < cfg.minLen.toNat ∨ cfg.maxLen.toNat < l.toNat) := by omega
      simp only [hnl, if_false]
      by_cases hc0 : c = 0
      · subst hc0
        have hz : a.left = 0 := by simpa using hleft
        have : step cfg ⟨some ⟨a.pin, some 0, some d⟩, ram⟩ (.verify st b l) Env.good =
            (⟨some ⟨a.pin, some 0, some d⟩, ⟨false⟩⟩, .verified .authFail (some 0)) := by
          simp [step, exec, verify, FsM.bind_eq, FsM.modRam_eq, hl', rdCtr, FsM.read_eq, Env.good]
        rw [this, if_pos hz]
        exact ⟨⟨0, d, rfl, hlen, hleft, hmx, rfl⟩, rfl⟩
      · have hl0 : a.left ≠ 0 := by
          intro h; apply hc0; apply UInt8.toNat_inj.1; rw [← hleft, h]; rfl
        have hm := match_iff cfg hc (a.pin.take 64) st b l hb
        have htk : a.pin.take 64 = a.pin := List.take_of_length_le hlen
        rw [htk] at hm
        rw [if_neg hl0]
        by_cases hcd : candidate b l = a.pin
        · have hmm := hm.2 hcd
          have : step cfg ⟨some ⟨a.pin, some c, some d⟩, ram⟩ (.verify st b l) Env.good =
              (⟨some ⟨a.pin, some d, some d⟩, ⟨true⟩⟩, .verified .ok (some c)) := by
            simp [step, exec, verify, FsM.bind_eq, FsM.modRam_eq, hl', rdCtr, rdData, rdDflt,
              wrCtr, FsM.read_eq, FsM.write_eq, Env.good, hc0, htk, hmm]
          rw [this, if_pos hcd]
          exact ⟨⟨d, d, rfl, hlen, hmx, hmx, rfl⟩, rfl⟩
        · have hmm : mismatch cfg a.pin st b l = true := by
            cases h : mismatch cfg a.pin st b l
            · exact absurd (hm.1 h) hcd
            · rfl
          have hsub : (c - 1).toNat = c.toNat - 1 := by
            have : 1 ≤ c.toNat := by omega
            rw [UInt8.toNat_sub_of_le] <;> simp [UInt8.le_iff_toNat_le]
            omega
          have : step cfg ⟨some ⟨a.pin, some c, some d⟩, ram⟩ (.verify st b l) Env.good =
              (⟨some ⟨a.pin, some (c - 1), some d⟩, ⟨false⟩⟩,
                .verified .authFail (some (c - 1))) := by
            simp [step, exec, verify, FsM.bind_eq, FsM.modRam_eq, hl', rdCtr, rdData, wrCtr,
              FsM.read_eq, FsM.write_eq, Env.good, hc0, htk, hmm]
          rw [this, if_neg hcd]
          exact ⟨⟨c - 1, d, rfl, hlen, by simp only [hsub, hleft], hmx, rfl⟩,
            by simp only [Out.res, hsub, hleft]⟩
    · have hl' := not_lenOk hl
      have hnl : l.toNat < cfg.minLen.toNat ∨ cfg.maxLen.toNat < l.toNat := by
        simp only [lenOk, UInt8.le_iff_toNat_le] at hl; omega
      simp only [hnl, if_true]
      have : step cfg ⟨some ⟨a.pin, some c, some d⟩, ram⟩ (.verify st b l) Env.good =
          (⟨some ⟨a.pin, some c, some d⟩, ⟨false⟩⟩, .verified .lengthInvalid none) := by
        simp [step, exec, verify, hl']
      rw [this]
      exact ⟨⟨c, d, rfl, hlen, hleft, hmx, rfl⟩, rfl⟩
  | update b l =>
    simp only [Op.call, Option.some.injEq] at hcl; subst hcl
    have hcl := hlo b l hb
    simp only [Spec.Pin.step, hcl]
    by_cases hl : lenOk cfg l
    · have hl' := (lenOk_iff cfg l).2 hl
      have h1 := UInt8.le_iff_toNat_le.1 hl.1
      have h2 := UInt8.le_iff_toNat_le.1 hl.2
      have hnl : ¬ (l.toNat < cfg.minLen.toNat ∨ cfg.maxLen.toNat < l.toNat) := by omega
      simp only [hnl, if_false]
      have : step cfg ⟨some ⟨a.pin, some c, some d⟩, ram⟩ (.update b l) Env.good =
          (⟨some ⟨candidate b l, some d, some d⟩, ⟨false⟩⟩, .rc .ok) := by
        simp [step, exec, update, FsM.bind_eq, FsM.modRam_eq, hl', wrFile, rdDflt, wrCtr,
          FsM.read_eq, FsM.write_eq, Env.good, candidate]
      rw [this]
      exact ⟨⟨d, d, rfl, by simp only [hcl]; omega, hmx, hmx, rfl⟩, rfl⟩
    · have hl' := not_lenOk hl
      have hnl : l.toNat < cfg.minLen.toNat ∨ cfg.maxLen.toNat < l.toNat := by
        simp only [lenOk, UInt8.le_iff_toNat_le] at hl; omega
      simp only [hnl, if_true]
      have : step cfg ⟨some ⟨a.pin, some c, some d⟩, ram⟩ (.update b l) Env.good =
          (⟨some ⟨a.pin, some c, some d⟩, ram⟩, .rc .lengthInvalid) := by
        simp [step, exec, update, hl']
      rw [this]
      exact ⟨⟨c, d, rfl, hlen, hleft, hmx, hv⟩, rfl⟩

end Verif.Pin
