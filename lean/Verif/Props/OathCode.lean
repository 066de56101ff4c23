import Verif.Lemmas.OathCodeP
import Verif.Lemmas.OathEx
import Verif.Props.Oath
set_option linter.unusedSimpArgs false
/-
C99: the access code of the OATH applet. The code is the one the host set last, who knows it gets in,
and who does not is refused.
-/
namespace Verif.Oath
open Verif.Spec.Oath Verif.Spec.OathCode

variable {x : Ext}

theorem setStep_mono {F F' : Prop} (hF : F → F') {g g' : Sess} {d : Bytes} {out : Out} (h : SetStep x F g d out g') :
    SetStep x F' g d out g' := by
  rcases h with h | h | h | ⟨h1, h2, h3⟩
  · exact .inl h
  · exact .inr (.inl h)
  · exact .inr (.inr (.inl h))
  · exact .inr (.inr (.inr ⟨h1, h2.imp_left hF, h3⟩))

theorem sessStep_mono {F F' : Prop} (hF : F → F') {g g' : Sess} {op : Op} {out : Out} (h : SessStep x F g op out g') :
    SessStep x F' g op out g' := by
  unfold SessStep at h ⊢
  cases op with
  | apdu i =>
    simp only at h ⊢
    split at h
    · rename_i h1; rw [if_pos h1]; exact h
    · rename_i h1
      rw [if_neg h1]
      split at h
      · rename_i h2; rw [if_pos h2]; exact h.imp_left fun h => ⟨h.1, setStep_mono hF h.2⟩
      · rename_i h2; rw [if_neg h2]; exact h
  | install reset rnd =>
    obtain ⟨h1, h2, h3, h4⟩ := h
    exact ⟨h1, h2, h3.imp_right fun ⟨a, b⟩ => ⟨a, b.imp_right (·.imp_right hF)⟩, h4⟩
  | touch => exact h
  | passRead => exact h
  | passWrite => exact h
  | passInstall => exact h
  | powerOff => exact h
  | boot => exact h

/-- C99. Every operation acts on the access code, the challenge and the session as specified, wherever
power is lost. -/
theorem C99_session (hx : GoodHmac x) (s : St) (op : Op) {env : Env} (he : env.all cutsOnly) :
    SessStep x False (sess s) op (step x s op env).2 (sess (step x s op env).1) :=
  sessStep_mono cuts_no_fail (sess_step hx s op he)

/-- C99. The same when file-system calls may fail as well. -/
theorem C99_session_faults (hx : GoodHmac x) (s : St) (op : Op) (env : Env) :
    SessStep x True (sess s) op (step x s op env).2 (sess (step x s op env).1) :=
  sessStep_mono (fun _ => trivial) (sess_step hx s op (any_all env))

theorem asksClear_of {d : Bytes} (h : ClearReq d) : asksClear d = true := by
  rcases h with rfl | ⟨rest, rfl⟩ <;> simp [asksClear]

theorem code_of {d k c resp : Bytes} (h : CodeReq d k c resp) : asksClear d = false ∧ (d.drop 3).take 16 = k := by
  obtain ⟨hk, _, _, alg, rfl⟩ := h
  constructor
  · simp [asksClear]
  · simp [← hk]

theorem app_inj {a b c d : Bytes} (h : a ++ b = c ++ d) (hl : a.length = c.length) : a = c ∧ b = d :=
  List.append_inj h hl

theorem chalTlv_inj {a b c d : Bytes} (ha : a.length ≤ 255) (hb : b.length ≤ 255) (h : chalTlv a ++ c = chalTlv b ++ d) :
    a = b ∧ c = d := by
  simp only [chalTlv, List.cons_append, List.nil_append, List.append_assoc, List.cons.injEq, true_and] at h
  have hl : a.length = b.length := by
    have := congrArg UInt8.toNat h.1
    simpa [UInt8.toNat_ofNat, Nat.mod_eq_of_lt (show a.length < 256 by omega), Nat.mod_eq_of_lt (show b.length < 256 by omega)] using this
  exact app_inj h.2 hl

theorem validateReq_inj {d r c r' c' : Bytes} (h : ValidateReq d r c) (h' : ValidateReq d r' c') : r = r' ∧ c = c' := by
  obtain ⟨h1, _, h2, rfl⟩ := h
  obtain ⟨h3, _, h4, h5⟩ := h'
  have h5 := (app_inj h5 rfl).2
  obtain ⟨h6, h7⟩ := app_inj h5 (by omega)
  exact ⟨h6, (chalTlv_inj h2 h4 (c := []) (d := []) (by simpa using h7)).1⟩

theorem codeReq_inj {d k c r k' c' r' : Bytes} (h : CodeReq d k c r) (h' : CodeReq d k' c' r') :
    k = k' ∧ c = c' ∧ r = r' := by
  obtain ⟨h1, h2, h3, alg, rfl⟩ := h
  obtain ⟨h4, h5, h6, alg', h7⟩ := h'
  have h7 := (app_inj h7 rfl).2
  obtain ⟨h8, h9⟩ := app_inj h7 (by omega)
  obtain ⟨h10, h11⟩ := chalTlv_inj h2 h5 h9
  exact ⟨h8, h10, (app_inj h11 rfl).2⟩

theorem okData_none {out : Out} (h : ¬ Verif.Spec.OathCode.Ok out) : okData out = none := by
  unfold okData
  split
  · rename_i d sw
    rw [if_neg]
    intro hs; exact h ⟨d, by rw [hs]⟩
  · rfl

theorem okData_ok {d : Bytes} : okData (.reply (.resp d SW.ok)) = some d := by
  simp [okData]

theorem last8 {a c : Bytes} (h : c.length = 8) :
    ((a ++ (c ++ [0x7B, 1, 1])).drop ((a ++ (c ++ [0x7B, 1, 1])).length - 11)).take 8 = c := by
  have : (a ++ (c ++ [0x7B, 1, 1])).length - 11 = a.length := by simp [h]
  rw [this, List.drop_left, ← h, List.take_left]

/-- One operation, as the host computes it. -/
theorem track_step (hx : GoodHmac x) {s : St} (hc : (sess s).code ≠ none) {op : Op} (hr : ∀ rnd, op ≠ .install true rnd)
    (h8 : ∀ i, op = .apdu i → i.rnd.length = 8) {env : Env} (he : env.all cutsOnly) :
    ((sess (step x s op env).1).code, (sess (step x s op env).1).chal) =
      track ((sess s).code, (sess s).chal) (op, (step x s op env).2) := by
  have h := C99_session hx s op he
  generalize step x s op env = st at h
  obtain ⟨s', out⟩ := st
  simp only at h ⊢
  generalize sess s' = g' at h
  generalize sess s = g at h hc
  unfold SessStep at h
  unfold track
  by_cases hcut : out = .cut
  · simp only [if_pos hcut] at h ⊢
    cases op with
    | apdu i => rw [h]; rfl
    | install reset rnd =>
      obtain ⟨_, h2, h3, _⟩ := h
      rcases h3 with h3 | ⟨_, h3 | h3 | h3⟩
      · rw [h2, h3]; rfl
      · exact absurd (by rw [h3]) (hr rnd)
      · exact absurd h3 hc
      · exact h3.elim
    | powerOff => rw [hcut] at h; cases h.1
    | boot => rw [h.2]; rfl
    | touch => rw [h]; rfl
    | passRead => rw [h]; rfl
    | passWrite => rw [h]; rfl
    | passInstall => rw [h]; rfl
  · simp only [if_neg hcut] at h ⊢
    cases op with
    | apdu i =>
      simp only at h ⊢
      by_cases hset : IsSet i
      · simp only [if_pos hset] at h ⊢
        rcases h with ⟨_, h⟩ | ⟨_, rfl, rfl⟩
        · rcases h with ⟨rfl, hq, rfl⟩ | ⟨rfl, k, c, hq, rfl⟩ | ⟨hn, rfl⟩ | ⟨hn, h1, h2, h3⟩
          · rw [show okData (.reply (.sw SW.ok)) = some [] from okData_ok]
            simp only [asksClear_of hq, if_true]
          · rw [show okData (.reply (.sw SW.ok)) = some [] from okData_ok]
            obtain ⟨h1, h2⟩ := code_of hq
            simp only [h1, h2]; rfl
          · rw [okData_none hn]
          · rw [okData_none hn, h2, h3]
        · rw [okData_none (not_ok_sw (by decide))]
      · simp only [if_neg hset] at h ⊢
        by_cases hval : IsValidate i
        · have hns : ¬ IsSelect i := by unfold IsValidate IsSelect at *; rw [hval]; simp
          rw [if_pos hval] at h
          simp only [hns, false_and, if_false]
          rcases h with ⟨k, c, _, _, _, rfl, rfl⟩ | ⟨k, resp, c, _, _, _, _, rfl, rfl⟩ | ⟨_, rfl⟩
          · cases okData _ <;> rfl
          · cases okData _ <;> rfl
          · cases okData out <;> rfl
        · rw [if_neg hval] at h
          by_cases hsel : IsSelect i
          · rw [if_pos hsel] at h
            rcases h with ⟨hk, ⟨d, rfl⟩, rfl⟩ | ⟨k, hk, hne, ⟨hd, rfl⟩, rfl⟩ | ⟨hn, rfl⟩
            · simp only [okData_ok, hk]; simp
            · rw [okData_ok]
              have : ¬ some k = some [] := by simpa using hne
              simp only [hk, hsel, true_and, ne_eq, this, not_false_eq_true, if_true]
              have h8 := h8 i rfl
              congr 1
              rw [List.append_assoc _ i.rnd]
              exact (last8 h8).symm
            · rw [okData_none hn]
          · rw [if_neg hsel] at h
            rw [h]
            simp only [hsel, false_and, if_false]
            cases okData out <;> rfl
    | install reset rnd =>
      obtain ⟨_, h2, h3, _⟩ := h
      rcases h3 with h3 | ⟨_, h3 | h3 | h3⟩
      · rw [h2, h3]
      · exact absurd (by rw [h3]) (hr rnd)
      · exact absurd h3 hc
      · exact h3.elim
    | powerOff => simp only at h; rw [h.2]
    | boot => simp only at h; rw [h.2]; rfl
    | touch => simp only at h; rw [h]
    | passRead => simp only at h; rw [h]
    | passWrite => simp only at h; rw [h]
    | passInstall => simp only at h; rw [h]

theorem track_code {g : Option Bytes × Bytes} (hc : g.1 ≠ none) (e : Op × Out) : (track g e).1 ≠ none := by
  unfold track
  split
  · exact hc
  · split
    · exact hc
    · split
      · exact hc
      · split
        · simp
        · split <;> exact hc
    · exact hc

/-- C99. After every history without failing file-system calls and without a factory reset, wherever
power is lost, the access code and the current challenge are those the host computes from what it sent
and what was answered: the code is the one set last. -/
theorem C99_known_to_host (hx : GoodHmac x) {s : St} (hc : (sess s).code ≠ none) {h : List (Op × Env)} (hh : Calm h) :
    ((sess (run x s h).1).code, (sess (run x s h).1).chal) = (log x s h).foldl track ((sess s).code, (sess s).chal) := by
  induction h generalizing s with
  | nil => rfl
  | cons p h ih =>
    obtain ⟨op, env⟩ := p
    obtain ⟨h1, h2, h3⟩ := hh (op, env) (by simp)
    have hs := track_step hx hc h1 h3 h2
    have hc' : (sess (step x s op env).1).code ≠ none := by
      have := track_code (g := ((sess s).code, (sess s).chal)) hc (op, (step x s op env).2)
      rw [← hs] at this
      exact this
    have := ih hc' fun p hp => hh p (by simp [hp])
    rw [hs] at this
    simp only [run, log, List.map_cons, List.zip_cons_cons, List.foldl_cons]
    exact this

/-- C99. Who knows the access code gets in, and the device proves to them that it knows it too; every
other response is refused and ends the session. The code `k` and the challenge `c` are the ones the host
computes from the history. Missing for the full claim: that `c` was shown in the present session, which is
false (`C99_refuted`). -/
theorem C99_validate_partial (hx : GoodHmac x) {s : St} (hc : (sess s).code ≠ none) {h : List (Op × Env)} (hh : Calm h)
    {k c : Bytes} (hk : (log x s h).foldl track ((sess s).code, (sess s).chal) = (some k, c)) (hne : k ≠ [])
    {i : In} (hi : IsValidate i) (hp : i.c.p1 = 0 ∧ i.c.p2 = 0) {resp q : Bytes} (hq : ValidateReq i.c.data resp q) :
    let res := step x (run x s h).1 (.apdu i) (fun _ => .ok)
    if resp = x.hmac 1 k c then
      res.2 = .reply (.resp ([0x75, 20] ++ x.hmac 1 k q) SW.ok) ∧ (sess res.1).isOpen = true
    else res.2 = .reply (.sw SW.wrongData) ∧ (sess res.1).isOpen = false := by
  intro res
  have hs := C99_known_to_host hx hc hh
  rw [hk] at hs
  generalize hs' : (run x s h).1 = s' at hs
  have h1 : s'.flash.oath.bind (·.key) = some k := congrArg Prod.fst hs
  have h2 : s'.ram.authChal = c := congrArg Prod.snd hs
  obtain ⟨o, f', r', he, hst⟩ := run_validate (x := x) hi s' ok_env
  have hres : res = _ := (congrArg (fun s => step x s (.apdu i) fun _ => .ok) hs').trans hst
  rw [hres]
  cases he with
  | p12 h => rcases h with h | h <;> simp [hp] at h
  | bad sw h hq' => exact absurd hq (hq' _ _)
  | io h =>
    rcases h with h | h
    · rw [h1] at h; cases h
    · cases h
  | cut h => cases h
  | unset h => rw [h1] at h; cases h; exact absurd rfl hne
  | wrong k' resp' c' hk' hne' hq' hm =>
    rw [h1] at hk'; cases hk'
    obtain ⟨rfl, rfl⟩ := validateReq_inj hq hq'
    rw [if_neg (by rw [← h2]; exact fun h => hm h.symm)]
    exact ⟨rfl, rfl⟩
  | right k' c' hk' hne' hq' =>
    rw [h1] at hk'; cases hk'
    obtain ⟨rfl, rfl⟩ := validateReq_inj hq hq'
    rw [if_pos (by rw [← h2])]
    exact ⟨rfl, rfl⟩

/-- C99. Without the access code nobody gets in, whatever fails: a VALIDATE whose response is not the
HMAC of the current challenge under the code is refused and does not open the session. -/
theorem C99_stranger (hx : GoodHmac x) (s : St) {i : In} (hi : IsValidate i) {resp hc : Bytes}
    (hq : ValidateReq i.c.data resp hc)
    (hw : ∀ k, (sess s).code = some k → resp ≠ x.hmac 1 k (sess s).chal) (env : Env) :
    ¬ Verif.Spec.OathCode.Ok (step x s (.apdu i) env).2 ∧
      ((sess (step x s (.apdu i) env).1).isOpen = true → (sess s).isOpen = true) := by
  have h := C99_session_faults hx s (.apdu i) env
  unfold SessStep at h
  have hn : ¬ IsSet i := by unfold IsSet IsValidate at *; rw [hi]; decide
  simp only [if_neg hn, if_pos hi] at h
  split at h
  · rename_i hcut
    rw [hcut, h]
    exact ⟨fun ⟨_, h⟩ => (by cases h), fun h => (by cases h)⟩
  · rcases h with ⟨k, c, hk, hne, hq', h1, h2⟩ | ⟨k, resp', c, hk, hne, hq', h0, h1, h2⟩ | ⟨h1, h2⟩
    · exact absurd (validateReq_inj hq hq').1 (hw k hk)
    · rw [h1, h2]
      exact ⟨not_ok_sw (by decide), fun h => by cases h⟩
    · rw [h2]; exact ⟨h1, id⟩

/-- C99. In an open session SET CODE with a valid proof sets the code and ends the session. -/
theorem C99_set_answers {s : St} (ho : (sess s).isOpen = true) (hc : s.flash.oath ≠ none) {i : In} (hi : IsSet i)
    (hp : i.c.p1 = 0 ∧ i.c.p2 = 0) {k c : Bytes} (hq : CodeReq i.c.data k c (x.hmac 1 k c)) :
    let res := step x s (.apdu i) (fun _ => .ok)
    res.2 = .reply (.sw SW.ok) ∧ sess res.1 = { sess s with code := some k, isOpen := false } := by
  intro res
  obtain ⟨o, f', r', he, hst⟩ := run_set (x := x) hi ho ok_env
  have hres : res = _ := hst
  rw [hres]
  cases he with
  | p12 h => rcases h with h | h <;> simp [hp] at h
  | bad sw h h1 h2 => exact absurd hq (h2 _ _ _)
  | proof k' c' resp hq' hm =>
    obtain ⟨rfl, rfl, rfl⟩ := codeReq_inj hq hq'
    exact absurd rfl hm
  | io h =>
    rcases h with h | h
    · exact absurd h hc
    · cases h
  | cut h => cases h
  | clear o ho' hq' => exact absurd (asksClear_of hq') (by rw [(code_of hq).1]; decide)
  | set o ho' k' c' hq' =>
    obtain ⟨rfl, _, _⟩ := codeReq_inj hq hq'
    exact ⟨rfl, rfl⟩

/-- C99. In an open session SET CODE without a code removes it. -/
theorem C99_clear_answers {s : St} (ho : (sess s).isOpen = true) (hc : s.flash.oath ≠ none) {i : In} (hi : IsSet i)
    (hp : i.c.p1 = 0 ∧ i.c.p2 = 0) (hq : ClearReq i.c.data) :
    let res := step x s (.apdu i) (fun _ => .ok)
    res.2 = .reply (.sw SW.ok) ∧ sess res.1 = { sess s with code := some [], isOpen := true } := by
  intro res
  obtain ⟨o, f', r', he, hst⟩ := run_set (x := x) hi ho ok_env
  have hres : res = _ := hst
  rw [hres]
  cases he with
  | p12 h => rcases h with h | h <;> simp [hp] at h
  | bad sw h h1 h2 => exact absurd hq h1
  | proof k' c' resp hq' hm => exact absurd (asksClear_of hq) (by rw [(code_of hq').1]; decide)
  | io h =>
    rcases h with h | h
    · exact absurd h hc
    · cases h
  | cut h => cases h
  | clear o ho' hq' => exact ⟨rfl, rfl⟩
  | set o ho' k' c' hq' => exact absurd (asksClear_of hq) (by rw [(code_of hq').1]; decide)

/-- C99. SET CODE with a wrong proof changes nothing, whatever fails: a code the host cannot use itself is
not set. -/
theorem C99_set_refused {s : St} (ho : (sess s).isOpen = true) {i : In} (hi : IsSet i) (hp : i.c.p1 = 0 ∧ i.c.p2 = 0)
    {k c resp : Bytes} (hq : CodeReq i.c.data k c resp) (hw : resp ≠ x.hmac 1 k c) (env : Env) :
    step x s (.apdu i) env = (s, .reply (.sw SW.dataInvalid)) := by
  have key : ¬ (ClearReq i.c.data ∨ ∃ k c, CodeReq i.c.data k c (x.hmac 1 k c)) := by
    rintro (h | ⟨k', c', h⟩)
    · exact absurd (asksClear_of h) (by rw [(code_of hq).1]; decide)
    · obtain ⟨rfl, rfl, rfl⟩ := codeReq_inj hq h
      exact hw rfl
  obtain ⟨o, f', r', he, hst⟩ := run_set (x := x) hi ho (any_all env)
  rw [hst]
  cases he with
  | p12 h => rcases h with h | h <;> simp [hp] at h
  | bad sw h h1 h2 => exact absurd hq (h2 _ _ _)
  | proof k' c' resp' hq' hm => rfl
  | io h h' => exact absurd h' key
  | cut h h' => exact absurd h' key
  | clear o ho' hq' => exact absurd (.inl hq') key
  | set o ho' k' c' hq' => exact absurd (.inr ⟨_, _, hq'⟩) key

end Verif.Oath
