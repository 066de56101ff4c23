import Verif.Lemmas.OathTable
import Verif.Lemmas.OathEx
import Verif.Lemmas.OathCode
/-
OATH credential commands are answered as a host expects: property C113.
-/
namespace Verif.Oath
open Verif.Spec.Oath Verif.Spec.OathTable Cmd

/-- C113. On a device with OATH installed, in every state, PUT, DELETE, RENAME, SET DEFAULT and CALCULATE are answered as the
table of the specification says, status by status, with exactly its effect on the credentials; or power is lost and the
credentials are as before. -/
theorem C113_table (x : Ext) (hx : GoodHmac x) (s : St) (i : In) (env : Env) (he : env.all cutsOnly) (hv : Valid s.flash)
    (ho : s.flash.oath ≠ none) (hl : Listed i.c.ins) :
    let t := step x s (.apdu i) env
    (t.2 = .cut ∧ store t.1.flash = store s.flash) ∨
      ∃ a, t.2 = .reply a ∧ Answer x s.ram.validated i (store s.flash) a (store t.1.flash) := by
  obtain ⟨o, ho⟩ := Option.ne_none_iff_exists'.mp ho
  exact exec_eff (A := cutsOnly)
    (P := fun oc f' _ => (oc = .cut ∧ store f' = store s.flash) ∨ ∃ a, oc = .done a ∧ Answer x s.ram.validated i (store s.flash) a (store f'))
    (T := fun out s' => (out = .cut ∧ store s'.flash = store s.flash) ∨
      ∃ a, out = .reply a ∧ Answer x s.ram.validated i (store s.flash) a (store s'.flash))
    (wp_mono (process_table hx hv ho hl) (fun a _ _ h => .inr ⟨a, rfl, h⟩) (fun a _ _ h => .inr ⟨a, rfl, h⟩) (fun _ _ h => .inl ⟨rfl, h⟩))
    he
    (by
      rintro a f' r' (⟨h, _⟩ | ⟨b, h, h'⟩)
      · cases h
      · cases h; exact .inr ⟨_, rfl, h'⟩)
    (by
      rintro f' r' (⟨_, h⟩ | ⟨b, h, _⟩)
      · exact .inl ⟨rfl, h⟩
      · cases h)

/-- C113. So it is through every history of commands, touches, resets, restarts and power cuts. -/
theorem C113_history (x : Ext) (hx : GoodHmac x) (s : St) (ops : List (Op × Env)) (he : ∀ o ∈ ops, o.2.all cutsOnly)
    (hv : Valid s.flash) (ho : s.flash.oath ≠ none) : Obeyed x s ops := by
  induction ops generalizing s with
  | nil => trivial
  | cons o ops ih =>
    obtain ⟨op, env⟩ := o
    refine ⟨?_, ih _ (fun o ho => he o (List.mem_cons_of_mem _ ho)) (valid_step hx hv op env) (step_stay s op env ho)⟩
    rintro i rfl hl
    exact C113_table x hx s i env (he (.apdu i, env) List.mem_cons_self) hv ho hl

/-- C113. What the table takes for a new credential, a name and two names is what the wire format says. -/
theorem C113_wire (d : Bytes) :
    (∀ q, newCred d = .ok q ↔ ∃ p c, PutReq d q p c) ∧ (∀ n, (∃ r, name 2 d = .ok (n, r)) ↔ NameReq d n) ∧
    (∀ a b, twoNames d = .ok (a, b) ↔ RenameReq d a b) := by
  have conv : ∀ {α : Type} {m : PE SW α} {r : Except SW α} {a : α}, PEnds m r → (r = .ok a ↔ PE.Ok m a) := by
    intro α m r a h
    exact ⟨fun e => by rw [e] at h; exact h, h.ok⟩
  refine ⟨fun q => (conv (parsePut_ends d)).trans (parsePut_ok _ _), fun n => ?_, fun a b => (conv (parseRename_ends d)).trans (parseRename_ok _ _ _)⟩
  rw [← parseName_ok, ← conv (parseName_ends d)]
  constructor
  · rintro ⟨r, h⟩; rw [h]; rfl
  · intro h
    obtain ⟨⟨n', r⟩, h1, rfl⟩ := map_ok h
    exact ⟨r, h1⟩

/-- PUT leaves the session as it is. -/
theorem put_session {x : Ext} {s : St} {i : In} {env : Env} (h : i.c.ins = 0x01) (hc : (step x s (.apdu i) env).2 ≠ .cut) :
    (step x s (.apdu i) env).1.ram.validated = s.ram.validated := by
  have hk : Keeps SameSess (process x i) := process_sess (by intro h'; simp [Verif.Spec.OathCode.IsSet, h] at h')
    (by intro h'; simp [Verif.Spec.OathCode.IsValidate, h] at h') (by intro h'; simp [Verif.Spec.OathCode.IsSelect, h] at h')
  have h2 := hk ⟨s.flash, s.ram, env⟩
  revert hc
  simp only [step]
  unfold exec runCmd
  cases hm : (process x i).run ⟨s.flash, s.ram, env⟩ with
  | mk o w =>
    rw [hm] at h2
    cases o with
    | none => intro h; exact absurd rfl h
    | some y => cases y <;> exact fun _ => h2.2

/-- C113. With the device unlocked, a well-formed new credential with a free name is added if there is space, and the next
CALCULATE with its name (with the touch it wants) gives its code: the first code after its counter, or the code for the
challenge. -/
theorem C113_works (x : Ext) (hx : GoodHmac x) (s : St) (i j : In) (env env' : Env) (he : env.all cutsOnly) (he' : env'.all cutsOnly)
    (hv : Valid s.flash) (ho : s.flash.oath ≠ none) (hu : s.ram.validated = true) (hi : i.c.ins = 0x01 ∧ i.c.p1 = 0 ∧ i.c.p2 = 0)
    (q : Rec) (p c : Bytes) (hq : PutReq i.c.data q p c) (hfree : store s.flash q.name = none) (hroom : ¬ (store s.flash).Full)
    (hj : j.c.ins = 0xA2 ∧ j.c.p1 = 0 ∧ j.c.p2 = 1) (ht : j.touch = true) (ch : Bytes) (hc : CalcReq j.c.data q.name ch) (h8 : ch.length = 8)
    (hcut : (step x s (.apdu i) env).2 ≠ .cut) (hcut' : (step x (step x s (.apdu i) env).1 (.apdu j) env').2 ≠ .cut) :
    (step x s (.apdu i) env).2 = .reply (.sw 0x9000) ∧
      ∃ f : Bytes, (if Totp q then f = ch else f.length = 8 ∧ num f = num q.chal + 1) ∧
        (step x (step x s (.apdu i) env).1 (.apdu j) env').2 = .reply (.resp (codeResp x true q f) 0x9000) := by
  have hs := put_session hi.1 hcut
  have hv1 := valid_step hx hv (.apdu i) env
  have ho1 := step_stay (x := x) s (.apdu i) env ho
  have h1 := (C113_table x hx s i env he hv ho (.inl hi.1)).resolve_left fun h => hcut h.1
  generalize step x s (.apdu i) env = t at *
  obtain ⟨a, h1, h2⟩ := h1
  unfold Answer at h2
  rw [hu, if_neg (show ¬ true = false by decide), if_pos hi.1] at h2
  unfold Put at h2
  rw [if_neg (by rintro (h | h); exacts [h hi.2.1, h hi.2.2]), ((C113_wire _).1 q).mpr ⟨p, c, hq⟩] at h2
  dsimp only at h2
  rw [hfree] at h2
  dsimp only at h2
  rcases h2 with ⟨h, _⟩ | ⟨_, rfl, h2⟩
  · exact absurd h hroom
  refine ⟨h1, ?_⟩
  obtain ⟨a, g1, g2⟩ := (C113_table x hx t.1 j env' he' hv1 ho1 (.inr (.inr (.inr (.inr hj.1))))).resolve_left fun h => hcut' h.1
  unfold Answer at g2
  rw [hs, hu, if_neg (show ¬ true = false by decide), hj.1] at g2
  simp only [show ¬ (0xA2 : UInt8) = 0x01 by decide, show ¬ (0xA2 : UInt8) = 0x02 by decide, show ¬ (0xA2 : UInt8) = 0x05 by decide,
    show ¬ (0xA2 : UInt8) = 0x55 by decide, if_false] at g2
  unfold Calculate at g2
  rw [if_neg (by rw [hj.2.1, hj.2.2]; decide), hj.2.2] at g2
  have hnq := nameReq_of_calc hc
  obtain ⟨⟨n', rest⟩, hd, hm⟩ := map_ok ((parseCalcName_ends j.c.data).ok ((parseCalcName_ok j.c.data q.name (2 + q.name.length)).mpr ⟨hnq, rfl⟩))
  cases hm
  obtain ⟨_, hol, hrest⟩ := name3_valid hd
  have hce := parseChal_ends j.c.data (2 + q.name.length) hol
  rw [hrest] at hce
  rw [hd] at g2
  dsimp only at g2
  have hst : store t.1.flash q.name = some q := by rw [h2]; simp [Store.insert]
  rw [hst] at g2
  dsimp only at g2
  rw [if_neg (by rw [ht]; simp)] at g2
  have hw := wf_of_put hq
  rw [show ((1 : UInt8) == 1) = true from rfl] at g2
  by_cases htot : Totp q
  · rw [if_pos htot, hce.ok (parseChal_of_calcReq hnq rfl hc)] at g2
    refine ⟨ch, by rw [if_pos htot], ?_⟩
    have hz : q.chal = [0, 0, 0, 0, 0, 0, 0, 0] := by
      rcases hq.counter with h | ⟨h, _⟩
      · exact h.2
      · unfold Hotp at h; unfold Totp at htot; rw [h] at htot; exact absurd htot (by decide)
    dsimp only at g2
    split at g2
    · rw [if_pos ⟨h8, by rw [hz]; exact Nat.zero_le _⟩] at g2
      rw [g1, g2.1]
    · rw [g1, g2.1]
  · rw [if_neg htot, if_neg] at g2
    · obtain ⟨f, f1, f2, f3, _⟩ := g2
      exact ⟨f, by rw [if_neg htot]; exact ⟨f1, f2⟩, by rw [g1, f3]⟩
    · have : num q.chal < 256 ^ 4 := by
        rcases hq.counter with ⟨_, h⟩ | ⟨_, k, hk, _, h⟩
        · rw [h]; decide
        · have := num_lt k
          rw [hk] at this
          rw [h]
          simpa [num] using this
      omega

/-! ### The hypotheses can be met -/

example : Valid exS.flash ∧ exS.flash.oath ≠ none ∧ exS.ram.validated = true := ⟨exS_valid, nofun, rfl⟩

/-- A new HOTP credential `n` with counter 7: that wants a touch. -/
def tabPut : Bytes := [0x71, 1, 0x6E, 0x73, 4, 0x11, 6, 1, 2, 0x78, 2, 0x7A, 4, 0, 0, 0, 7]

example : newCred tabPut = .ok ⟨[0x6E], 0x11, 6, [1, 2], 2, [0, 0, 0, 0, 0, 0, 0, 7]⟩ := by decide +kernel
example : (run exX exS [(.apdu (exCmd 0x01 0 0 tabPut), allOk), (.apdu (exCmd 0x01 0 0 tabPut), allOk), (.apdu (exCmd 0x01 0 1 tabPut), allOk),
    (.apdu (exCmd 0x01 0 0 (tabPut ++ [1])), allOk), (.apdu (exCmd 0xA2 0 1 [0x71, 1, 0x6E]), allOk),
    (.apdu { exCmd 0xA2 0 1 [0x71, 1, 0x6E, 0x74, 8, 0, 0, 0, 0, 0, 0, 0, 0] with touch := true }, allOk),
    (.apdu (exCmd 0x05 0 0 [0x71, 1, 0x6E, 0x71, 1, 0x68]), allOk), (.apdu (exCmd 0x05 0 0 [0x71, 1, 0x6E, 0x71, 1, 0x6F]), allOk),
    (.apdu (exCmd 0x02 0 0 [0x71, 1, 0x6E]), allOk), (.apdu (exCmd 0x02 0 0 [0x71, 1, 0x6F]), fun _ => .cut)]).2 =
    [.reply (.sw 0x9000), .reply (.sw 0x6985), .reply (.sw 0x6A86), .reply (.sw 0x6700), .reply (.sw 0x6982),
     .reply (.resp [0x76, 5, 6, 0, 0, 0, 8] 0x9000), .reply (.sw 0x6985), .reply (.sw 0x9000), .reply (.sw 0x6984), .cut] := by decide +kernel
example : PutReq tabPut ⟨[0x6E], 0x11, 6, [1, 2], 2, [0, 0, 0, 0, 0, 0, 0, 7]⟩ [0x78, 2] [0x7A, 4, 0, 0, 0, 7] :=
  ⟨⟨by decide, by decide⟩, by decide, .inl (by decide), .inl (by decide), by decide, .inr ⟨rfl, by decide⟩, .inr ⟨by decide, [0, 0, 0, 7], rfl, rfl, rfl⟩, rfl⟩
example : store exS.flash [0x6E] = none ∧ ¬ (store exS.flash).Full := by
  refine ⟨by decide +kernel, ?_⟩
  rw [full_iff exS_valid rfl]
  rintro ⟨_, h⟩
  exact absurd h (by decide)
example : CalcReq [0x71, 1, 0x6E, 0x74, 8, 0, 0, 0, 0, 0, 0, 0, 0] [0x6E] [0, 0, 0, 0, 0, 0, 0, 0] :=
  ⟨⟨by decide, by decide⟩, by decide, by decide, [], rfl⟩

end Verif.Oath
