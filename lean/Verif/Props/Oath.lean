import Verif.Lemmas.OathEx
import Verif.Lemmas.OathSpec
/-
OATH applet and touch slots: C15 to C23.
-/
set_option linter.unusedSimpArgs false
namespace Verif.Oath
open Verif.Spec.Oath Cmd

variable {A : Fault → Prop} {x : Ext} {i : In} {f f' : Flash} {r r' : Ram}

/-! ### Inversions -/

/-- A command as a relation. -/
theorem step_apdu (hx : GoodHmac x) (s : St) (i : In) {env : Env} (he : env.all A) :
    ∃ o f' r', ProcEff A x i s.flash s.ram o f' r' ∧ step x s (.apdu i) env =
      match o with
      | .done a => (⟨f', r'⟩, .reply a)
      | .cut => (⟨f', Ram.init⟩, .cut) := by
  have h := runCmd_of_wp (process_eff (A := A) (i := i) (f := s.flash) (r := s.ram) hx) he
  refine ⟨_, _, _, h, ?_⟩
  simp only [step, exec]
  rcases runCmd (process x i) s.flash s.ram env with ⟨f', r', o⟩
  cases o <;> rfl

section
variable {o : Outcome Reply}

theorem inv_put (h : ProcEff A x i f r o f' r') (hv : r.validated = true) (hi : i.c.ins = 0x01) :
    PutEff A i f r o f' r' := by
  cases h <;> simp_all
theorem inv_delete (h : ProcEff A x i f r o f' r') (hv : r.validated = true) (hi : i.c.ins = 0x02) :
    DelEff A i f r o f' r' := by
  cases h <;> simp_all
theorem inv_rename (h : ProcEff A x i f r o f' r') (hv : r.validated = true) (hi : i.c.ins = 0x05) :
    RenEff A i f r o f' r' := by
  cases h <;> simp_all
theorem inv_calculate (h : ProcEff A x i f r o f' r') (hv : r.validated = true) (hi : i.c.ins = 0xA2) :
    CalcEff A x i f r o f' r' := by
  cases h <;> simp_all
theorem inv_list (h : ProcEff A x i f r o f' r') (hv : r.validated = true) (hi : i.c.ins = 0xA1) :
    ListEff A i f { r with idx := 0 } o f' r' := by
  cases h <;> simp_all
theorem inv_more (h : ProcEff A x i f r o f' r') (hv : r.validated = true) (hi : i.c.ins = 0xA5)
    (hr : r.rem = .list) : ListEff A i f r o f' r' := by
  cases h <;> simp_all
end

theorem no_cut : ¬ noFault .cut := by simp [noFault]
theorem no_fail : ¬ noFault .fail := by simp [noFault]
theorem no_io {o : OathFile} (ho : f.oath = some o) : ¬ Io noFault f := by
  rintro (h | h)
  · rw [ho] at h; cases h
  · exact no_fail h

theorem ok_env : Env.all noFault (fun _ => .ok) := fun _ => rfl

theorem ok_unique {ε α : Type} {m : PE ε α} {a b : α} (h : PE.Ok m a) (h' : PE.Ok m b) : a = b := by
  unfold PE.Ok at h h'
  rw [h] at h'; cases h'; rfl

theorem putReq_unique {d p c p' c' : Bytes} {q q' : Rec} (h : PutReq d q p c) (h' : PutReq d q' p' c') :
    q = q' := ok_unique ((parsePut_ok d q).mpr ⟨p, c, h⟩) ((parsePut_ok d q').mpr ⟨p', c', h'⟩)

theorem renameReq_unique {d a b a' b' : Bytes} (h : RenameReq d a b) (h' : RenameReq d a' b') :
    a = a' ∧ b = b' := by
  have := ok_unique ((parseRename_ok d a b).mpr h) ((parseRename_ok d a' b').mpr h')
  cases this; exact ⟨rfl, rfl⟩

theorem calcReq_unique {d n c n' c' : Bytes} (h : CalcReq d n c) (h' : CalcReq d n' c') :
    n = n' ∧ c = c' := by
  have hn := nameReq_unique (nameReq_of_calc h) (nameReq_of_calc h')
  subst hn
  exact ⟨rfl, ok_unique (parseChal_of_calcReq (nameReq_of_calc h) rfl h)
    (parseChal_of_calcReq (nameReq_of_calc h) rfl h')⟩

theorem wf_of_store (hv : Valid f) {n : Bytes} {q : Rec} (h : store f n = some q) : WfRec q := by
  obtain ⟨o, ho⟩ := store_file h
  obtain ⟨_, hw, hu⟩ := hv o ho
  obtain ⟨_, _, j, hj⟩ := (store_some_iff ho hu).mp h
  exact hw q (List.mem_of_getElem? hj)

/-- The map after storing a new factor. -/
theorem stored_after (hv : Valid f) {o : OathFile} (ho : f.oath = some o) {j : Nat} {q : Rec} {n c : Bytes}
    (hj : o.recs[j]? = some q) (hn : ValidName n) (hqn : q.name = n) :
    store (setChal f o j q c) n = some { q with chal := c } := by
  have h := store_set (f' := setChal f o j q c) ho rfl (hv o ho).2.2 hj rfl (.inr (.inl rfl)) n
  rw [h, if_neg (ne_nil_of_valid hn), if_pos hqn.symm]

/-! ### C15: names are unique and bounded -/

/-- C15. Whatever happens to a device, whatever the file system and the power supply do, at most 100
slots are used and no two credentials have the same name. -/
theorem C15_names_unique (hx : GoodHmac x) (h : List (Op × Env)) :
    Valid (run x ⟨⟨none, none⟩, Ram.init⟩ h).1.flash :=
  valid_run hx (fun _ ho => by cases ho) h

/-- Non-vacuity: a device taken into use, then two PUTs and a DELETE. -/
example : (run exX ⟨⟨none, none⟩, Ram.init⟩ [(.install false [1, 2, 3, 4, 5, 6, 7, 8], allOk),
    (.apdu (exCmd 0xA4 4 0 []), allOk), (.apdu (exCmd 1 0 0 exPut), allOk),
    (.apdu (exCmd 1 0 0 exPut), allOk), (.apdu (exCmd 2 0 0 [0x71, 1, 0x7A]), allOk)]).2.drop 2 =
    [.reply (.sw SW.ok), .reply (.sw SW.conditions), .reply (.sw SW.ok)] := by decide +kernel

/-- C15, from any healthy device. -/
theorem C15_names_unique_from (hx : GoodHmac x) {s : St} (hv : Valid s.flash) (h : List (Op × Env)) :
    Valid (run x s h).1.flash := valid_run hx hv h

/-- C15. PUT of an existing name, or with 100 names stored, is refused and changes nothing, under any
faults. -/
theorem C15_put_refused (hx : GoodHmac x) {s : St} (hv : Valid s.flash) {i : In} (hi : i.c.ins = 0x01)
    {q : Rec} {p c : Bytes} (hq : PutReq i.c.data q p c)
    (hr : store s.flash q.name ≠ none ∨ (store s.flash).Full) (env : Env) :
    let res := step x s (.apdu i) env
    res.2 ≠ .reply (.sw SW.ok) ∧ res.1.flash = s.flash ∧ (res.2 ≠ .cut → res.1.ram = s.ram) := by
  obtain ⟨o, f', r', h, hs⟩ := step_apdu hx s i (any_all env)
  simp only [hs]
  cases hval : s.ram.validated with
  | false =>
    have : o = .done (.sw SW.security) ∧ f' = s.flash ∧ r' = s.ram := by cases h <;> simp_all
    obtain ⟨rfl, rfl, rfl⟩ := this
    exact ⟨reply_ne (by decide), rfl, fun _ => rfl⟩
  | true =>
    replace h := inv_put h hval hi
    cases h with
    | bad sw h => exact ⟨reply_ne h, rfl, fun _ => rfl⟩
    | io h => exact ⟨io_ne, rfl, fun _ => rfl⟩
    | cut h => exact ⟨by simp, rfl, fun h => absurd rfl h⟩
    | dup => exact ⟨reply_ne (by decide), rfl, fun _ => rfl⟩
    | full => exact ⟨reply_ne (by decide), rfl, fun _ => rfl⟩
    | done o q' p' c' u h12 ho hq' hn hu hl =>
      exfalso
      cases putReq_unique hq hq'
      rcases hr with hr | hr
      · exact hr ((store_none_iff ho (ne_nil_of_valid hq.name)).mpr hn)
      · obtain ⟨h1, h2⟩ := (full_iff hv ho).mp hr
        rcases hu with ⟨hu, _⟩ | ⟨t, ht, htn⟩
        · omega
        · exact h1 t (List.mem_of_getElem? ht) htn

/-- Non-vacuity: PUT of a name that is stored. -/
example : PutReq [0x71, 1, 0x74, 0x73, 4, 0x21, 6, 1, 2] { exNew with name := [0x74] } [] [] ∧
    store exS.flash [0x74] ≠ none :=
  ⟨⟨⟨by decide, by decide⟩, by decide, by decide, by decide, by decide, .inl ⟨rfl, rfl⟩, .inl ⟨rfl, rfl⟩, rfl⟩,
    by decide⟩

/-! ### C16: a map from names to credentials -/

/-- C16. Every operation on a healthy device acts on the map from names to credentials as specified,
under any faults. -/
theorem C16_step_refines (hx : GoodHmac x) {s : St} (hv : Valid s.flash) (op : Op) (env : Env) :
    StoreStep True (store s.flash) op (step x s op env).2 (store (step x s op env).1.flash) := by
  exact (step_store hv (step_eff hx s op (any_all env))).2

/-- C16 over histories: if file-system calls return no errors of their own (power may be cut anywhere),
the credentials are never lost except by DELETE and a factory reset, and the observable history is one of
the map. -/
theorem C16_history_refines (hx : GoodHmac x) {s : St} (hv : Valid s.flash) (h : List (Op × Env))
    (he : ∀ p ∈ h, p.2.all cutsOnly) :
    StoreRun False (store s.flash) (h.map (·.1)) (run x s h).2 (store (run x s h).1.flash) := by
  induction h generalizing s with
  | nil => rfl
  | cons p h ih =>
    obtain ⟨op, env⟩ := p
    exact ⟨_, cuts_step hx hv op (he (op, env) (by simp)),
      ih (valid_step hx hv op env) (fun p hp => he p (by simp [hp]))⟩

/-- Non-vacuity: a history with a power cut in the middle of a PUT. -/
example : ∀ p ∈ [((.apdu (exCmd 1 0 0 exPut) : Op), fun n => if n = 2 then Fault.cut else .ok),
    (.apdu (exCmd 1 0 0 exPut), allOk)], Env.all cutsOnly p.2 := by
  intro p hp n
  simp only [List.mem_cons, List.not_mem_nil, or_false] at hp
  rcases hp with rfl | rfl
  · simp only [cutsOnly]; split <;> simp
  · exact exOk n

/-- C16, the answers of PUT without faults. -/
theorem C16_put_answers (hx : GoodHmac x) {s : St} (hv : Valid s.flash) (hval : s.ram.validated = true)
    (hfile : s.flash.oath ≠ none) {i : In} (hi : i.c.ins = 0x01) (h12 : i.c.p1 = 0 ∧ i.c.p2 = 0)
    {q : Rec} {p c : Bytes} (hq : PutReq i.c.data q p c) :
    let res := step x s (.apdu i) (fun _ => .ok)
    (store s.flash q.name ≠ none → res = (s, .reply (.sw SW.conditions))) ∧
    (store s.flash q.name = none → (store s.flash).Full → res = (s, .reply (.sw SW.noSpace))) ∧
    (store s.flash q.name = none → ¬ (store s.flash).Full →
      res.2 = .reply (.sw SW.ok) ∧ store res.1.flash = (store s.flash).insert q ∧ res.1.ram = s.ram) := by
  obtain ⟨o, f', r', h, hs⟩ := step_apdu hx s i ok_env
  simp only [hs]
  replace h := inv_put h hval hi
  have hnn := ne_nil_of_valid hq.name
  cases h with
  | bad sw h hw =>
    rcases hw with hw | hw
    · exact absurd h12 (by rintro ⟨h1, h2⟩; rcases hw with h | h <;> contradiction)
    · exact absurd hq (hw q p c)
  | io h =>
    obtain ⟨o, ho⟩ := Option.ne_none_iff_exists'.mp hfile
    exact absurd h (no_io ho)
  | cut h => exact absurd h no_cut
  | dup o q' p' c' ho hq' hd =>
    cases putReq_unique hq hq'
    have : store s.flash q.name ≠ none := by
      rw [Ne, store_none_iff ho hnn]
      obtain ⟨t, ht, htn⟩ := hd
      exact fun h => h t ht htn
    exact ⟨fun _ => rfl, fun h => absurd h this, fun h => absurd h this⟩
  | full o q' p' c' ho hq' hn he hl =>
    cases putReq_unique hq hq'
    have h1 := (store_none_iff ho hnn).mpr hn
    exact ⟨fun h => absurd h1 h, fun _ _ => rfl,
      fun _ h => absurd ((full_iff hv ho).mpr ⟨he, hl⟩) h⟩
  | done o q' p' c' u h12 ho hq' hn hu hl =>
    cases putReq_unique hq hq'
    obtain ⟨_, h2, h3⟩ := put_file hv ho hq hn hu hl rfl
    refine ⟨fun h => absurd h2 h, fun _ hf => ?_, fun _ _ => ⟨rfl, h3, rfl⟩⟩
    obtain ⟨h1, h2⟩ := (full_iff hv ho).mp hf
    exfalso
    rcases hu with ⟨hu, _⟩ | ⟨t, ht, htn⟩
    · omega
    · exact h1 t (List.mem_of_getElem? ht) htn

/-- Non-vacuity, and the third case: a new credential is stored. -/
example : step exX exS (.apdu (exCmd 1 0 0 exPut)) (fun _ => .ok) = (⟨⟨some ⟨[exH, exT, exM, exNew], some [],
    some [9, 9, 9, 9, 9, 9, 9, 9]⟩, exFlash.pass⟩, exRam⟩, .reply (.sw SW.ok)) ∧
    exS.ram.validated = true ∧ exS.flash.oath ≠ none ∧ PutReq exPut exNew [] [] ∧ Valid exS.flash :=
  ⟨by decide +kernel, rfl, by decide, exPut_req, exS_valid⟩

/-- C16, the answers of DELETE without faults. -/
theorem C16_delete_answers (hx : GoodHmac x) {s : St} (hv : Valid s.flash) (hval : s.ram.validated = true)
    (hfile : s.flash.oath ≠ none) {i : In} (hi : i.c.ins = 0x02) (h12 : i.c.p1 = 0 ∧ i.c.p2 = 0)
    {n : Bytes} (hq : NameReq i.c.data n) :
    let res := step x s (.apdu i) (fun _ => .ok)
    (store s.flash n = none → res = (s, .reply (.sw SW.dataInvalid))) ∧
    (store s.flash n ≠ none → res.2 = .reply (.sw SW.ok) ∧ store res.1.flash = (store s.flash).erase n) := by
  obtain ⟨o, f', r', h, hs⟩ := step_apdu hx s i ok_env
  simp only [hs]
  replace h := inv_delete h hval hi
  have hnn := ne_nil_of_valid hq.1
  obtain ⟨oo, hoo⟩ := Option.ne_none_iff_exists'.mp hfile
  cases h with
  | bad sw h hw =>
    rcases hw with hw | hw
    · exact absurd h12 (by rintro ⟨h1, h2⟩; rcases hw with h | h <;> contradiction)
    · exact absurd hq (hw n)
  | io h => exact absurd h (no_io hoo)
  | cut h => exact absurd h no_cut
  | missing o n' ho hq' hn =>
    cases nameReq_unique hq hq'
    have h1 := (store_none_iff ho hnn).mpr hn
    exact ⟨fun _ => rfl, fun h => absurd h1 h⟩
  | done o n' j q h12 ho hq' hj hn r'' w hp =>
    cases nameReq_unique hq hq'
    obtain ⟨_, h2, h3⟩ := del_file hv ho hj (hn ▸ hnn)
      (f' := { passFlash w s.flash r' with oath := some { o with recs := o.recs.set j { q with name := [] } } }) rfl
    rw [hn] at h2 h3
    exact ⟨fun h => absurd h h2, fun _ => ⟨rfl, h3⟩⟩

/-- Non-vacuity: DELETE of `t`, and of a name that is not stored. -/
example : store exS.flash [0x74] ≠ none ∧ NameReq [0x71, 1, 0x74] [0x74] ∧ store exS.flash [0x7A] = none ∧
    NameReq [0x71, 1, 0x7A] [0x7A] := ⟨by decide, exName _ [], by decide, exName _ []⟩

/-- C16, the answers of RENAME without faults. -/
theorem C16_rename_answers (hx : GoodHmac x) {s : St} (hv : Valid s.flash) (hval : s.ram.validated = true)
    (hfile : s.flash.oath ≠ none) {i : In} (hi : i.c.ins = 0x05) (h12 : i.c.p1 = 0 ∧ i.c.p2 = 0)
    {a b : Bytes} (hq : RenameReq i.c.data a b) :
    let res := step x s (.apdu i) (fun _ => .ok)
    (store s.flash b ≠ none → res = (s, .reply (.sw SW.conditions))) ∧
    (store s.flash b = none → store s.flash a = none → res = (s, .reply (.sw SW.dataInvalid))) ∧
    (store s.flash b = none → store s.flash a ≠ none →
      res.2 = .reply (.sw SW.ok) ∧ store res.1.flash = (store s.flash).rekey a b) := by
  obtain ⟨o, f', r', h, hs⟩ := step_apdu hx s i ok_env
  simp only [hs]
  replace h := inv_rename h hval hi
  have hna := ne_nil_of_valid hq.1
  have hnb := ne_nil_of_valid hq.2.1
  obtain ⟨oo, hoo⟩ := Option.ne_none_iff_exists'.mp hfile
  cases h with
  | bad sw h hw =>
    rcases hw with hw | hw
    · exact absurd h12 (by rintro ⟨h1, h2⟩; rcases hw with h | h <;> contradiction)
    · exact absurd hq (hw a b)
  | io h => exact absurd h (no_io hoo)
  | cut h => exact absurd h no_cut
  | dup o a' b' ho hq' hd =>
    obtain ⟨rfl, rfl⟩ := renameReq_unique hq hq'
    have : store s.flash b ≠ none := by
      rw [Ne, store_none_iff ho hnb]
      obtain ⟨t, ht, htn⟩ := hd
      exact fun h => h t ht htn
    exact ⟨fun _ => rfl, fun h => absurd h this, fun h => absurd h this⟩
  | missing o a' b' ho hq' hn hm =>
    obtain ⟨rfl, rfl⟩ := renameReq_unique hq hq'
    have h1 := (store_none_iff ho hnb).mpr hn
    have h2 := (store_none_iff ho hna).mpr hm
    exact ⟨fun h => absurd h1 h, fun _ _ => rfl, fun _ h => absurd h2 h⟩
  | done o a' b' j q h12 ho hq' hn hj ha =>
    obtain ⟨rfl, rfl⟩ := renameReq_unique hq hq'
    obtain ⟨_, h2, h3, h4⟩ := ren_file hv ho hj ha hq.1 hq.2.1 hn rfl
    exact ⟨fun h => absurd h3 h, fun _ h => absurd h h2, fun _ _ => ⟨rfl, h4⟩⟩

/-- Non-vacuity: RENAME `t` to `z`. -/
example : RenameReq [0x71, 1, 0x74, 0x71, 1, 0x7A] [0x74] [0x7A] ∧ store exS.flash [0x7A] = none ∧
    store exS.flash [0x74] = some exT :=
  ⟨⟨⟨by decide, by decide⟩, ⟨by decide, by decide⟩, [], rfl⟩, by decide, by decide⟩

/-- C16, lookup: the answers of CALCULATE without faults. A missing name is reported; a present one is
answered from its own secret: for TOTP with the given challenge, for HOTP with the next counter. -/
theorem C16_calculate_answers (hx : GoodHmac x) {s : St} (hv : Valid s.flash)
    (hval : s.ram.validated = true) (hfile : s.flash.oath ≠ none) {i : In} (hi : i.c.ins = 0xA2)
    (h12 : i.c.p1 = 0 ∧ (i.c.p2 = 0 ∨ i.c.p2 = 1)) {n : Bytes} (hq : NameReq i.c.data n) :
    let res := step x s (.apdu i) (fun _ => .ok)
    (store s.flash n = none → res = (s, .reply (.sw SW.dataInvalid))) ∧
    ∀ q, store s.flash n = some q →
      (NeedsTouch q → i.nfc = false → i.touch = false → res = (s, .reply (.sw SW.security))) ∧
      ((NeedsTouch q → i.nfc = true ∨ i.touch = true) →
        (Totp q → ∀ c, CalcReq i.c.data n c → (IncOnly q → c.length = 8 ∧ num q.chal ≤ num c) →
          res.2 = .reply (.resp (codeResp x (i.c.p2 != 0) q c) SW.ok)) ∧
        (Totp q → ∀ c, CalcReq i.c.data n c → IncOnly q → ¬ (c.length = 8 ∧ num q.chal ≤ num c) →
          res = (s, .reply (.sw SW.security))) ∧
        (Hotp q → num q.chal + 1 < 256 ^ 8 → ∃ c, c.length = 8 ∧ num c = num q.chal + 1 ∧
          res.2 = .reply (.resp (codeResp x (i.c.p2 != 0) q c) SW.ok) ∧
          store res.1.flash n = some { q with chal := c }) ∧
        (Hotp q → num q.chal + 1 = 256 ^ 8 → res = (s, .reply (.sw SW.conditions)))) := by
  obtain ⟨oc, f', r', h, hs⟩ := step_apdu hx s i ok_env
  simp only [hs]
  replace h := inv_calculate h hval hi
  have hnn := ne_nil_of_valid hq.1
  obtain ⟨oo, hoo⟩ := Option.ne_none_iff_exists'.mp hfile
  obtain ⟨hlen, hwf, hu⟩ := hv oo hoo
  have hth : ∀ q : Rec, Totp q → Hotp q → False := by
    intro q h1 h2; unfold Totp at h1; unfold Hotp at h2; rw [h1] at h2; exact absurd h2 (by decide)
  have hlook : ∀ {o : OathFile} {n' : Bytes} {j : Nat} {q : Rec}, s.flash.oath = some o →
      o.recs[j]? = some q → q.name = n' → NameReq i.c.data n' → store s.flash n = some q ∧ WfRec q := by
    intro o n' j q ho hj hn hq'
    rw [hoo] at ho; cases ho
    cases nameReq_unique hq hq'
    exact ⟨(store_some_iff hoo hu).mpr ⟨hnn, hn, j, hj⟩, hwf q (List.mem_of_getElem? hj)⟩
  have hcmp : ∀ {q : Rec} {c : Bytes}, WfRec q → c.length = 8 →
      (memcmpGt q.chal c = false ↔ num q.chal ≤ num c) := by
    intro q c hq hc
    have := memcmpGt_iff (a := q.chal) (b := c) (by rw [hq.chal, hc])
    cases hm : memcmpGt q.chal c with
    | true => rw [hm] at this; have := this.mp rfl; constructor
              · intro h; cases h
              · intro h; omega
    | false => rw [hm] at this; refine ⟨fun _ => ?_, fun _ => rfl⟩
               exact Nat.le_of_not_lt fun h => absurd (this.mpr h) (by simp)
  cases h with
  | cut h => exact absurd h no_cut
  | bad sw hb =>
    cases hb with
    | p12 h =>
      exfalso
      obtain ⟨h1, h2⟩ := h12
      rcases h with h | ⟨h3, h4⟩
      · exact h h1
      · rcases h2 with h2 | h2
        · exact h3 h2
        · exact h4 h2
    | io h => exact absurd h (no_io hoo)
    | noName _ hs h => exact absurd hq (h n)
    | missing o n' ho hq' h =>
      cases nameReq_unique hq hq'
      have h1 := (store_none_iff ho hnn).mpr h
      exact ⟨fun _ => rfl, fun q hq => by rw [h1] at hq; cases hq⟩
    | touch o n' j q ho hq' hj hn ht h1 h2 =>
      obtain ⟨hl, _⟩ := hlook ho hj hn hq'
      refine ⟨fun h => absurd (hl.symm.trans h) (by simp), fun q' hq' => ?_⟩
      rw [hl] at hq'; cases hq'
      refine ⟨fun _ _ _ => rfl, fun h => ?_⟩
      rcases h ht with h | h
      · rw [h1] at h; cases h
      · rw [h2] at h; cases h
    | noChal o n' j q ho hq' hj hn ht htouch _ hs h =>
      obtain ⟨hl, _⟩ := hlook ho hj hn hq'
      cases nameReq_unique hq hq'
      refine ⟨fun h => absurd (hl.symm.trans h) (by simp), fun q' hq' => ?_⟩
      rw [hl] at hq'; cases hq'
      refine ⟨?_, fun _ => ⟨fun _ c hc => absurd hc (h c), fun _ c hc => absurd hc (h c),
        fun hh => (hth q ht hh).elim, fun hh => (hth q ht hh).elim⟩⟩
      intro h1 h2 h3
      rcases htouch h1 with h | h
      · rw [h2] at h; cases h
      · rw [h3] at h; cases h
    | old o n' c j q ho hq' hj hn ht hinc h =>
      obtain ⟨hl, hw⟩ := hlook ho hj hn (nameReq_of_calc hq')
      refine ⟨fun h => absurd (hl.symm.trans h) (by simp), fun q' hq'' => ?_⟩
      rw [hl] at hq''; cases hq''
      refine ⟨fun _ _ _ => rfl, fun _ => ⟨?_, fun _ _ _ _ _ => rfl, fun hh => (hth q ht hh).elim,
        fun hh => (hth q ht hh).elim⟩⟩
      intro _ c' hc' hok
      obtain ⟨_, rfl⟩ := calcReq_unique hc' hq'
      obtain ⟨h1, h2⟩ := hok hinc
      exact absurd ⟨h1, (hcmp hw h1).mpr h2⟩ h
    | max o n' j q ho hq' hj hn ht htouch h =>
      obtain ⟨hl, hw⟩ := hlook ho hj hn hq'
      refine ⟨fun h => absurd (hl.symm.trans h) (by simp), fun q' hq'' => ?_⟩
      rw [hl] at hq''; cases hq''
      have hm : num q.chal + 1 = 256 ^ 8 := by
        rw [← hw.chal]; exact increaseCounter_none.mp h
      exact ⟨fun h1 h2 h3 => absurd (htouch h1) (by rw [h2, h3]; simp),
        fun _ => ⟨fun ht' => (hth q ht' ht).elim, fun ht' => (hth q ht' ht).elim, fun _ h => by omega,
          fun _ _ => rfl⟩⟩
    | type o n' j q ho hq' hj hn ht hh =>
      obtain ⟨hl, hw⟩ := hlook ho hj hn hq'
      rcases hw.type with h | h
      · exact absurd h hh
      · exact absurd h ht
  | totp o n' c j q ho hq' hj hn ht htouch hinc =>
    obtain ⟨hl, hw⟩ := hlook ho hj hn (nameReq_of_calc hq')
    refine ⟨fun h => absurd (hl.symm.trans h) (by simp), fun q' hq'' => ?_⟩
    rw [hl] at hq''; cases hq''
    refine ⟨fun h1 h2 h3 => absurd (htouch h1) (by rw [h2, h3]; simp),
      fun _ => ⟨?_, fun _ _ _ h => absurd h hinc, fun h => (hth q ht h).elim, fun h => (hth q ht h).elim⟩⟩
    intro _ c' hc' _
    obtain ⟨_, rfl⟩ := calcReq_unique hc' hq'
    rfl
  | totpInc o n' c j q ho hq' hj hn ht htouch hinc hcl hc _ hf =>
    obtain ⟨hl, hw⟩ := hlook ho hj hn (nameReq_of_calc hq')
    refine ⟨fun h => absurd (hl.symm.trans h) (by simp), fun q' hq'' => ?_⟩
    rw [hl] at hq''; cases hq''
    refine ⟨fun h1 h2 h3 => absurd (htouch h1) (by rw [h2, h3]; simp),
      fun _ => ⟨?_, ?_, fun h => (hth q ht h).elim, fun h => (hth q ht h).elim⟩⟩
    · intro _ c' hc' _
      obtain ⟨_, rfl⟩ := calcReq_unique hc' hq'
      rfl
    · intro _ c' hc' _ hno
      obtain ⟨_, rfl⟩ := calcReq_unique hc' hq'
      exact absurd ⟨hcl, (hcmp hw hcl).mp hc⟩ hno
  | hotp o n' c j q ho hq' hj hn ht htouch hc _ hf =>
    obtain ⟨hl, hw⟩ := hlook ho hj hn hq'
    refine ⟨fun h => absurd (hl.symm.trans h) (by simp), fun q' hq'' => ?_⟩
    rw [hl] at hq''; cases hq''
    obtain ⟨hcl, hcn⟩ := increaseCounter_some hc
    refine ⟨fun h1 h2 h3 => absurd (htouch h1) (by rw [h2, h3]; simp),
      fun _ => ⟨fun h => (hth q h ht).elim, fun h => (hth q h ht).elim, fun _ _ => ?_, fun _ h => ?_⟩⟩
    · refine ⟨c, hcl.trans hw.chal, hcn, rfl, ?_⟩
      rcases hf with rfl | ⟨hf, _⟩
      · exact stored_after hv ho hj hq.1 (by rw [hn]; exact (nameReq_unique hq hq').symm)
      · exact absurd hf no_fail
    · have := num_lt c
      rw [hcl, hw.chal, hcn] at this
      omega

/-- Non-vacuity: an HOTP credential with counter 5, an increasing-only TOTP credential with a larger and
with a smaller challenge, and a credential at the maximum. -/
example : store exS.flash [0x68] = some exH ∧ Hotp exH ∧ num exH.chal + 1 < 256 ^ 8 ∧
    store exS.flash [0x74] = some exT ∧ Totp exT ∧ IncOnly exT ∧ num exT.chal ≤ num [0, 0, 0, 0, 0, 0, 0, 10] ∧
    ¬ num exT.chal ≤ num [0, 0, 0, 0, 0, 0, 0, 8] ∧ (∀ c, CalcReq (exCalc c) [0x74] [0, 0, 0, 0, 0, 0, 0, c]) ∧
    store exS.flash [0x6D] = some exM ∧ num exM.chal + 1 = 256 ^ 8 :=
  ⟨by decide, by decide, by decide, by decide, by decide, by decide, by decide, by decide, exCalc_req,
    by decide, by decide⟩

/-! ### C17: HOTP counters -/

theorem cuts_no_fail : ¬ cutsOnly .fail := by simp [cutsOnly]

/-- C17, one code: it is computed from the stored counter plus one, and that counter is on flash when
the code is out. Power may be cut at any point. -/
theorem C17_code_uses_next_counter (hx : GoodHmac x) {s : St} (hv : Valid s.flash) {n : Bytes} {q : Rec}
    (hq : store s.flash n = some q) (hh : Hotp q) (op : Op) {env : Env} (he : env.all cutsOnly)
    (hg : GivesCode s op (step x s op env).2 n) :
    ∃ c, c.length = 8 ∧ num c = num q.chal + 1 ∧ Shows x q c (step x s op env).2 ∧
      store (step x s op env).1.flash n = some { q with chal := c } := by
  obtain ⟨hqn, hnn⟩ := store_name hq
  obtain ⟨oo, hoo⟩ := store_file hq
  obtain ⟨_, hwf, hu⟩ := hv oo hoo
  have hlook : ∀ {o : OathFile} {j : Nat} {t : Rec}, s.flash.oath = some o →
      o.recs[j]? = some t → t.name = n → t = q := by
    intro o j t ho hj hn
    rw [hoo] at ho; cases ho
    have h1 := store_of_get hoo hu hj (by rw [hn]; exact hnn)
    rw [hn, hq] at h1; cases h1; rfl
  have hth : ∀ t : Rec, Totp t → Hotp t → False := by
    intro q h1 h2; unfold Totp at h1; unfold Hotp at h2; rw [h1] at h2; exact absurd h2 (by decide)
  rcases hg with ⟨i, d, rfl, hi, hreq, hout⟩ | ⟨long, j, m, e, o, t, b, rfl, hslot, ho, hj, hn, hout⟩
  · obtain ⟨oc, f', r', h, hs⟩ := step_apdu hx s i he
    rw [hs] at hout ⊢
    have hval : s.ram.validated = true := by
      cases hval : s.ram.validated with
      | true => rfl
      | false =>
        exfalso
        have : oc = .done (.sw SW.security) := by cases h <;> simp_all
        subst this; simp [Reply.sw] at hout; exact absurd hout.2 (by decide)
    replace h := inv_calculate h hval hi
    cases h with
    | bad sw hb =>
      exfalso
      simp [Reply.sw] at hout; exact hb.ne_ok hout.2
    | cut => simp at hout
    | totp o n' c j t ho hq' hj hn ht =>
      cases nameReq_unique hreq (nameReq_of_calc hq')
      cases hlook ho hj hn
      exact (hth q ht hh).elim
    | totpInc o n' c j t ho hq' hj hn ht =>
      cases nameReq_unique hreq (nameReq_of_calc hq')
      cases hlook ho hj hn
      exact (hth q ht hh).elim
    | hotp o n' c j t ho hq' hj hn ht htouch hc _ hf =>
      cases nameReq_unique hreq hq'
      cases hlook ho hj hn
      obtain ⟨h1, h2⟩ := increaseCounter_some hc
      refine ⟨c, h1.trans (wf_of_store hv hq).chal, h2, .inl ⟨_, rfl⟩, ?_⟩
      rcases hf with rfl | ⟨hf, _⟩
      · exact stored_after hv ho hj hreq.1 hn
      · exact absurd hf cuts_no_fail
  · have h := step_eff hx s (.touch long) he
    cases hlook ho hj hn
    have hvn : ValidName n := by
      refine ⟨List.length_pos_iff.mpr hnn, ?_⟩
      rw [← hn]; exact (wf_of_store hv hq).name
    generalize hst : step x s (.touch long) env = st at *
    obtain ⟨s', out⟩ := st
    simp only at hout h ⊢
    subst hout
    cases h with
    | touch _ _ f' r' h =>
      cases h with
      | off h => rw [hslot] at h; cases h
      | static pw e h => rw [hslot] at h; cases h
      | hotp m' e' o' j' t' c h ho' hj' hn' ht hc _ hf =>
        rw [hslot] at h
        simp only [Slot.oath.injEq] at h
        have hjj : j = j' := by
          have := h.1
          exact Nat.eq_of_mul_eq_mul_right (by decide : 0 < recSize) this
        subst hjj
        rw [ho] at ho'; cases ho'
        rw [hj] at hj'; cases hj'
        obtain ⟨h1, h2⟩ := increaseCounter_some hc
        rw [hoo] at ho; cases ho
        refine ⟨c, h1.trans (wf_of_store hv hq).chal, h2, .inr ⟨_, ?_, rfl⟩, ?_⟩
        · by_cases he : e' = 0 <;> simp [he]
        · rcases hf with rfl | ⟨hf, _⟩
          · exact stored_after hv hoo hj hvn hn
          · exact absurd hf cuts_no_fail

/-- Non-vacuity: CALCULATE of `h` gives a code, and so does a touch. -/
example : GivesCode exS (.apdu (exCmd 0xA2 0 1 [0x71, 1, 0x68])) (step exX exS (.apdu (exCmd 0xA2 0 1 [0x71, 1, 0x68]))
      allOk).2 [0x68] ∧ GivesCode exS (.touch false) (step exX exS (.touch false) allOk).2 [0x68] := by
  refine ⟨.inl ⟨_, [0x76, 5, 6, 0, 0, 0, 6], rfl, rfl, exName _ [], by decide +kernel⟩, .inr ⟨false, 0, [0x68], 1, _, exH,
    [0x30, 0x30, 0x30, 0x30, 0x30, 0x36, 0x0D], rfl, rfl, rfl, rfl, rfl, by decide +kernel⟩⟩

/-- Beyond the hypotheses (only power cuts): the result of writing the counter back is ignored, so when the
file system reports an error the code is still returned, and the same code is returned again. -/
theorem C17_write_error_repeats_code : ∃ env,
    let i := exCmd 0xA2 0 1 [0x71, 1, 0x68]
    let r1 := step exX exS (.apdu i) env
    let r2 := step exX r1.1 (.apdu i) allOk
    r1.2 = .reply (.resp [0x76, 5, 6, 0, 0, 0, 6] SW.ok) ∧ r2.2 = r1.2 ∧ Env.all (· ≠ .cut) env :=
  ⟨fun n => if n = 2 then .fail else .ok, by decide +kernel, by decide +kernel, fun n => by
    simp only; split <;> simp⟩

theorem shows_chal {q : Rec} {c d : Bytes} {out : Out} (h : Shows x { q with chal := d } c out) :
    Shows x q c out := h

/-- C17. Of two codes of one HOTP credential given out in any history, with power cuts anywhere, the later
one is computed from a strictly greater moving factor. -/
theorem C17_factors_strictly_increase (hx : GoodHmac x) {s : St} (hv : Valid s.flash) {n : Bytes} {q : Rec}
    (hq : store s.flash n = some q) (hh : Hotp q) (op1 : Op) {env1 : Env} (he1 : env1.all cutsOnly)
    (h : List (Op × Env)) (hk : ∀ p ∈ h, Keeps n p.1 ∧ p.2.all cutsOnly)
    (op2 : Op) {env2 : Env} (he2 : env2.all cutsOnly) :
    let r1 := step x s op1 env1
    let s2 := (run x r1.1 h).1
    let r2 := step x s2 op2 env2
    GivesCode s op1 r1.2 n → GivesCode s2 op2 r2.2 n →
    ∃ c1 c2, Shows x q c1 r1.2 ∧ Shows x q c2 r2.2 ∧ num q.chal < num c1 ∧ num c1 < num c2 := by
  intro r1 s2 r2 hg1 hg2
  obtain ⟨c1, _, hc1, hs1, hst1⟩ := C17_code_uses_next_counter hx hv hq hh op1 he1 hg1
  have hv1 : Valid r1.1.flash := valid_step hx hv op1 env1
  obtain ⟨q2, hq2, hl2⟩ := keeps_run hx hv1 hst1 h hk
  have hh2 : Hotp q2 := by rw [hl2.1]; exact hh
  obtain ⟨c2, _, hc2, hs2, _⟩ :=
    C17_code_uses_next_counter hx (valid_run hx hv1 h) hq2 hh2 op2 he2 hg2
  refine ⟨c1, c2, hs1, ?_, by omega, ?_⟩
  · rw [hl2.1] at hs2; exact hs2
  · have := hl2.2
    simp only at this
    omega

/-- Non-vacuity: CALCULATE, then power loss, re-selection and a RENAME of another credential, then
CALCULATE again. -/
example : ∃ h, (∀ p ∈ h, Keeps [0x68] p.1 ∧ Env.all cutsOnly p.2) ∧
    let r1 := step exX exS (.apdu (exCmd 0xA2 0 1 [0x71, 1, 0x68])) allOk
    let s2 := (run exX r1.1 h).1
    (step exX s2 (.apdu (exCmd 0xA2 0 1 [0x71, 1, 0x68])) allOk).2 = .reply (.resp [0x76, 5, 6, 0, 0, 0, 7] SW.ok) := by
  refine ⟨[(.boot, allOk), (.apdu (exCmd 0xA4 4 0 []), allOk),
    (.apdu (exCmd 5 0 0 [0x71, 1, 0x74, 0x71, 1, 0x7A]), allOk)], ?_, by decide +kernel⟩
  intro p hp
  simp only [List.mem_cons, List.not_mem_nil, or_false] at hp
  rcases hp with rfl | rfl | rfl
  · exact ⟨trivial, exOk⟩
  · exact ⟨⟨fun h => absurd h (by decide), fun h => absurd h (by decide)⟩, exOk⟩
  · refine ⟨⟨fun h => absurd h (by decide), fun _ b hb => ?_⟩, exOk⟩
    obtain ⟨_, _, rest, h⟩ := hb
    simp [exCmd, nameTlv] at h

/-- C17. A counter at its maximum gives no code and is not changed, under any faults. -/
theorem C17_maximum_refuses (hx : GoodHmac x) {s : St} (hv : Valid s.flash) {n : Bytes} {q : Rec}
    (hq : store s.flash n = some q) (hh : Hotp q) (hm : num q.chal + 1 = 256 ^ 8) (op : Op)
    (env : Env) : ¬ GivesCode s op (step x s op env).2 n ∧
      ((∃ i, op = .apdu i ∧ i.c.ins = 0xA2 ∧ NameReq i.c.data n) →
        (step x s op env).1.flash = s.flash) := by
  obtain ⟨hqn, hnn⟩ := store_name hq
  obtain ⟨oo, hoo⟩ := store_file hq
  obtain ⟨_, hwf, hu⟩ := hv oo hoo
  have hlook : ∀ {o : OathFile} {j : Nat} {t : Rec}, s.flash.oath = some o →
      o.recs[j]? = some t → t.name = n → t = q := by
    intro o j t ho hj hn
    rw [hoo] at ho; cases ho
    have h1 := store_of_get hoo hu hj (by rw [hn]; exact hnn)
    rw [hn, hq] at h1; cases h1; rfl
  have hth : ∀ t : Rec, Totp t → Hotp t → False := by
    intro q h1 h2; unfold Totp at h1; unfold Hotp at h2; rw [h1] at h2; exact absurd h2 (by decide)
  have hqw : WfRec q := by
    obtain ⟨_, _, j, hj⟩ := (store_some_iff hoo hu).mp hq
    exact hwf q (List.mem_of_getElem? hj)
  have hnone : increaseCounter q.chal = none :=
    increaseCounter_none.mpr (by rw [hqw.chal]; exact hm)
  have hcalc : ∀ i, i.c.ins = 0xA2 → NameReq i.c.data n →
      (∀ d, (step x s (.apdu i) env).2 ≠ .reply (.resp d SW.ok)) ∧ (step x s (.apdu i) env).1.flash = s.flash := by
    intro i hi hreq
    obtain ⟨oc, f', r', h, hs⟩ := step_apdu hx s i (any_all env)
    rw [hs]
    cases hval : s.ram.validated with
    | false =>
      have : oc = .done (.sw SW.security) ∧ f' = s.flash := by cases h <;> simp_all
      obtain ⟨rfl, rfl⟩ := this
      exact ⟨fun d h => by simp [Reply.sw] at h; exact absurd h.2 (by decide), rfl⟩
    | true =>
      replace h := inv_calculate h hval hi
      cases h with
      | bad sw hb => exact ⟨fun d h => by simp [Reply.sw] at h; exact hb.ne_ok h.2, rfl⟩
      | cut => exact ⟨fun d h => by simp at h, rfl⟩
      | totp o n' c j t ho hq' hj hn ht =>
        cases nameReq_unique hreq (nameReq_of_calc hq')
        cases hlook ho hj hn
        exact (hth q ht hh).elim
      | totpInc o n' c j t ho hq' hj hn ht =>
        cases nameReq_unique hreq (nameReq_of_calc hq')
        cases hlook ho hj hn
        exact (hth q ht hh).elim
      | hotp o n' c j t ho hq' hj hn ht htouch hc =>
        cases nameReq_unique hreq hq'
        cases hlook ho hj hn
        rw [hnone] at hc; cases hc
  refine ⟨?_, ?_⟩
  · rintro (⟨i, d, rfl, hi, hreq, hout⟩ | ⟨long, j, m, e, o, t, b, rfl, hslot, ho, hj, hn, hout⟩)
    · exact (hcalc i hi hreq).1 d hout
    · have h := step_eff hx s (.touch long) (any_all env)
      cases hlook ho hj hn
      generalize hst : step x s (.touch long) env = st at *
      obtain ⟨s', out⟩ := st
      simp only at hout h
      subst hout
      cases h with
      | touch _ _ f' r' h =>
        cases h with
        | off h => rw [hslot] at h; cases h
        | static pw e h => rw [hslot] at h; cases h
        | hotp m' e' o' j' t' c h ho' hj' hn' ht hc =>
          rw [hslot] at h
          simp only [Slot.oath.injEq] at h
          have hjj : j = j' := Nat.eq_of_mul_eq_mul_right (by decide : 0 < recSize) h.1
          subst hjj
          rw [ho] at ho'; cases ho'
          rw [hj] at hj'; cases hj'
          rw [hnone] at hc; cases hc
  · rintro ⟨i, rfl, hi, hreq⟩
    exact (hcalc i hi hreq).2

/-- Non-vacuity: `m` is at the maximum. -/
example : store exS.flash [0x6D] = some exM ∧ Hotp exM ∧ num exM.chal + 1 = 256 ^ 8 ∧
    (step exX exS (.apdu (exCmd 0xA2 0 1 [0x71, 1, 0x6D])) allOk).2 = .reply (.sw SW.conditions) :=
  ⟨by decide, by decide, by decide, by decide +kernel⟩

/-! ### C18: increasing-only TOTP -/

/-- C18, CALCULATE: a code of an increasing-only credential is given out only for a challenge that is at
least the stored one (big-endian), and that challenge is stored when the code is out. -/
theorem C18_calculate (hx : GoodHmac x) {s : St} (hv : Valid s.flash) {n : Bytes} {q : Rec}
    (hq : store s.flash n = some q) (ht : Totp q) (hinc : IncOnly q) {i : In} (hi : i.c.ins = 0xA2)
    (hreq : NameReq i.c.data n) {env : Env} (he : env.all cutsOnly) {d : Bytes}
    (hout : (step x s (.apdu i) env).2 = .reply (.resp d SW.ok)) :
    ∃ c, CalcReq i.c.data n c ∧ c.length = 8 ∧ num q.chal ≤ num c ∧
      d = codeResp x (i.c.p2 != 0) q c ∧
      store (step x s (.apdu i) env).1.flash n = some { q with chal := c } := by
  obtain ⟨hqn, hnn⟩ := store_name hq
  obtain ⟨oo, hoo⟩ := store_file hq
  obtain ⟨_, hwf, hu⟩ := hv oo hoo
  have hlook : ∀ {o : OathFile} {j : Nat} {t : Rec}, s.flash.oath = some o →
      o.recs[j]? = some t → t.name = n → t = q := by
    intro o j t ho hj hn
    rw [hoo] at ho; cases ho
    have h1 := store_of_get hoo hu hj (by rw [hn]; exact hnn)
    rw [hn, hq] at h1; cases h1; rfl
  have hth : ∀ t : Rec, Totp t → Hotp t → False := by
    intro q h1 h2; unfold Totp at h1; unfold Hotp at h2; rw [h1] at h2; exact absurd h2 (by decide)
  obtain ⟨oc, f', r', h, hs⟩ := step_apdu hx s i he
  rw [hs] at hout ⊢
  have hval : s.ram.validated = true := by
    cases hval : s.ram.validated with
    | true => rfl
    | false =>
      exfalso
      have : oc = .done (.sw SW.security) := by cases h <;> simp_all
      subst this; simp [Reply.sw] at hout; exact absurd hout.2 (by decide)
  replace h := inv_calculate h hval hi
  cases h with
  | bad sw hb =>
    exfalso
    simp [Reply.sw] at hout; exact hb.ne_ok hout.2
  | cut => simp at hout
  | totp o n' c j t ho hq' hj hn ht htouch hno =>
    cases nameReq_unique hreq (nameReq_of_calc hq')
    cases hlook ho hj hn
    exact absurd hinc hno
  | totpInc o n' c j t ho hq' hj hn ht htouch hi' hl hc _ hf =>
    cases nameReq_unique hreq (nameReq_of_calc hq')
    cases hlook ho hj hn
    simp at hout
    refine ⟨c, hq', hl, ?_, hout.symm, ?_⟩
    · exact le_of_memcmp (wf_of_store hv hq).chal hl hc
    · rcases hf with rfl | ⟨hf, _⟩
      · exact stored_after hv ho hj hreq.1 hn
      · exact absurd hf cuts_no_fail
  | hotp o n' c j t ho hq' hj hn ht' =>
    cases nameReq_unique hreq hq'
    cases hlook ho hj hn
    exact (hth q ht ht').elim

/-- Non-vacuity: challenge 10 after 9. -/
example : (step exX exS (.apdu (exCmd 0xA2 0 1 (exCalc 10))) allOk).2 =
    .reply (.resp [0x76, 5, 8, 0, 0, 0, 10] SW.ok) ∧ Totp exT ∧ IncOnly exT ∧ NameReq (exCalc 10) [0x74] :=
  ⟨by decide +kernel, by decide, by decide, exName _ _⟩

/-- C18 over histories: the challenge of the later code is not below that of the earlier one. -/
theorem C18_never_goes_back (hx : GoodHmac x) {s : St} (hv : Valid s.flash) {n : Bytes} {q : Rec}
    (hq : store s.flash n = some q) (ht : Totp q) (hinc : IncOnly q)
    {i1 : In} (hi1 : i1.c.ins = 0xA2) {c1 : Bytes} (hr1 : CalcReq i1.c.data n c1)
    {env1 : Env} (he1 : env1.all cutsOnly)
    (h : List (Op × Env)) (hk : ∀ p ∈ h, Keeps n p.1 ∧ p.2.all cutsOnly)
    {i2 : In} (hi2 : i2.c.ins = 0xA2) {c2 : Bytes} (hr2 : CalcReq i2.c.data n c2)
    {env2 : Env} (he2 : env2.all cutsOnly) :
    let r1 := step x s (.apdu i1) env1
    let r2 := step x (run x r1.1 h).1 (.apdu i2) env2
    (∃ d, r1.2 = .reply (.resp d SW.ok)) → (∃ d, r2.2 = .reply (.resp d SW.ok)) → num c1 ≤ num c2 := by
  rintro r1 r2 ⟨d1, h1⟩ ⟨d2, h2⟩
  obtain ⟨c, hc, _, _, _, hst⟩ := C18_calculate hx hv hq ht hinc hi1 (nameReq_of_calc hr1) he1 h1
  obtain ⟨_, rfl⟩ := calcReq_unique hr1 hc
  have hv1 : Valid r1.1.flash := valid_step hx hv _ _
  obtain ⟨q2, hq2, hl2⟩ := keeps_run hx hv1 hst h hk
  have ht2 : Totp q2 := by rw [hl2.1]; exact ht
  have hinc2 : IncOnly q2 := by rw [hl2.1]; exact hinc
  obtain ⟨c', hc', _, hle, _⟩ := C18_calculate hx (valid_run hx hv1 h) hq2 ht2 hinc2 hi2
    (nameReq_of_calc hr2) he2 h2
  obtain ⟨_, rfl⟩ := calcReq_unique hr2 hc'
  have h3 : num c1 ≤ num q2.chal := hl2.2
  omega

/-- Non-vacuity: 10 then 12 is answered, 12 then 10 is refused. -/
example : (run exX exS [(.apdu (exCmd 0xA2 0 1 (exCalc 10)), allOk), (.apdu (exCmd 0xA2 0 1 (exCalc 12)), allOk),
    (.apdu (exCmd 0xA2 0 1 (exCalc 10)), allOk)]).2 = [.reply (.resp [0x76, 5, 8, 0, 0, 0, 10] SW.ok),
    .reply (.resp [0x76, 5, 8, 0, 0, 0, 12] SW.ok), .reply (.sw SW.security)] := by decide +kernel

/-- C18, the stored challenge of any credential never decreases. -/
theorem C18_stored_never_decreases (hx : GoodHmac x) {s : St} (hv : Valid s.flash) {n : Bytes} {q : Rec}
    (hq : store s.flash n = some q) (h : List (Op × Env))
    (hk : ∀ p ∈ h, Keeps n p.1 ∧ p.2.all cutsOnly) :
    ∃ q', store (run x s h).1.flash n = some q' ∧ Later q q' := keeps_run hx hv hq h hk

end Verif.Oath
