import Verif.Lemmas.Ndef
/-
C25: the NDEF files behave as byte arrays. C26: a read-only NDEF application does not change.
-/
set_option linter.unusedSimpArgs false
namespace Verif.Ndef
open Verif.Spec.Ndef Cmd

/-! ### Effects of one operation -/

/-- The file the device considers selected. -/
def selOf : Option Ram → Option File
  | some ⟨_, .cc⟩ => some .container
  | some ⟨_, .ndef⟩ => some .message
  | _ => none

theorem exec_of_wp {A : Fault → Prop} {m : M Reply} {f : Flash} {r : Ram}
    {P : Outcome Reply → Flash → Ram → Prop}
    (h : wp A m (fun a => P (.done a)) (fun e => P (.done e)) (P .cut) f r) {env : Env} (henv : env.all A) :
    (∃ f' r', exec m f r env = (⟨f', none⟩, .cut) ∧ P .cut f' r') ∨
    (∃ f' r' a, exec m f r env = (⟨f', some r'⟩, .reply a) ∧ P (.done a) f' r') := by
  have h1 := runCmd_of_wp h henv
  unfold exec
  cases hr : runCmd m f r env with
  | mk f' p =>
    obtain ⟨r', o⟩ := p
    rw [hr] at h1
    cases o with
    | cut => exact .inl ⟨f', r', rfl, h1⟩
    | done a => exact .inr ⟨f', r', a, rfl, h1⟩

/-- The relation between device and log. -/
structure Inv (cc0 msg0 : Nat → Byte) (s : St) (log : List (Op × Out)) : Prop where
  cc : ∃ d, s.flash.cc = some d ∧ Holds d 15 (container cc0 log)
  msg : ∃ d, s.flash.ndef = some d ∧ Holds d 1024 (lastWritten msg0 log)
  ram : ∀ r, s.ram = some r → r.cc.length = 15 ∧ ∀ j, j < 14 → r.cc.getD j 0 = container cc0 log j
  sel : selOf s.ram = selected log

theorem anyAll (env : Env) : env.all anyFault := fun _ => trivial

theorem getD_set_ne {d : Bytes} {b : Byte} {j : Nat} (h : j < 14) : (d.set 14 b).getD j 0 = d.getD j 0 := by
  simp [List.getD_eq_getElem?_getD, List.getElem?_set, show ¬ 14 = j by omega]

theorem getD_set_eq {d : Bytes} {b : Byte} (h : d.length = 15) : (d.set 14 b).getD 14 0 = b := by
  simp [List.getD_eq_getElem?_getD, List.getElem?_set, h]

theorem holds_factory : Holds (resize initMsg 1024) 1024 factoryMessage := by
  refine ⟨by decide +kernel, ?_⟩
  decide +kernel

theorem inv_step {cc0 msg0 : Nat → Byte} {s : St} {log : List (Op × Out)} {op : Op} {env : Env}
    (hi : Inv cc0 msg0 s log) (ha : Allowed [(op, env)]) :
    Inv cc0 msg0 (step s op env).1 ((op, (step s op env).2) :: log) := by
  have ha := ha (op, env) (by simp)
  obtain ⟨⟨dc, hc, hcc⟩, ⟨dm, hm, hmm⟩, hr, hs⟩ := hi
  obtain ⟨f, ro⟩ := s
  simp only at hc hm hr hs
  cases op with
  | boot =>
    have hne : dm ≠ [] := by intro h; rw [h] at hmm; exact absurd hmm.1 (by decide)
    have h := exec_of_wp (P := fun o f' r' => match o with
        | .cut => f' = f
        | .done a => a = .sw SW.ok ∧ f' = f ∧ r'.cc = dc ++ Ram.init.cc.drop 15 ∧ r'.sel = .none)
      (wp_mono (install_keep_eff (r := Ram.init) hc hcc.1 hm hne) (fun _ _ _ h => h)
        (fun _ _ _ h => h.elim) (fun _ _ h => h)) ha
    show Inv cc0 msg0 (exec (install false) f Ram.init env).1
      ((.boot, (exec (install false) f Ram.init env).2) :: log)
    rcases h with ⟨f', r', he, rfl⟩ | ⟨f', r', a, he, rfl, rfl, h3, h4⟩ <;> rw [he]
    · exact ⟨⟨dc, hc, hcc⟩, ⟨dm, hm, hmm⟩, fun r h => by (cases h), rfl⟩
    · refine ⟨⟨dc, hc, hcc⟩, ⟨dm, hm, hmm⟩, fun r h => ?_, ?_⟩
      · cases h
        have : r'.cc = dc := by rw [h3]; simp [Ram.init]
        rw [this]
        exact ⟨hcc.1, fun j hj => hcc.2 j (by omega)⟩
      · obtain ⟨c', s'⟩ := r'
        simp only at h4
        subst h4
        rfl
  | apdu i =>
    cases ro with
    | none =>
      refine ⟨⟨dc, hc, hcc⟩, ⟨dm, hm, ?_⟩, fun r h => by (cases h), ?_⟩
      · simpa [step, lastWritten, Accepted] using hmm
      · simpa [step, selected, Accepted] using hs
    | some r =>
      have h := exec_of_wp (process_eff (A := anyFault) (i := i) (f := f) (r := r)) (anyAll env)
      show Inv cc0 msg0 (exec (process i) f r env).1 ((.apdu i, (exec (process i) f r env).2) :: log)
      obtain ⟨hr1, hr2⟩ := hr r rfl
      rcases h with ⟨f', r', he, h⟩ | ⟨f', r', a, he, h⟩ <;> rw [he] <;> cases h
      case inl.cut => exact ⟨⟨dc, hc, hcc⟩, ⟨dm, hm, by simpa [lastWritten, Accepted] using hmm⟩,
        fun r h => by (cases h), by simp [selOf, selected]⟩
      case inr.refuse sw h _ =>
        have h : ¬ sw = 0x9000 := h
        exact ⟨⟨dc, hc, hcc⟩, ⟨dm, hm, by simpa [lastWritten, Accepted, h] using hmm⟩,
          fun r h => by (cases h; exact ⟨hr1, hr2⟩), by simpa [selected, Accepted, h] using hs⟩
      case inr.app h1 h2 =>
        exact ⟨⟨dc, hc, hcc⟩, ⟨dm, hm, by simpa [lastWritten, h1] using hmm⟩,
          fun r h => by (cases h; exact ⟨hr1, hr2⟩), by simpa [selected, h2] using hs⟩
      case inr.selCc h1 h2 h3 =>
        exact ⟨⟨dc, hc, hcc⟩, ⟨dm, hm, by simpa [lastWritten, h1] using hmm⟩,
          fun r h => by (cases h; exact ⟨hr1, hr2⟩), by simp [selected, selOf, Accepted, h1, h2, h3]⟩
      case inr.selNdef h1 h2 h3 =>
        exact ⟨⟨dc, hc, hcc⟩, ⟨dm, hm, by simpa [lastWritten, h1] using hmm⟩,
          fun r h => by (cases h; exact ⟨hr1, hr2⟩), by simp [selected, selOf, Accepted, h1, h2, h3]⟩
      case inr.readCc h1 _ _ _ _ =>
        exact ⟨⟨dc, hc, hcc⟩, ⟨dm, hm, by simpa [lastWritten, h1] using hmm⟩,
          fun r h => by (cases h; exact ⟨hr1, hr2⟩), by simpa [selected, h1] using hs⟩
      case inr.readNdef h1 _ _ _ _ _ =>
        exact ⟨⟨dc, hc, hcc⟩, ⟨dm, hm, by simpa [lastWritten, h1] using hmm⟩,
          fun r h => by (cases h; exact ⟨hr1, hr2⟩), by simpa [selected, h1] using hs⟩
      case inr.upd h1 _ _ hl =>
        refine ⟨⟨dc, hc, hcc⟩, ⟨_, rfl, ?_⟩,
          fun r h => by (cases h; exact ⟨hr1, hr2⟩), by simpa [selected, h1] using hs⟩
        rw [hm]
        refine holds_congr (holds_patch hmm hl) fun j _ => ?_
        have : offset i.c = start i := by unfold offset start; omega
        rw [this]
        simp [lastWritten, h1, Accepted]
  | toggle c =>
    cases ro with
    | none =>
      refine ⟨⟨dc, hc, ?_⟩, ⟨dm, hm, hmm⟩, fun r h => by (cases h), ?_⟩
      · simpa [step, container, Accepted] using hcc
      · simpa [step, selected, Accepted] using hs
    | some r =>
      have h := exec_of_wp (toggle_eff (A := anyFault) (c := c) (f := f) (r := r)) (anyAll env)
      show Inv cc0 msg0 (exec (toggleReadOnly c) f r env).1
        ((.toggle c, (exec (toggleReadOnly c) f r env).2) :: log)
      obtain ⟨hr1, hr2⟩ := hr r rfl
      rcases h with ⟨f', r', he, h⟩ | ⟨f', r', a, he, h⟩ <;> rw [he] <;> cases h
      case inl.cut => exact ⟨⟨dc, hc, by simpa [container, Accepted] using hcc⟩, ⟨dm, hm, hmm⟩,
        fun r h => by (cases h), by simp [selOf, selected]⟩
      case inr.refuse sw h _ =>
        have h : ¬ sw = 0x9000 := h
        have e : container cc0 ((Op.toggle c, Out.reply (Reply.sw sw)) :: log) = container cc0 log := by
          funext j; simp [container, Accepted, h]
        exact ⟨⟨dc, hc, by rw [e]; exact hcc⟩, ⟨dm, hm, hmm⟩,
          fun r h => by (cases h; rw [e]; exact ⟨hr1, hr2⟩), by simpa [selected] using hs⟩
      case inr.io b h =>
        have e : container cc0 ((Op.toggle c, Out.reply ioErr) :: log) = container cc0 log := by
          funext j; simp [container, Accepted, ioErr, SW.unable]
        refine ⟨⟨dc, hc, by rw [e]; exact hcc⟩, ⟨dm, hm, hmm⟩, fun r h => ?_, ?_⟩
        · cases h
          rw [e]
          exact ⟨by simpa using hr1, fun j hj => by rw [getD_set_ne hj]; exact hr2 j hj⟩
        · obtain ⟨c', s'⟩ := r
          simp only [selected]
          rw [← hs]
          cases s' <;> rfl
      case inr.done b hb =>
        have e : ∀ j, container cc0 ((Op.toggle c, Out.reply (Reply.sw SW.ok)) :: log) j =
            if j = 14 then b else container cc0 log j := by
          intro j
          by_cases hj : j = 14
          · rcases hb with ⟨h1, h2⟩ | ⟨h1, h2⟩ <;> simp [container, Accepted, hj, h1, h2]
          · simp [container, Accepted, hj]
        refine ⟨⟨_, rfl, by simpa using hr1, fun j hj => ?_⟩, ⟨dm, hm, hmm⟩, fun r h => ?_, ?_⟩
        · rw [e]
          by_cases h14 : j = 14
          · rw [if_pos h14, h14, getD_set_eq hr1]
          · rw [if_neg h14, getD_set_ne (by omega)]; exact hr2 j (by omega)
        · cases h
          refine ⟨by simpa using hr1, fun j hj => ?_⟩
          rw [e, if_neg (by omega), getD_set_ne hj]; exact hr2 j hj
        · obtain ⟨c', s'⟩ := r
          simp only [selected]
          rw [if_neg (by simp), ← hs]
          cases s' <;> rfl
  | reset =>
    cases ro with
    | none =>
      refine ⟨⟨dc, hc, ?_⟩, ⟨dm, hm, ?_⟩, fun r h => by (cases h), ?_⟩
      · simpa [step, container, Accepted] using hcc
      · simpa [step, lastWritten, Accepted] using hmm
      · simp [step, selected, selOf]
    | some r =>
      have h := exec_of_wp (P := fun o f' r' => match o with
          | .cut => False
          | .done a => a = .sw SW.ok ∧ f' = ⟨some defaultCc, some (resize initMsg 1024)⟩ ∧
            r' = ⟨defaultCc, .none⟩)
        (wp_mono (install_reset_eff (f := f) (r := r)) (fun _ _ _ h => h)
          (fun _ _ _ h => h.elim) (fun _ _ h => h)) ha
      show Inv cc0 msg0 (exec (install true) f r env).1 ((.reset, (exec (install true) f r env).2) :: log)
      rcases h with ⟨f', r', he, h⟩ | ⟨f', r', a, he, rfl, rfl, rfl⟩
      · exact h.elim
      · rw [he]
        have e : container cc0 ((Op.reset, Out.reply (Reply.sw SW.ok)) :: log) = fun j => defaultCc.getD j 0 := by
          funext j; simp [container, Accepted]
        have e' : lastWritten msg0 ((Op.reset, Out.reply (Reply.sw SW.ok)) :: log) = factoryMessage := by
          funext j; simp [lastWritten, Accepted]
        refine ⟨⟨_, rfl, ?_⟩, ⟨_, rfl, ?_⟩, fun r h => ?_, rfl⟩
        · rw [e]; exact ⟨rfl, fun _ _ => rfl⟩
        · rw [e']; exact holds_factory
        · cases h; rw [e]; exact ⟨rfl, fun _ _ => rfl⟩
  | deselect =>
    cases ro with
    | none => exact ⟨⟨dc, hc, hcc⟩, ⟨dm, hm, hmm⟩, fun r h => by (cases h), rfl⟩
    | some r =>
      exact ⟨⟨dc, hc, hcc⟩, ⟨dm, hm, hmm⟩, fun r' h => by (cases h; exact hr r rfl), rfl⟩

theorem inv_run {cc0 msg0 : Nat → Byte} {h : List (Op × Env)} : ∀ {s : St} {log : List (Op × Out)},
    Inv cc0 msg0 s log → Allowed h → Inv cc0 msg0 (run s log h).1 (run s log h).2 := by
  induction h with
  | nil => intro s log hi _; exact hi
  | cons e h ih =>
    intro s log hi ha
    obtain ⟨op, env⟩ := e
    exact ih (inv_step hi fun x hx => ha x (by simp at hx; simp [hx])) fun x hx => ha x (by simp [hx])

theorem inv_init {cc0 msg0 : Nat → Byte} {s : St} (h : Installed s cc0 msg0) : Inv cc0 msg0 s [] := by
  refine ⟨⟨_, h.ccFile, holds_range _ _⟩, ⟨_, h.msgFile, holds_range _ _⟩, fun r hr => ?_, ?_⟩
  · obtain ⟨h1, _⟩ := h.ram r hr
    rw [h1]
    exact ⟨by simp, fun j hj => (holds_range 15 cc0).2 j (by omega)⟩
  · cases hr : s.ram with
    | none => rfl
    | some r =>
      obtain ⟨_, h2⟩ := h.ram r hr
      obtain ⟨c, s'⟩ := r
      simp only at h2
      subst h2
      rfl

/-! ### A concrete device -/

/-- A freshly installed device. -/
def exS : St := ⟨⟨some defaultCc, some (resize initMsg 1024)⟩, some ⟨defaultCc, .none⟩⟩
/-- SELECT of the message. -/
def exSel : In := ⟨⟨0, 0xA4, 0, 0x0C, [0x00, 0x01], 0⟩, fun _ => 0⟩
/-- UPDATE BINARY of three bytes at 1021. -/
def exUpd : In := ⟨⟨0, 0xD6, 3, 0xFD, [7, 8, 9], 0⟩, fun _ => 0⟩
/-- READ BINARY of four bytes at 1020. -/
def exRead (x : Byte) : In := ⟨⟨0, 0xB0, 3, 0xFC, [], 4⟩, fun _ => x⟩
/-- A history that selects, updates and survives a power cycle. -/
def exH : List (Op × Env) :=
  [(.apdu exSel, Env.good), (.apdu exUpd, Env.good), (.boot, Env.good), (.apdu exSel, Env.good)]
/-- TOGGLE NDEF READ ONLY with P1 = 1. -/
def exTog : Apdu.Capdu := ⟨0, 0x08, 1, 0, [], 0⟩
/-- Power is cut at the second file-system call. -/
def exCut2 : Env := fun n => if n = 1 then .cut else .ok

theorem exS_installed : Installed exS (fun j => defaultCc.getD j 0) factoryMessage := by
  refine ⟨rfl, ?_, ?_⟩
  · decide +kernel
  · intro r h; cases h; exact ⟨rfl, rfl⟩

theorem exH_allowed : Allowed exH := by
  intro e he
  simp only [exH, List.mem_cons, List.not_mem_nil, or_false] at he
  rcases he with rfl | rfl | rfl | rfl <;> first | trivial | (intro n h; cases h)

/-! ### C25 -/

/-- C25: after any history a successful READ BINARY returns exactly the requested number of bytes, each
the one last written at its position in the file that the host selected. -/
theorem C25_reads_last_written (s : St) (cc0 msg0 : Nat → Byte) (h : List (Op × Env)) (i : In) (env : Env)
    (d : Bytes) (hs : Installed s cc0 msg0) (ha : Allowed h) (hi : i.c.ins = 0xB0)
    (ho : (step (run s [] h).1 (.apdu i) env).2 = .reply (.resp d 0x9000)) :
    (selected (run s [] h).2 = some .message ∧ start i + i.c.le ≤ 1024 ∧
      d = (List.range i.c.le).map fun k => lastWritten msg0 (run s [] h).2 (start i + k)) ∨
    (selected (run s [] h).2 = some .container ∧ start i + i.c.le ≤ 15 ∧
      d = (List.range i.c.le).map fun k => container cc0 (run s [] h).2 (start i + k)) := by
  obtain ⟨⟨dc, hc, hcc⟩, ⟨dm, hm, hmm⟩, _, hsel⟩ := inv_run (inv_init hs) ha
  generalize (run s [] h).2 = log at *
  generalize (run s [] h).1 = t at *
  obtain ⟨f, ro⟩ := t
  cases ro with
  | none => cases ho
  | some r =>
    have hst : offset i.c = start i := by unfold offset start; omega
    have he := exec_of_wp (process_eff (A := anyFault) (i := i) (f := f) (r := r)) (anyAll env)
    replace ho : (exec (process i) f r env).2 = .reply (.resp d 0x9000) := ho
    rcases he with ⟨f', r', he, h⟩ | ⟨f', r', a, he, h⟩ <;> rw [he] at ho
    · cases ho
    · simp only [Out.reply.injEq] at ho
      subst ho
      cases h
      case refuse h => exact absurd rfl h
      case app h _ => rw [hi] at h; exact absurd h (by decide)
      case selCc h _ _ => rw [hi] at h; exact absurd h (by decide)
      case selNdef h _ _ => rw [hi] at h; exact absurd h (by decide)
      case upd h _ _ _ => rw [hi] at h; exact absurd h (by decide)
      case readCc _ h2 h3 d' h4 =>
        right
        rw [hc] at h4; cases h4
        obtain ⟨c', s'⟩ := r
        simp only at h2
        subst h2
        exact ⟨hsel.symm, by omega, by rw [readInto_eq hcc h3, hst]⟩
      case readNdef _ h2 _ h3 d' h4 =>
        left
        rw [hm] at h4; cases h4
        obtain ⟨c', s'⟩ := r
        simp only at h2
        subst h2
        exact ⟨hsel.symm, by omega, by rw [readInto_eq hmm h3, hst]⟩

example : (step (run exS [] exH).1 (.apdu (exRead 5)) Env.good).2 = .reply (.resp [0, 7, 8, 9] 0x9000) := by
  decide +kernel

example := C25_reads_last_written exS _ _ exH (exRead 5) Env.good [0, 7, 8, 9] exS_installed exH_allowed rfl
  (by decide +kernel)

/-- C25: after any history the message file has exactly 1024 bytes, those last written; no update touches
anything else. -/
theorem C25_message_is_last_written (s : St) (cc0 msg0 : Nat → Byte) (h : List (Op × Env))
    (hs : Installed s cc0 msg0) (ha : Allowed h) :
    (run s [] h).1.flash =
      ⟨some ((List.range 15).map (container cc0 (run s [] h).2)),
       some ((List.range 1024).map (lastWritten msg0 (run s [] h).2))⟩ := by
  obtain ⟨⟨dc, hc, hcc⟩, ⟨dm, hm, hmm⟩, _, _⟩ := inv_run (inv_init hs) ha
  rw [← eq_of_holds hcc, ← eq_of_holds hmm, ← hc, ← hm]

example := C25_message_is_last_written exS _ _ exH exS_installed exH_allowed

/-- C25 does not survive a power cut inside RESET NDEF: the message file may be left with 19 bytes, the next
boot does not repair it, and reads behind byte 19 return whatever the response buffer held before. -/
theorem C25_reset_cut_reads_stale : Installed exS (fun j => defaultCc.getD j 0) factoryMessage ∧
    ∀ x : Byte, (step (run exS [] [(.reset, exCut2), (.boot, Env.good), (.apdu exSel, Env.good)]).1
      (.apdu (exRead x)) Env.good).2 = .reply (.resp [x, x, x, x] 0x9000) :=
  ⟨exS_installed, by decide +kernel⟩

/-- C25: a command that is not answered with 9000 changes neither file, under any faults. -/
theorem C25_refused_changes_nothing (s : St) (i : In) (env : Env)
    (h : ¬ Accepted (step s (.apdu i) env).2) : (step s (.apdu i) env).1.flash = s.flash := by
  obtain ⟨f, ro⟩ := s
  cases ro with
  | none => rfl
  | some r =>
    have he := exec_of_wp (process_eff (A := anyFault) (i := i) (f := f) (r := r)) (anyAll env)
    replace h : ¬ Accepted (exec (process i) f r env).2 := h
    show (exec (process i) f r env).1.flash = f
    rcases he with ⟨f', r', he, hc⟩ | ⟨f', r', a, he, hc⟩ <;> rw [he] at h ⊢ <;> cases hc <;> try rfl
    exact absurd rfl h

example := C25_refused_changes_nothing exS exUpd Env.good (by decide +kernel)

/-- C25: without faults every read and every update that stays within the selected file and is permitted
by the capability container is accepted. -/
theorem C25_in_range_accepted (s : St) (cc0 msg0 : Nat → Byte) (h : List (Op × Env)) (i : In) (env : Env)
    (hs : Installed s cc0 msg0) (ha : Allowed h) (hn : env.all noFault)
    (hf : (i.c.ins = 0xB0 ∧ selected (run s [] h).2 = some .container ∧ start i + i.c.le ≤ 15) ∨
      (i.c.ins = 0xB0 ∧ selected (run s [] h).2 = some .message ∧ container cc0 (run s [] h).2 13 = 0 ∧
        start i + i.c.le ≤ 1024) ∨
      (i.c.ins = 0xD6 ∧ selected (run s [] h).2 = some .message ∧
        (∃ r, (run s [] h).1.ram = some r ∧ ccW r = 0) ∧ start i + i.c.data.length ≤ 1024)) :
    ∃ d, (step (run s [] h).1 (.apdu i) env).2 = .reply (.resp d 0x9000) := by
  obtain ⟨⟨dc, hc, hcc⟩, ⟨dm, hm, hmm⟩, hr, hsel⟩ := inv_run (inv_init hs) ha
  generalize (run s [] h).2 = log at *
  generalize (run s [] h).1 = t at *
  obtain ⟨f, ro⟩ := t
  cases ro with
  | none =>
    have : selected log = none := hsel.symm
    rcases hf with ⟨_, h, _⟩ | ⟨_, h, _⟩ | ⟨_, h, _⟩ <;> (rw [this] at h; cases h)
  | some r =>
    have hst : offset i.c = start i := by unfold offset start; omega
    have hfit : Fits i r := by
      obtain ⟨c', s'⟩ := r
      rcases hf with ⟨h1, h2, h3⟩ | ⟨h1, h2, h3, h4⟩ | ⟨h1, h2, ⟨r, h3, h3'⟩, h4⟩ <;> rw [h2] at hsel <;>
        cases s' <;> cases hsel
      · exact .inr (.inr (.inl ⟨h1, rfl, by omega⟩))
      · exact .inr (.inr (.inr (.inl ⟨h1, rfl, by rw [← h3]; exact (hr _ rfl).2 13 (by omega), by omega⟩)))
      · simp only [Option.some.injEq] at h3
        subst h3
        exact .inr (.inr (.inr (.inr ⟨h1, rfl, h3', by unfold Apdu.Capdu.lc; omega⟩)))
    have he := exec_of_wp (process_eff (A := noFault) (i := i) (f := f) (r := r)) hn
    show ∃ d, (exec (process i) f r env).2 = .reply (.resp d 0x9000)
    rcases he with ⟨f', r', he, h⟩ | ⟨f', r', a, he, h⟩ <;> rw [he] <;> cases h <;> try exact ⟨_, rfl⟩
    case inl.cut h => cases h
    case inr.refuse h =>
      rcases h with h | h | h | h
      · exact absurd hfit h
      · cases h
      · rw [hc] at h; cases h
      · rw [hm] at h; cases h

theorem exH_sel : selected (run exS [] exH).2 = some .message := by decide +kernel
theorem exH_ram : (run exS [] exH).1.ram = some ⟨defaultCc, .ndef⟩ := by decide +kernel

example := C25_in_range_accepted exS _ _ exH exUpd Env.good exS_installed exH_allowed (fun _ => rfl)
  (Or.inr (Or.inr (by
    refine ⟨rfl, exH_sel, ⟨_, exH_ram, rfl⟩, ?_⟩
    decide +kernel)))

/-! ### C26 -/

/-- The application is set read-only: in the capability container and in what the admin applet reports
(`ndef_get_read_only`). -/
structure ReadOnly (s : St) : Prop where
  file : ∃ d, s.flash.cc = some d ∧ d.length = 15 ∧ d.getD 14 0 = 0xFF
  msg : ∃ d, s.flash.ndef = some d ∧ d ≠ []
  ram : ∀ r, s.ram = some r → getReadOnly r = true

theorem readOnly_step {s : St} {op : Op} {env : Env} (h : ReadOnly s)
    (ho : (∃ i, op = .apdu i) ∨ op = .deselect ∨ (op = .boot ∧ env.all cutsOnly)) :
    ReadOnly (step s op env).1 ∧ (step s op env).1.flash = s.flash := by
  obtain ⟨⟨dc, hc, hl, hd⟩, ⟨dm, hm, hne⟩, hr⟩ := h
  obtain ⟨f, ro⟩ := s
  simp only at hc hm hr
  rcases ho with ⟨i, rfl⟩ | rfl | ⟨rfl, ha⟩
  · cases ro with
    | none => exact ⟨⟨⟨dc, hc, hl, hd⟩, ⟨dm, hm, hne⟩, fun r h => by cases h⟩, rfl⟩
    | some r =>
      have h := exec_of_wp (process_eff (A := anyFault) (i := i) (f := f) (r := r)) (anyAll env)
      show ReadOnly (exec (process i) f r env).1 ∧ (exec (process i) f r env).1.flash = f
      have hw := hr r rfl
      rcases h with ⟨f', r', he, h⟩ | ⟨f', r', a, he, h⟩ <;> rw [he] <;> cases h
      case inl.cut => exact ⟨⟨⟨dc, hc, hl, hd⟩, ⟨dm, hm, hne⟩, fun r h => by cases h⟩, rfl⟩
      case inr.upd _ _ h _ =>
        unfold getReadOnly at hw
        rw [h] at hw
        exact absurd hw (by decide)
      all_goals exact ⟨⟨⟨dc, hc, hl, hd⟩, ⟨dm, hm, hne⟩, fun r h => by (cases h; exact hw)⟩, rfl⟩
  · cases ro with
    | none => exact ⟨⟨⟨dc, hc, hl, hd⟩, ⟨dm, hm, hne⟩, fun r h => by cases h⟩, rfl⟩
    | some r => exact ⟨⟨⟨dc, hc, hl, hd⟩, ⟨dm, hm, hne⟩, fun r' h => by (cases h; exact hr r rfl)⟩, rfl⟩
  · have h := exec_of_wp (P := fun o f' r' => match o with
        | .cut => f' = f
        | .done a => a = .sw SW.ok ∧ f' = f ∧ r'.cc = dc ++ Ram.init.cc.drop 15 ∧ r'.sel = .none)
      (wp_mono (install_keep_eff (r := Ram.init) hc hl hm hne) (fun _ _ _ h => h)
        (fun _ _ _ h => h.elim) (fun _ _ h => h)) ha
    show ReadOnly (exec (install false) f Ram.init env).1 ∧ (exec (install false) f Ram.init env).1.flash = f
    rcases h with ⟨f', r', he, rfl⟩ | ⟨f', r', a, he, rfl, rfl, h3, h4⟩ <;> rw [he]
    · exact ⟨⟨⟨dc, hc, hl, hd⟩, ⟨dm, hm, hne⟩, fun r h => by cases h⟩, rfl⟩
    · refine ⟨⟨⟨dc, hc, hl, hd⟩, ⟨dm, hm, hne⟩, fun r h => ?_⟩, rfl⟩
      cases h
      have : r'.cc = dc := by rw [h3]; simp [Ram.init]
      unfold getReadOnly ccW
      rw [this, hd]; rfl

/-- C26: while the application is read-only, no history of NDEF commands, applet switches and power
cycles changes the capability container or the message, whatever errors and power cuts happen during the
commands. -/
theorem C26_read_only_unchanged (s : St) (h : List (Op × Env)) (hs : ReadOnly s)
    (hops : ∀ e ∈ h, (∃ i, e.1 = .apdu i) ∨ e.1 = .deselect ∨ (e.1 = .boot ∧ e.2.all cutsOnly))
    (log : List (Op × Out)) : (run s log h).1.flash = s.flash ∧ ReadOnly (run s log h).1 := by
  induction h generalizing s log with
  | nil => exact ⟨rfl, hs⟩
  | cons e h ih =>
    obtain ⟨op, env⟩ := e
    obtain ⟨h1, h2⟩ := readOnly_step (op := op) (env := env) hs (hops (op, env) (by simp))
    have := ih (step s op env).1 h1 (fun x hx => hops x (by simp [hx])) ((op, (step s op env).2) :: log)
    exact ⟨this.1.trans h2, this.2⟩

example : ((run (step exS (.toggle exTog) Env.good).1 [] exH).2.map (·.2)) =
    [.reply (.sw 0x9000), .reply (.sw 0x9000), .reply (.sw 0x6982), .reply (.sw 0x9000)] := by decide +kernel

/-- C26: a successful TOGGLE NDEF READ ONLY with P1 = 1 makes an installed application read-only. -/
theorem C26_toggle_sets_read_only (s : St) (cc0 msg0 : Nat → Byte) (h : List (Op × Env)) (c : Apdu.Capdu)
    (env : Env) (hs : Installed s cc0 msg0) (ha : Allowed h) (hp : c.p1 = 1)
    (ho : Accepted (step (run s [] h).1 (.toggle c) env).2) :
    ReadOnly (step (run s [] h).1 (.toggle c) env).1 := by
  obtain ⟨⟨dc, hc, hcc⟩, ⟨dm, hm, hmm⟩, hr, hsel⟩ := inv_run (inv_init hs) ha
  generalize (run s [] h).2 = log at *
  generalize (run s [] h).1 = t at *
  obtain ⟨f, ro⟩ := t
  have hne : dm ≠ [] := by intro h; rw [h] at hmm; exact absurd hmm.1 (by decide)
  cases ro with
  | none => exact ho.elim
  | some r =>
    have he := exec_of_wp (toggle_eff (A := anyFault) (c := c) (f := f) (r := r)) (anyAll env)
    replace ho : Accepted (exec (toggleReadOnly c) f r env).2 := ho
    show ReadOnly (exec (toggleReadOnly c) f r env).1
    obtain ⟨hr1, _⟩ := hr r rfl
    rcases he with ⟨f', r', he, h⟩ | ⟨f', r', a, he, h⟩ <;> rw [he] at ho ⊢ <;> cases h
    case inl.cut => exact ho.elim
    case inr.refuse h _ => exact absurd ho h
    case inr.io => exact absurd (show (0x6900 : Nat) = 0x9000 from ho) (by decide)
    case inr.done b hb =>
      rcases hb with ⟨h1, _⟩ | ⟨_, rfl⟩
      · rw [hp] at h1; exact absurd h1 (by decide)
      · exact ⟨⟨_, rfl, by simpa using hr1, getD_set_eq hr1⟩, ⟨dm, hm, hne⟩, fun r' h => by
          cases h; unfold getReadOnly ccW; rw [getD_set_eq hr1]; rfl⟩

theorem exRo : ReadOnly (step exS (.toggle exTog) Env.good).1 :=
  C26_toggle_sets_read_only exS _ _ [] exTog Env.good exS_installed (fun _ h => by cases h) rfl (by decide +kernel)

example := C26_read_only_unchanged _ exH exRo (by
  intro e he
  simp only [exH, List.mem_cons, List.not_mem_nil, or_false] at he
  rcases he with rfl | rfl | rfl | rfl
  · exact .inl ⟨_, rfl⟩
  · exact .inl ⟨_, rfl⟩
  · exact .inr (.inr ⟨rfl, fun n h => by cases h⟩)
  · exact .inl ⟨_, rfl⟩) []

/-- C26 needs boots without read errors: when the capability container cannot be read at boot, the device
runs with an all-zero one and accepts updates although the application is read-only. -/
theorem C26_boot_read_error_unlocks :
    ReadOnly (step exS (.toggle exTog) Env.good).1 ∧
    (step (run (step exS (.toggle exTog) Env.good).1 []
      [(.boot, fun n => if n = 2 then .fail else .ok), (.apdu exSel, Env.good)]).1
      (.apdu exUpd) Env.good).2 = .reply (.sw 0x9000) := ⟨exRo, by decide +kernel⟩

end Verif.Ndef
