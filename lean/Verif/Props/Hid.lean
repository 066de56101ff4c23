import Verif.Lemmas.HidRecv
/-
C42, C43, C45: messages over CTAPHID.
-/
namespace Verif.Hid
open Verif.Spec.Hid

/-- Frames that arrive one by one, each followed by a call of the main loop. -/
def feed (l : List (Frame × Env)) : List Op := l.flatMap fun x => [.recv x.1, .loop x.2 [] []]

theorem run_append (s : St) (a b : List Op) : run s (a ++ b) = (run s a >>= fun s' => run s' b) := by
  induction a generalizing s with
  | nil => rfl
  | cons op a ih =>
    simp only [List.cons_append, run]
    cases step s op with
    | error u => rfl
    | ok s' => exact ih s'

theorem run_feed_cons {s : St} (hs : s.has = false) (x : Frame × Env) (l : List (Frame × Env)) :
    run s (feed (x :: l)) =
      (front { s with frame := x.1, has := true, arr := [] } false x.2.tick >>= fun p =>
        (if p.2 then finish p.1 x.2 [] else pure p.1) >>= fun s' => run s' (feed l)) := by
  show run s ([.recv x.1, .loop x.2 [] []] ++ feed l) = _
  rw [run_append]
  simp only [run, step, outEvent, hs, Bool.false_eq_true, if_false, ok_bind, loop]
  cases front { s with frame := x.1, has := true, arr := [] } false x.2.tick with
  | error u => rfl
  | ok p =>
    simp only [ok_bind]
    cases (if p.2 then finish p.1 x.2 [] else pure p.1 : C St) <;> rfl

theorem conts_ne_nil {cid : UInt32} {n : Nat} {m : Bytes} (h : m ≠ []) : conts cid n m ≠ [] := by
  rw [conts_cons _ _ h]; simp

/-- The rest of a message, with frames of other channels in between. -/
theorem feed_rest (cid : UInt32) (cmd : Byte) (m : Bytes) (t0 : Nat) (hcid : cid ≠ 0) (hb : cid ≠ broadcast)
    (hm : m.length ≤ 1300) :
    ∀ (l : List (Frame × Env)) (s : St) (j : Nat), Mid s cid cmd m j t0 → 
      (l.map (·.1)).filter (fun f => f.cid == cid) = conts cid j (m.drop (57 + 59 * j)) →
      (∀ x ∈ l, x.2.tick ≤ t0 + 800) →
      ∀ last, l.getLast? = some last → last.1.cid = cid →
      ∃ s1, Full s1 cid cmd m ∧ s1.arr = [] ∧ run s (feed l) = finish s1 last.2 [] ∧
        s1.log = ((((l.map (·.1)).filter (fun f => f.cid != cid)).map refusal).map Ev.sent).reverse ++ s.log
  | [], s, j, h, hl, ht, last, hlast, hcl => by simp at hlast
  | x :: l, s, j, h, hl, ht, last, hlast, hcl => by
    have hx := ht x List.mem_cons_self
    have h' : Mid { s with arr := [] } cid cmd m j t0 :=
      ⟨h.has, h.busy, h.cid, h.cmd, h.total, h.cur, h.lt, h.seq, h.data, h.len, h.expire⟩
    rw [run_feed_cons h.has]
    by_cases hxc : x.1.cid = cid
    · have hne : m.drop (57 + 59 * j) ≠ [] := by
        intro e
        have := congrArg List.length e
        have := h.lt
        simp at *; omega
      rw [List.map_cons, List.filter_cons_of_pos (by simp [hxc]), conts_cons _ _ hne, List.drop_drop] at hl
      have hl1 := (List.cons.inj hl).1
      have hl2 := (List.cons.inj hl).2
      have hno : ((x :: l).map (·.1)).filter (fun f => f.cid != cid) = ((l.map (·.1)).filter fun f => f.cid != cid) := by
        rw [List.map_cons, List.filter_cons_of_neg (by simp [hxc])]
      rcases front_cont (wait := false) h' hcid hb hm hx x.1 hl1 with ⟨hle, s', e, hf, hlog, harr⟩ | ⟨hlt, s', e, hf, hlog, harr⟩
      · rw [e, ok_bind]
        have hz : m.drop (57 + 59 * j + 59) = [] := List.drop_eq_nil_of_le (by omega)
        rw [hz, conts_nil] at hl2
        have hln : l = [] := by
          cases l with
          | nil => rfl
          | cons y l =>
            exfalso
            have hmem : last ∈ y :: l := by
              rw [List.getLast?_cons_cons] at hlast
              exact List.mem_of_getLast? hlast
            have : last.1 ∈ ((y :: l).map (·.1)).filter (fun f => f.cid == cid) := by
              rw [List.mem_filter]
              exact ⟨List.mem_map.2 ⟨last, hmem, rfl⟩, by simp [hcl]⟩
            rw [hl2] at this
            exact absurd this (by simp)
        subst hln
        simp only [List.getLast?_singleton, Option.some.injEq] at hlast
        subst hlast
        refine ⟨s', hf, harr, ?_, ?_⟩
        · simp only [if_true]
          cases finish s' x.2 [] <;> rfl
        · rw [hno]; simpa using hlog
      · rw [e, ok_bind]
        simp only [Bool.false_eq_true, if_false, pure_eq_ok, ok_bind]
        have hlast' : l.getLast? = some last := by
          cases l with
          | nil =>
            exfalso
            have hz : m.drop (57 + 59 * j + 59) ≠ [] := by
              intro e
              have := congrArg List.length e
              simp at this; omega
            exact conts_ne_nil hz hl2.symm
          | cons y l => rw [List.getLast?_cons_cons] at hlast; exact hlast
        obtain ⟨s1, a1, a2, a3, a4⟩ := feed_rest cid cmd m t0 hcid hb hm l s' (j + 1) hf
          (by rw [show 57 + 59 * (j + 1) = 57 + 59 * j + 59 by omega]; exact hl2)
          (fun y hy => ht y (List.mem_cons_of_mem _ hy)) last hlast' hcl
        exact ⟨s1, a1, a2, a3, by rw [a4, hno, hlog]⟩
    · rw [List.map_cons, List.filter_cons_of_neg (by simp [hxc])] at hl
      obtain ⟨s', e, hf, hlog, -⟩ := front_other (wait := false) h' hx x.1 hxc
      rw [e, ok_bind]
      simp only [Bool.false_eq_true, if_false, pure_eq_ok, ok_bind]
      have hlast' : l.getLast? = some last := by
        cases l with
        | nil => simp at hlast; exact absurd (hlast ▸ hcl) hxc
        | cons y l => rw [List.getLast?_cons_cons] at hlast; exact hlast
      obtain ⟨s1, a1, a2, a3, a4⟩ := feed_rest cid cmd m t0 hcid hb hm l s' j hf hl
          (fun y hy => ht y (List.mem_cons_of_mem _ hy)) last hlast' hcl
      refine ⟨s1, a1, a2, a3, ?_⟩
      rw [a4, List.map_cons, List.filter_cons_of_pos (by simp [hxc]), hlog]
      simp

/-- **C42, C43, C45.** The device is idle. On channel `cid` the host sends a message `m` of at most 1300 bytes, that is
its packets in order, within 800 ms. Any packets of other channels may come in between. Then
* the message is handed over exactly once, with exactly its bytes and its command;
* every packet of another channel was refused with its own channel id;
* what is sent after that, on the channel of the message, is the response, framed so that the host reads it back;
* the device is idle again. -/
theorem C45_interleaved_partial (s : St) (hs : Idle s) (cid : UInt32) (cmd : Byte) (m : Bytes) (hcid : cid ≠ 0)
    (hb : cid ≠ broadcast) (hc : cmd &&& 0x80 = 0x80) (hm : m.length ≤ 1300) (hi : cmd = cInit → 8 ≤ m.length)
    (first : Frame × Env) (l : List (Frame × Env)) (last : Frame × Env)
    (hf : first.1.cid = cid) (hlast : (first :: l).getLast? = some last) (hlc : last.1.cid = cid)
    (henc : ((first :: l).map (·.1)).filter (fun f => f.cid == cid) = encode cid cmd m)
    (hwrap : first.2.tick + 800 < 2 ^ 32) (ht : ∀ x ∈ l, x.2.tick ≤ first.2.tick + 800)
    (hr : last.2.resp.length ≤ 1298) :
    ∃ s', run s (feed (first :: l)) = .ok s' ∧ Idle s' ∧
      dispatched s'.log = (cid, cmd, m) :: dispatched s.log ∧
      ∃ out, sent s'.log = sent s.log ++ (((first :: l).map (·.1)).filter (fun f => f.cid != cid)).map refusal ++ out ∧
        match response cid cmd m (if cmd = cMsg then last.2.resp ++ [last.2.sw1, last.2.sw2] else last.2.resp)
            last.2.rnd with
        | some (c, d) => decode out = some (cid, c, d) ∧ ∀ f ∈ out, f.cid = cid
        | none => out = [] := by
  suffices fin : ∃ s1 : St, Full s1 cid cmd m ∧ s1.arr = [] ∧
      s1.log = ((((l.map (·.1)).filter (fun f => f.cid != cid)).map refusal).map Ev.sent).reverse ++ s.log ∧
      run s (feed (first :: l)) = finish s1 last.2 [] by
    obtain ⟨s1, h1, h2, h3, h4⟩ := fin
    obtain ⟨s', e, hidle, hd, hsent⟩ := finish_quiet (e := last.2) h1 h2 hc hm hr hi
    refine ⟨s', h4.trans e, hidle, ?_,
      (match response cid cmd m (if cmd = cMsg then last.2.resp ++ [last.2.sw1, last.2.sw2] else last.2.resp)
          last.2.rnd with
        | some (c, d) => encode cid c d
        | none => []), ?_, ?_⟩
    · rw [hd, h3, dispatched_frames]
    · rw [hsent, h3, sent_frames, List.map_cons, List.filter_cons_of_neg (by simp [hf])]
      rfl
    · have hsmall : ∀ c d, response cid cmd m (if cmd = cMsg then last.2.resp ++ [last.2.sw1, last.2.sw2] else last.2.resp)
            last.2.rnd = some (c, d) → d.length < 65536 := by
        intro c d hres
        have hl2 : (if cmd = cMsg then last.2.resp ++ [last.2.sw1, last.2.sw2] else last.2.resp).length ≤ 1300 := by
          split
          · simp; omega
          · omega
        revert hres
        generalize (if cmd = cMsg then last.2.resp ++ [last.2.sw1, last.2.sw2] else last.2.resp) = rr at hl2 ⊢
        unfold response
        repeat' split
        all_goals intro h; simp only [Option.some.injEq, Prod.mk.injEq, reduceCtorEq] at h
        all_goals try (rw [← h.2]; simp; omega)
        all_goals (rw [← h.2]; simp)
      have hcidf : ∀ n (d : Bytes) k, d.length ≤ n → ∀ f ∈ conts cid k d, f.cid = cid := by
        intro n
        induction n with
        | zero => intro d k h f hf; rw [List.length_eq_zero_iff.1 (Nat.le_zero.1 h), conts_nil] at hf; simp at hf
        | succ n ih =>
          intro d k h f hf
          by_cases hd : d = []
          · rw [hd, conts_nil] at hf; simp at hf
          · rw [conts_cons _ _ hd] at hf
            rcases List.mem_cons.1 hf with rfl | hf
            · rfl
            · have := List.length_pos_iff.2 hd
              exact ih _ _ (by simp; omega) f hf
      split
      · next c d hres =>
        refine ⟨decode_encode cid c d (hsmall c d hres), ?_⟩
        intro f hf
        unfold encode at hf
        rcases List.mem_cons.1 hf with rfl | hf
        · rfl
        · exact hcidf _ _ _ (Nat.le_refl _) f hf
      · rfl
  rw [List.map_cons, List.filter_cons_of_pos (by simp [hf])] at henc
  have e1 := (List.cons.inj henc).1
  have e2 := (List.cons.inj henc).2
  have hs' : Idle { s with arr := [] } := ⟨hs.has, hs.busy, hs.len⟩
  have hrun := run_feed_cons hs.has first l
  rcases front_first (s := { s with arr := [] }) (wait := false) hs.busy hs.len hcid (.inl hb) hc hm hwrap first.1 e1 with
    ⟨hle, s1, e, h1, hlog, harr⟩ | ⟨hlt, s1, e, h1, hlog, harr⟩
  · have hz : m.drop 57 = [] := List.drop_eq_nil_of_le hle
    rw [hz, conts_nil] at e2
    have hln : l = [] := by
      cases l with
      | nil => rfl
      | cons y l =>
        exfalso
        have hmem : last ∈ y :: l := by
          rw [List.getLast?_cons_cons] at hlast
          exact List.mem_of_getLast? hlast
        have : last.1 ∈ ((y :: l).map (·.1)).filter (fun f => f.cid == cid) := by
          rw [List.mem_filter]
          exact ⟨List.mem_map.2 ⟨last, hmem, rfl⟩, by simp [hlc]⟩
        rw [e2] at this
        exact absurd this (by simp)
    subst hln
    simp only [List.getLast?_singleton, Option.some.injEq] at hlast
    subst hlast
    refine ⟨s1, h1, harr, by simpa using hlog, ?_⟩
    rw [hrun, e, ok_bind]
    simp only [if_true]
    cases finish s1 first.2 [] <;> rfl
  · have hlast' : l.getLast? = some last := by
      cases l with
      | nil =>
        exfalso
        have hz : m.drop 57 ≠ [] := by
          intro e
          have := congrArg List.length e
          simp at this; omega
        exact conts_ne_nil hz e2.symm
      | cons y l => rw [List.getLast?_cons_cons] at hlast; exact hlast
    obtain ⟨s2, a1, a2, a3, a4⟩ := feed_rest cid cmd m first.2.tick hcid hb hm l s1 0 h1 e2 ht last hlast' hlc
    refine ⟨s2, a1, a2, by rw [a4, hlog], ?_⟩
    rw [hrun, e, ok_bind]
    simp only [Bool.false_eq_true, if_false, pure_eq_ok, ok_bind]
    exact a3

/-- **C42.** A message of at most 1300 bytes that an idle device receives as its packets, within 800 ms, is handed over
exactly once, with exactly its bytes. -/
theorem C42_dispatched_once (s : St) (hs : Idle s) (cid : UInt32) (cmd : Byte) (m : Bytes) (hcid : cid ≠ 0)
    (hb : cid ≠ broadcast) (hc : cmd &&& 0x80 = 0x80) (hm : m.length ≤ 1300) (hi : cmd = cInit → 8 ≤ m.length)
    (envs : List Env) (hn : envs.length = (encode cid cmd m).length) (t0 : Nat) (h0 : (envs.head?.map (·.tick)) = some t0)
    (hwrap : t0 + 800 < 2 ^ 32) (ht : ∀ e ∈ envs, e.tick ≤ t0 + 800 ∧ e.resp.length ≤ 1298) :
    ∃ s', run s (feed ((encode cid cmd m).zip envs)) = .ok s' ∧ Idle s' ∧
      dispatched s'.log = (cid, cmd, m) :: dispatched s.log := by
  have hall : ∀ f ∈ encode cid cmd m, f.cid = cid := by
    intro f hf
    unfold encode at hf
    rcases List.mem_cons.1 hf with rfl | hf
    · rfl
    · revert hf
      generalize 0 = k
      generalize hd : m.drop 57 = d
      clear hd
      induction hlen : d.length using Nat.strongRecOn generalizing d k with
      | _ n ih =>
        intro hf
        by_cases hd : d = []
        · rw [hd, conts_nil] at hf; simp at hf
        · rw [conts_cons _ _ hd] at hf
          rcases List.mem_cons.1 hf with rfl | hf
          · rfl
          · have := List.length_pos_iff.2 hd
            exact ih (d.drop 59).length (by simp; omega) (k + 1) (d.drop 59) rfl hf
  have hmap : ((encode cid cmd m).zip envs).map (·.1) = encode cid cmd m := by
    rw [List.map_fst_zip]; omega
  have hmemz : ∀ x ∈ (encode cid cmd m).zip envs, x.1.cid = cid ∧ x.2 ∈ envs := by
    intro x hx
    have h1 : x.1 ∈ encode cid cmd m := by rw [← hmap]; exact List.mem_map.2 ⟨x, hx, rfl⟩
    exact ⟨hall _ h1, (List.of_mem_zip hx).2⟩
  have hne : encode cid cmd m ≠ [] := by simp [encode]
  obtain ⟨e0, es, rfl⟩ : ∃ e0 es, envs = e0 :: es := by
    cases envs with
    | nil => simp at h0
    | cons a b => exact ⟨a, b, rfl⟩
  obtain ⟨f0, fs, hfs⟩ : ∃ f0 fs, encode cid cmd m = f0 :: fs := ⟨_, _, rfl⟩
  have hz : (encode cid cmd m).zip (e0 :: es) = (f0, e0) :: fs.zip es := by rw [hfs]; rfl
  simp at h0
  obtain ⟨last, hlast⟩ : ∃ last, ((f0, e0) :: fs.zip es).getLast? = some last :=
    ⟨_, List.getLast?_eq_some_getLast (by simp)⟩
  have hlm : last ∈ (encode cid cmd m).zip (e0 :: es) := by rw [hz]; exact List.mem_of_getLast? hlast
  rw [hz]
  obtain ⟨s', h1, h2, h3, -⟩ := C45_interleaved_partial s hs cid cmd m hcid hb hc hm hi (f0, e0) (fs.zip es) last
    (hmemz (f0, e0) (by rw [hz]; simp)).1 hlast (hmemz last hlm).1
    (by
      rw [← hz, hmap, List.filter_eq_self]
      intro f hf
      simp [hall f hf])
    (by simpa [h0] using hwrap)
    (fun x hx => by
      have := (ht x.2 (hmemz x (by rw [hz]; exact List.mem_cons_of_mem _ hx)).2).1
      rw [h0]; exact this)
    (ht last.2 (hmemz last hlm).2).2
  exact ⟨s', h1, h2, h3⟩

/-- **C42.** The same for the first message of every host: an INIT on the broadcast channel, in one packet. It is
answered with its nonce and a fresh channel id. -/
theorem C42_broadcast_init (s : St) (hs : Idle s) (m : Bytes) (h8 : 8 ≤ m.length) (hm : m.length ≤ 57) (e : Env)
    (hwrap : e.tick + 800 < 2 ^ 32) (hr : e.resp.length ≤ 1298) :
    ∃ s' f, encode broadcast cInit m = [f] ∧ run s (feed [(f, e)]) = .ok s' ∧ Idle s' ∧
      dispatched s'.log = (broadcast, cInit, m) :: dispatched s.log ∧
      ∃ out, sent s'.log = sent s.log ++ out ∧ decode out = some (broadcast, cInit, m.take 8 ++
        [e.rnd.toUInt8, (e.rnd >>> 8).toUInt8, (e.rnd >>> 16).toUInt8, (e.rnd >>> 24).toUInt8] ++ [2, 1, 0, 0, 4]) := by
  have hz : m.drop 57 = [] := List.drop_eq_nil_of_le hm
  rcases front_first (s := { s with arr := [] }) (wait := false) (cid := broadcast) (cmd := cInit) (m := m)
    (tick := e.tick) hs.busy hs.len (by decide) (.inr rfl) (by decide) (by omega) hwrap _ rfl with
    ⟨-, s1, e1, h1, hlog, harr⟩ | ⟨hlt, -⟩
  · obtain ⟨s', e2, hidle, hd, hsent⟩ := finish_quiet (e := e) h1 harr (by decide) (by omega) hr (fun _ => h8)
    refine ⟨s', _, by rw [encode, hz, conts_nil], ?_, hidle, ?_, _, ?_, decode_encode _ _ _ ?_⟩
    · rw [run_feed_cons hs.has, e1, ok_bind]
      simp only [if_true, e2, ok_bind]
      rfl
    · rw [hd, hlog]
    · rw [hsent, hlog]
      rfl
    · simp; omega
  · omega

/-- **C43.** When no frame arrives meanwhile, the frames sent for a response of at most the size of the buffer
reassemble on the host to the channel, the command and the bytes of the response. -/
theorem C43_response_reassembles_partial (s : St) (ha : s.arr = []) (cid : UInt32) (cmd : Byte) (len : Nat)
    (hl : len ≤ s.ch.data.length) (hlen : s.ch.data.length = 1300) (hc : cmd &&& 0x80 = 0x80) :
    ∃ s' out, sendResponse s cid cmd len = .ok s' ∧ sent s'.log = sent s.log ++ out ∧
      decode out = some (cid, cmd, s.ch.data.take len) := by
  have hor : 0x80 ||| cmd = cmd := by
    have : ∀ c : Byte, c &&& 0x80 = 0x80 → 0x80 ||| c = c := by decide +kernel
    exact this cmd hc
  obtain ⟨fr, e⟩ := sendResponse_quiet (s := s) (cid := cid) ha hl hor
  refine ⟨_, _, e, by simp only [sent_frames], decode_encode _ _ _ ?_⟩
  simp; omega

end Verif.Hid
