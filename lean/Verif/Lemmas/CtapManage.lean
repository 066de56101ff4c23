import Verif.Spec.CtapManage
import Verif.Lemmas.CtapReg
/-
The command credentialManagement when the file system works: its answer, case by case.
-/
namespace Verif.Ctap
open Cmd Verif.Spec.Manage

variable {x : Ext} {i : In}

/-- The search for a credential by its id. -/
theorem foldUp_is (cid : Bytes) (l : List Dc) (j : Nat) :
    match l.find? (is cid) with
    | none => (foldUp (cidBody cid) l j none).1 = none
    | some c => ∃ p, foldUp (cidBody cid) l j none = (some c, j + p) ∧ p < l.length ∧ c.deleted = false ∧ c.cid = cid ∧ l[p]? = some c ∧
        ∀ g, change cid g l = l.set p (g c) := by
  induction l generalizing j with
  | nil => rfl
  | cons b l ih =>
    rw [List.find?_cons]
    unfold foldUp cidBody
    have ih := ih (j + 1)
    by_cases h : is cid b = true
    · rw [h]
      have h' := h
      unfold is at h
      simp only [Bool.and_eq_true, Bool.not_eq_true', beq_iff_eq] at h
      rw [if_neg (by simp [h.1]), if_pos (by simp [h.2])]
      refine ⟨0, rfl, by simp, h.1, h.2, rfl, fun g => ?_⟩
      unfold change
      rw [if_pos h']
      rfl
    · have hf : is cid b = false := by simpa using h
      rw [hf]
      have hz : (if b.deleted = true then ((none : Option Dc), false) else if (b.cid == cid) = true then (some b, true) else (none, false)) = (none, false) := by
        unfold is at hf
        cases hd : b.deleted with
        | true => rfl
        | false =>
          rw [hd] at hf
          have hf : (b.cid == cid) = false := hf
          rw [hf]
          rfl
      rw [hz]
      revert ih
      dsimp only
      cases l.find? (is cid) with
      | none => exact id
      | some c =>
        rintro ⟨p, h1, h2, h3, h4, h5, h6⟩
        refine ⟨p + 1, ?_, by simpa using h2, h3, h4, by simpa using h5, fun g => ?_⟩
        · exact h1.trans (by rw [Nat.add_assoc, Nat.add_comm 1 p])
        · conv => lhs; unfold change
          rw [if_neg h, h6]
          rfl

theorem live_set {l : List Dc} {p : Nat} {c c' : Dc} (h : l[p]? = some c) (hc : c.deleted = false) :
    live (l.set p c') + 1 = live l + (if c'.deleted then 0 else 1) := by
  induction l generalizing p with
  | nil => cases h
  | cons b l ih =>
    cases p with
    | zero =>
      cases h
      unfold live
      simp only [List.set_cons_zero, List.countP_cons, hc]
      cases c'.deleted <;> simp <;> omega
    | succ p =>
      have := ih (p := p) (by simpa using h)
      unfold live at this ⊢
      simp only [List.set_cons_succ, List.countP_cons]
      omega

section
variable {f : Flash} {r : Ram} {E : Err → Flash → Ram → Prop} {X : Flash → Ram → Prop}

theorem manage_auth {q : CmReq} {a : Attr} {Q : Byte → Flash → Ram → Prop} (ha : rdAttr f = some a)
    (h3 : 299 < q.params.length → ∀ r', E (.code 0x03) f r')
    (h34 : ¬ 299 < q.params.length → r.consec = 0 → ∀ r', E (.code 0x34) f r')
    (h33 : ¬ 299 < q.params.length → ¬ r.consec = 0 →
      ¬ (r.tok.inUse = true ∧ Authenticates x r.tok.token (q.sub :: q.params) q.pinAuth q.proto ∧ r.tok.perms &&& 0x04 ≠ 0) → ∀ r', E (.code 0x33) f r')
    (h1 : ¬ 299 < q.params.length → ¬ r.consec = 0 → r.tok.inUse = true → Authenticates x r.tok.token (q.sub :: q.params) q.pinAuth q.proto →
      r.tok.perms &&& 0x04 ≠ 0 → ∀ r', r'.tok.rp = r.tok.rp → Q a.numbers f r') :
    wp allOk (cmAuth x i q) Q E X f r := by
  unfold cmAuth
  apply wp_bind
  apply wp_mod
  apply wp_bind
  refine wp_ok_rdOr ha ?_
  apply wp_bind
  apply wp_failIf
  · intro h
    have h : q.params.length + 1 > 300 := by simpa using h
    exact h3 (by omega) _
  intro h
  have n3 : ¬ 299 < q.params.length := by
    have h : ¬ q.params.length + 1 > 300 := by simpa using h
    omega
  apply wp_bind
  apply wp_get
  apply wp_bind
  apply wp_failIf
  · intro h
    have h : (r.consec == 0) = true := h
    exact h34 n3 (by simpa using h) _
  intro h
  have h : (r.consec == 0) = false := h
  have n34 : ¬ r.consec = 0 := by simpa using h
  have h33 := h33 n3 n34
  have h1 := h1 n3 n34
  apply wp_bind
  apply ok_verifyToken
  · intro hu
    have hu : r.tok.inUse = false := hu
    apply wp_bind
    apply wp_failIf
    · intro _
      refine h33 (fun h => ?_) _
      rw [hu] at h
      cases h.1
    · intro h; cases h
  · intro hu
    have hu : r.tok.inUse = true := hu
    apply wp_bind
    apply wp_failIf
    · intro h
      have h : (!verifyMac x r.tok.token (q.sub :: q.params) q.pinAuth q.proto) = true := h
      refine h33 (fun h' => ?_) _
      rw [mac_iff.mpr h'.2.1] at h
      cases h
    intro hmac
    have hmac : verifyMac x r.tok.token (q.sub :: q.params) q.pinAuth q.proto = true := by
      have hmac : (!verifyMac x r.tok.token (q.sub :: q.params) q.pinAuth q.proto) = false := hmac
      simpa using hmac
    apply wp_bind
    apply wp_failIf
    · intro h
      have h : (!r.tok.has permCm) = true := h
      refine h33 (fun h' => ?_) _
      unfold Tok.has at h
      simp at h
      exact h'.2.2 h
    intro hperm
    have hperm : (!r.tok.has permCm) = false := hperm
    apply wp_pure
    refine h1 hu (mac_iff.mp hmac) ?_ _ rfl
    unfold Tok.has at hperm
    simpa using hperm

theorem manage_find {q : CmReq} {l : List Dc} {n : Byte} {Q : Dc × Nat → Flash → Ram → Prop} (hr : rdRecs f = some l) (hn : n.toNat = live l)
    (h33 : (∃ h, r.tok.rp = some h ∧ h ≠ Cid.rp q.cid) → E (.code 0x33) f r)
    (h2E : (∀ h, r.tok.rp = some h → h = Cid.rp q.cid) → l.find? (is q.cid) = none → ∀ r', E (.code 0x2E) f r')
    (h1 : (∀ h, r.tok.rp = some h → h = Cid.rp q.cid) → ∀ c p r', l.find? (is q.cid) = some c → p < l.length → c.deleted = false → c.cid = q.cid →
      l[p]? = some c → (∀ g, change q.cid g l = l.set p (g c)) → n ≠ 0 → Q (c, p) f r') :
    wp allOk (cmFind q n) Q E X f r := by
  unfold cmFind
  apply wp_bind
  apply wp_get
  apply wp_bind
  have hrp : r.tok.rpOk (Cid.rp q.cid) = true ↔ ∀ h, r.tok.rp = some h → h = Cid.rp q.cid := by
    unfold Tok.rpOk
    cases r.tok.rp with
    | none => simp
    | some e => simp
  apply wp_failIf
  · intro h
    apply h33
    have h : r.tok.rpOk (Cid.rp q.cid) = false := by simpa using h
    unfold Tok.rpOk at h
    cases hr : r.tok.rp with
    | none => rw [hr] at h; cases h
    | some e =>
      rw [hr] at h
      exact ⟨e, rfl, by simpa using h⟩
  intro h
  have h : r.tok.rpOk (Cid.rp q.cid) = true := by simpa using h
  have sc := hrp.mp h
  have h2E := h2E sc
  have h1 := h1 sc
  apply wp_bind
  apply wp_failIf
  · intro h
    have h : n = 0 := by simpa using h
    refine h2E ?_ _
    rw [h] at hn
    unfold live at hn
    have hz : l.countP (!·.deleted) = 0 := hn.symm
    rw [List.countP_eq_zero] at hz
    rw [List.find?_eq_none]
    intro c hc hi
    unfold is at hi
    simp only [Bool.and_eq_true] at hi
    exact hz c hc hi.1
  intro h
  have n0 : n ≠ 0 := by simpa using h
  apply wp_bind
  refine wp_ok_rdOr (a := l.length) (by simp [hr]) ?_
  apply wp_bind
  refine wp_scanUp hr nofun nofun (by omega) ?_
  rw [List.drop_zero]
  have hf := foldUp_is q.cid l 0
  cases hc : l.find? (is q.cid) with
  | none =>
    rw [hc] at hf
    dsimp only at hf
    generalize foldUp (cidBody q.cid) l 0 none = o at hf
    obtain ⟨d, p⟩ := o
    cases hf
    apply wp_bind
    apply wp_mod
    exact wp_fail (h2E hc _)
  | some c =>
    rw [hc] at hf
    obtain ⟨p, e, g1, g2, g3, g4, g5⟩ := hf
    rw [e, Nat.zero_add]
    apply wp_bind
    apply wp_mod
    exact wp_pure (h1 c p _ hc g1 g2 g3 g4 g5 n0)

/-- The command, from its parts. -/
theorem ok_credMgmt {d : Facts} {q : CmReq} (hq : q.sub = 1 ∨ q.sub = 6 ∨ q.sub = 7) {s : St} (hs : Sees s i d) :
    wp allOk (credMgmt x i (.ok q))
      (fun a f' _ => refusal x d q = none ∧ a = answer d q ∧ Storing f' (after d q) ∧ f'.dm.isSome = true ∧
        f' = { s.flash with dc := f'.dc, dm := f'.dm } ∧ (q.sub ≠ 6 → f'.dm = s.flash.dm))
      (fun e f' _ => ∃ c, e = .code c ∧ refusal x d q = some c ∧ f' = s.flash)
      (fun _ _ => False) s.flash (aged i s.ram) := by
  obtain ⟨a, hd, ha, hb, hn⟩ := hs.store
  obtain ⟨ms, hms⟩ := Option.isSome_iff_exists.mp hs.metas
  have hat : rdAttr s.flash = some a := by unfold rdAttr; rw [hd]; rfl
  have hrc : rdRecs s.flash = some d.recs := by unfold rdRecs; rw [hd]; rfl
  have htok : (aged i s.ram).tok = d.tok := hs.tok
  have hleft : (aged i s.ram).consec = d.left := hs.left
  generalize hR : refusal x d q = R
  unfold refusal at hR
  have same : ∀ {c : Byte}, R = some c → ∃ c', Err.code c = .code c' ∧ R = some c' ∧ s.flash = s.flash :=
    fun {c} h => ⟨c, rfl, h, rfl⟩
  unfold credMgmt
  apply wp_bind
  refine ok_consistent ⟨a, hat, ha, hb⟩ ?_
  rw [if_pos (by rcases hq with h | h | h <;> rw [h] <;> rfl)]
  apply wp_bind
  refine manage_auth (a := a) hat ?_ ?_ ?_ ?_
  · intro h _
    rw [if_pos h] at hR
    exact same hR.symm
  · intro h h' _
    rw [hleft] at h'
    rw [if_neg h, if_pos h'] at hR
    exact same hR.symm
  · intro h h' h'' _
    rw [hleft] at h'
    rw [htok] at h''
    rw [if_neg h, if_neg h', if_pos (fun g : Permitted x d q => h'' ⟨g.inUse, g.mac, g.perm⟩)] at hR
    exact same hR.symm
  intro n1 n2 u1 u2 u3 r1 hr1
  rw [hleft] at n2
  rw [htok] at u1 u2 u3 hr1
  rw [if_neg n1, if_neg n2] at hR
  dsimp only
  rcases hq with h1 | h1
  · rw [if_pos (by rw [h1]; rfl)]
    apply wp_bind
    apply wp_get
    apply wp_bind
    apply wp_failIf
    · intro h
      have h : d.tok.rp.isSome = true := by rw [← hr1]; exact h
      obtain ⟨e, he⟩ := Option.isSome_iff_exists.mp h
      rw [if_pos (fun g : Permitted x d q => (g.scope e he).1 h1)] at hR
      exact same hR.symm
    intro h
    have h : d.tok.rp.isSome = false := by rw [← hr1]; exact h
    have hal : Permitted x d q := ⟨u1, u2, u3, fun e he => by rw [he] at h; cases h⟩
    rw [if_neg (fun g => g hal), if_pos h1] at hR
    apply wp_pure
    refine ⟨hR.symm, ?_, ?_, hs.metas, rfl, fun _ => rfl⟩
    · unfold answer
      rw [if_pos h1, hn]
    · unfold after
      rw [if_neg (by rw [h1]; decide), if_neg (by rw [h1]; decide)]
      exact hs.store
  · have n1' : ¬ q.sub = 1 := by rcases h1 with h | h <;> rw [h] <;> decide
    have hans : answer d q = .empty := by unfold answer; rw [if_neg n1']
    rw [if_neg (by simpa using n1')]
    have out : ∀ {Q : Dc × Nat → Flash → Ram → Prop}, (∀ c p r', (Permitted x d q) → d.recs.find? (is q.cid) = some c → p < d.recs.length → c.deleted = false →
        d.recs[p]? = some c → (∀ g, change q.cid g d.recs = d.recs.set p (g c)) → a.numbers ≠ 0 → Q (c, p) s.flash r') →
        wp allOk (cmFind q a.numbers) Q (fun e f' _ => ∃ c, e = .code c ∧ R = some c ∧ f' = s.flash) (fun _ _ => False) s.flash r1 := by
      intro Q hQ
      refine manage_find hrc hn ?_ ?_ ?_
      · rintro ⟨h, e1, e2⟩
        rw [hr1] at e1
        rw [if_pos (fun g : Permitted x d q => e2 (g.scope h e1).2)] at hR
        exact same hR.symm
      · intro sc hf _
        rw [hr1] at sc
        have hal : Permitted x d q := ⟨u1, u2, u3, fun e he => ⟨n1', sc e he⟩⟩
        rw [if_neg (fun g => g hal), if_neg n1', hf] at hR
        exact same hR.symm
      · intro sc c p r' g1 g2 g3 _ g4 g5 g6
        rw [hr1] at sc
        exact hQ c p r' ⟨u1, u2, u3, fun e he => ⟨n1', sc e he⟩⟩ g1 g2 g3 g4 g5 g6
    rcases h1 with h6 | h7
    · rw [if_neg (by rw [h6]; decide), if_neg (by rw [h6]; decide), if_neg (by rw [h6]; decide), if_neg (by rw [h6]; decide), if_pos (by rw [h6]; rfl)]
      unfold cmDelete
      apply wp_bind
      refine out ?_
      intro c p r2 hal g1 g2 g3 g4 g5 g6
      rw [if_neg (fun g => g hal), if_neg n1', g1] at hR
      dsimp only at hR
      rw [if_neg (by rw [h6]; rintro ⟨h, _⟩; exact absurd h (by decide))] at hR
      apply wp_bind
      refine wp_ok_rdOr hat ?_
      dsimp only
      apply wp_bind
      refine wp_wr (updAttr_eq hd _) ?_ nofun nofun
      apply wp_bind
      refine wp_wr (updRec_eq rfl _ _) ?_ nofun nofun
      apply wp_bind
      refine wp_ok_rdOr (a := ms.length) (by simp [hms]) ?_
      apply wp_bind
      refine wp_scanUp (recs := fun f => f.dm) (l := ms) (by exact hms) nofun nofun (by omega) ?_
      generalize foldUp (delBody (Cid.rp q.cid)) (ms.drop 0) 0 none = o
      obtain ⟨m, j⟩ := o
      have hlive := live_set (c' := { c with deleted := true }) g4 g3
      have hset : setAt d.recs p { c with deleted := true } = d.recs.set p { c with deleted := true } := by
        unfold setAt
        rw [if_pos g2]
      have haf : after d q = d.recs.set p { c with deleted := true } := by
        unfold after
        rw [if_pos h6]
        exact g5 _
      have hnum : (a.numbers - 1).toNat = live (after d q) := by
        rw [haf]
        have : a.numbers.toNat ≠ 0 := fun h => g6 (UInt8.toNat_inj.mp h)
        have hlive : live (d.recs.set p { c with deleted := true }) + 1 = live d.recs := by simpa using hlive
        rw [UInt8.toNat_sub_of_le _ _ (by
          rw [UInt8.le_iff_toNat_le]
          show 1 ≤ _
          omega)]
        show a.numbers.toNat - 1 = _
        omega
      dsimp only
      cases m with
      | none =>
        apply wp_bind
        refine wp_wr (updAttr_eq rfl _) ?_ nofun nofun
        apply wp_pure
        refine ⟨hR.symm, hans.symm, ⟨{ a with numbers := a.numbers - 1, index := UInt8.ofNat p, del := false }, by rw [haf, hset], ha, rfl, hnum⟩, hs.metas, rfl, fun h => absurd h6 h⟩
      | some m =>
        apply wp_bind
        refine wp_wr (updMeta_eq (ms := ms) (by exact hms) _ _) ?_ nofun nofun
        apply wp_bind
        refine wp_wr (updAttr_eq rfl _) ?_ nofun nofun
        apply wp_pure
        refine ⟨hR.symm, hans.symm, ⟨{ a with numbers := a.numbers - 1, index := UInt8.ofNat p, del := false }, by rw [haf, hset], ha, rfl, hnum⟩, rfl, rfl, fun h => absurd h6 h⟩
    · rw [if_neg (by rw [h7]; decide), if_neg (by rw [h7]; decide), if_neg (by rw [h7]; decide), if_neg (by rw [h7]; decide), if_neg (by rw [h7]; decide),
        if_pos (by rw [h7]; rfl)]
      unfold cmUpdate
      apply wp_bind
      refine out ?_
      intro c p r2 hal g1 g2 g3 g4 g5 g6
      rw [if_neg (fun g => g hal), if_neg n1', g1] at hR
      dsimp only at hR
      dsimp only
      apply wp_bind
      apply wp_failIf
      · intro h
        rw [if_pos ⟨h7, by simpa using h⟩] at hR
        exact same hR.symm
      intro h
      rw [if_neg (by rintro ⟨_, h'⟩; exact h' (by simpa using h))] at hR
      apply wp_bind
      refine wp_wr (updRec_eq hd _ _) ?_ nofun nofun
      apply wp_pure
      have hlive := live_set (c' := { c with user := q.user }) g4 g3
      have hset : setAt d.recs p { c with user := q.user } = d.recs.set p { c with user := q.user } := by
        unfold setAt
        rw [if_pos g2]
      have haf : after d q = d.recs.set p { c with user := q.user } := by
        unfold after
        rw [if_neg (by rw [h7]; decide), if_pos h7]
        exact g5 _
      refine ⟨hR.symm, hans.symm, ⟨a, by rw [haf, hset], ha, hb, ?_⟩, hs.metas, rfl, fun _ => rfl⟩
      rw [hn, haf]
      have : live (d.recs.set p { c with user := q.user }) + 1 = live d.recs + 1 := by simpa [g3] using hlive
      omega

end

end Verif.Ctap
