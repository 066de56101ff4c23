import Verif.Props.CtapStore
import Verif.Props.CtapFlaws
import Verif.Spec.CtapListing
/-
C89: the enumerations of credentialManagement.
-/
namespace Verif.Ctap
open Cmd

variable {x : Ext} {f : Flash} {r : Ram}

/-! ### Sets of slots -/

/-- The slots of a set, lowest first. -/
def positions (s : BitVec 64) : List Nat := (List.range 64).filter (s.getLsbD ·)

theorem lowest_head (s : BitVec 64) (n : Nat) : lowest s n = ((List.range n).filter (s.getLsbD ·)).head? := by
  induction n with
  | zero => rfl
  | succ n ih =>
    unfold lowest
    rw [ih, List.range_succ, List.filter_append, List.head?_append]
    cases hb : s.getLsbD n <;> simp [hb]

theorem popCount_length (s : BitVec 64) (n : Nat) : popCount s n = ((List.range n).filter (s.getLsbD ·)).length := by
  induction n with
  | zero => rfl
  | succ n ih =>
    unfold popCount
    rw [ih, List.range_succ, List.filter_append, List.length_append]
    cases hb : s.getLsbD n <;> simp [hb]

theorem positions_clear {s : BitVec 64} {p : Nat} {l : List Nat} (h : positions s = p :: l) :
    positions (s &&& ~~~(BitVec.twoPow 64 p)) = l := by
  have h1 : positions (s &&& ~~~(BitVec.twoPow 64 p)) = (positions s).filter (fun q => q ≠ p) := by
    unfold positions
    rw [List.filter_filter]
    apply List.filter_congr
    intro q hq
    have hq : q < 64 := List.mem_range.mp hq
    rw [BitVec.getLsbD_and, BitVec.getLsbD_not, BitVec.getLsbD_twoPow]
    by_cases hp : q = p
    · subst hp; simp [hq]
    · simp [hq, hp, show ¬ p = q from fun h => hp h.symm]
  have hnd : (positions s).Nodup := (List.nodup_range).filter _
  rw [h1, h]
  rw [h] at hnd
  rw [List.nodup_cons] at hnd
  rw [List.filter_cons_of_neg (by simp)]
  apply List.filter_eq_self.mpr
  intro q hq
  simp only [ne_eq, decide_not, Bool.not_eq_eq_eq_not, Bool.not_true, decide_eq_false_iff_not]
  rintro rfl
  exact hnd.1 hq

theorem filter_take {β : Type} (P : β → Bool) (l : List β) (n : Nat) :
    ((List.range n).filter (fun p => (l[p]?).any P)).map (l[·]?) = ((l.take n).filter P).map some := by
  induction n with
  | zero => rfl
  | succ n ih =>
    rw [List.range_succ, List.filter_append, List.map_append, ih, List.take_succ, List.filter_append, List.map_append]
    congr 1
    cases h : l[n]? with
    | none => simp [h]
    | some b =>
      cases hb : P b <;> simp [h, hb]

/-- The entry of a relying party names the slots of its credentials. -/
theorem positions_creds {recs : List Dc} {ms : List Meta} (hi : Inv recs ms none) {j : Nat} {m : Meta} (hj : ms[j]? = some m)
    (h0 : m.slots ≠ 0#64) : (positions m.slots).map (recs[·]?) = (credsOf recs m.hash).map some := by
  have : positions m.slots = (List.range 64).filter (fun p => (recs[p]?).any (fun d => !d.deleted && Cid.rp d.cid == m.hash)) := by
    apply List.filter_congr
    intro p _
    rw [Bool.eq_iff_iff]
    constructor
    · intro hb
      obtain ⟨d, ⟨h1, h2⟩, h3⟩ := (hi.fits p nofun).back j m hj hb
      rw [h1, h3]
      simp [h2]
    · intro hb
      cases hd : recs[p]? with
      | none => rw [hd] at hb; cases hb
      | some d =>
        rw [hd] at hb
        simp only [Option.any_some, Bool.and_eq_true, Bool.not_eq_true', beq_iff_eq] at hb
        obtain ⟨j', m', h1, h2, h3⟩ := (hi.fits p nofun).forth d ⟨hd, hb.1⟩
        have := hi.diff hj h1 h0 (ne_zero_of_bit h2) (by rw [h3, hb.2])
        subst this
        rw [hj] at h1
        cases h1
        exact h2
  rw [this, filter_take, List.take_of_length_le hi.len]
  rfl

/-! ### The response for a credential -/

/-- What `cmCred` has done. -/
structure CredAns (x : Ext) (f : Flash) (r : Ram) (b : Bool) (a : Resp) (r' : Ram) : Prop where
  ans : ∃ p l recs d kh lbk, positions r.cm.slots = p :: l ∧ rdRecs f = some recs ∧ recs[p]? = some d ∧ rdCert (·.kh) f = some kh ∧
    Authentic x kh d.cid ∧
    a = .cred ⟨d.user, d.cid, khPri x kh (Cid.nonce d.cid), if b then some (l.length + 1) else none, Cid.cp d.cid, lbk⟩ ∧
    positions r'.cm.slots = l
  last : r'.cm.last = r.cm.last
  sm2 : r'.sm2 = r.sm2

theorem wp_cmCred {A : Fault → Prop} (b : Bool) :
    wp A (cmCred x b) (fun a f' r' => f' = f ∧ CredAns x f r b a r')
      (fun e f' _ => f' = f ∧ e ≠ .code Code.noCredentials ∧ ∀ u, e = .ub u → ∃ recs p, rdRecs f = some recs ∧ p ∈ positions r.cm.slots ∧ recs[p]? = none)
      (fun f' _ => f' = f) f r := by
  unfold cmCred
  apply wp_bind
  apply wp_get
  wzeta
  rw [lowest_head, popCount_length]
  show wp A (match (positions r.cm.slots).head? with | none => _ | some p => _) _ _ _ _ _
  cases hp : positions r.cm.slots with
  | nil =>
    apply wp_bind
    apply wp_mod
    exact wp_fail ⟨rfl, by decide, nofun⟩
  | cons p l =>
    apply wp_bind
    apply wp_mod
    apply wp_bind
    have hlen : ((List.range 64).filter (r.cm.slots.getLsbD ·)).length = l.length + 1 := by
      show (positions r.cm.slots).length = _
      rw [hp]
      rfl
    apply wp_rdRec
    · intro recs d h1 h2
      apply wp_bind
      unfold verifyKh
      apply wp_bind
      apply wp_rdOr
      · intro kh hk
        by_cases hc : (khTag x kh (Cid.nonce d.cid) (Cid.rp d.cid) == Cid.tag d.cid) = true
        · rw [if_pos hc]
          apply wp_pure
          show wp A (do
            failIf (!algOk r.sm2 (Cid.alg d.cid)) 0xFF
            let lbk ← if d.lbk then (do let k ← largeBlobKey x d.cid; pure (some k)) else pure none
            return .cred ⟨d.user, d.cid, khPri x kh (Cid.nonce d.cid), if b then some (((List.range 64).filter (r.cm.slots.getLsbD ·)).length) else none, Cid.cp d.cid, lbk⟩ : M Resp) _ _ _ _ _
          apply wp_bind
          apply wp_failIf
          · intro _; exact ⟨rfl, by decide, nofun⟩
          intro _
          have hfin : ∀ lbk, CredAns x f r b (.cred ⟨d.user, d.cid, khPri x kh (Cid.nonce d.cid), if b then some (((List.range 64).filter (r.cm.slots.getLsbD ·)).length) else none, Cid.cp d.cid, lbk⟩)
              { r with cm := { r.cm with idx := (p : Int), slots := r.cm.slots &&& ~~~(BitVec.twoPow 64 p) } } := by
            intro lbk
            refine ⟨⟨p, l, recs, d, kh, lbk, hp, h1, h2, hk, (eq_of_beq hc).symm, ?_, ?_⟩, rfl, rfl⟩
            · rw [hlen]
            · exact positions_clear hp
          cases hl : d.lbk with
          | false =>
            simp only [Bool.false_eq_true, if_false]
            apply wp_bind
            apply wp_pure
            exact wp_pure ⟨rfl, hfin _⟩
          | true =>
            simp only [if_true]
            unfold largeBlobKey
            apply wp_bind
            apply wp_bind
            apply wp_bind
            apply wp_rdOr
            · intro he _
              apply wp_pure
              apply wp_pure
              exact wp_pure ⟨rfl, hfin _⟩
            · intro _; exact ⟨rfl, by decide, nofun⟩
            · intro _; exact ⟨rfl, by decide, nofun⟩
            · intro _; rfl
        · rw [if_neg hc]
          apply wp_pure
          exact wp_fail ⟨rfl, by decide, nofun⟩
      · intro _; exact ⟨rfl, by decide, nofun⟩
      · intro _; exact ⟨rfl, by decide, nofun⟩
      · intro _; rfl
    · intro recs h1 h2
      exact ⟨rfl, nofun, fun u _ => ⟨recs, p, h1, List.mem_cons_self .., h2⟩⟩
    · intro _; exact ⟨rfl, by decide, nofun⟩
    · intro _; exact ⟨rfl, by decide, nofun⟩
    · intro _; rfl

/-! ### Credentials -/

/-- An enumeration of the credentials `rest`, if one is going on. -/
structure Listing (s : St) (recs rest : List Dc) : Prop where
  store : rdRecs s.flash = some recs
  settled : Settled s.flash
  going : s.ram.lastCmd = 0x0A → s.ram.cm.last = 4 ∨ s.ram.cm.last = 5 →
    (positions s.ram.cm.slots).map (recs[·]?) = rest.map some

theorem Listing.stopped {s : St} {recs rest : List Dc} (h1 : rdRecs s.flash = some recs) (h2 : Settled s.flash) (h : s.ram.lastCmd ≠ 0x0A) :
    Listing s recs rest := ⟨h1, h2, fun h' => absurd h' h⟩

/-- The credential as it is reported. -/
def CmCred.of (d : Dc) (c : CmCred) : Prop := c.cid = d.cid ∧ c.user = d.user

/-- The subcommand for the next credential. -/
theorem listing_next {s : St} {recs rest : List Dc} (hl : Listing s recs rest) (i : In) (q : CmReq) (hq : q.sub = 5) (env : Env) :
    (∃ c d rest', (step x s (.cbor i (.cm (.ok q))) env).2 = .resp (.cred c) ∧ c.cid = d.cid ∧ c.user = d.user ∧ c.total = none ∧
      rest = d :: rest' ∧ Listing (step x s (.cbor i (.cm (.ok q))) env).1 recs rest' ∧
      (step x s (.cbor i (.cm (.ok q))) env).1.ram.lastCmd = 0x0A ∧ (step x s (.cbor i (.cm (.ok q))) env).1.ram.cm.last = 5 ∧
      (step x s (.cbor i (.cm (.ok q))) env).1.ram.sm2 = s.ram.sm2 ∧ (step x s (.cbor i (.cm (.ok q))) env).1.flash = s.flash) ∨
    ((∀ a, (step x s (.cbor i (.cm (.ok q))) env).2 ≠ .resp a) ∧ Listing (step x s (.cbor i (.cm (.ok q))) env).1 recs [] ∧
      ∀ u, (step x s (.cbor i (.cm (.ok q))) env).2 ≠ .ub u) := by
  refine cbor_wp (x := x) (s := s) (i := i) (q := .cm (.ok q)) (env := env) (A := fun _ => True)
    (P := fun p : St × Out => (∃ c d rest', p.2 = .resp (.cred c) ∧ c.cid = d.cid ∧ c.user = d.user ∧ c.total = none ∧
      rest = d :: rest' ∧ Listing p.1 recs rest' ∧ p.1.ram.lastCmd = 0x0A ∧ p.1.ram.cm.last = 5 ∧ p.1.ram.sm2 = s.ram.sm2 ∧ p.1.flash = s.flash) ∨
      ((∀ a, p.2 ≠ .resp a) ∧ Listing p.1 recs [] ∧ ∀ u, p.2 ≠ .ub u))
    (Q := fun a f' r' => f' = s.flash ∧ s.ram.lastCmd = 0x0A ∧ (s.ram.cm.last = 4 ∨ s.ram.cm.last = 5) ∧
      CredAns x s.flash { aged i s.ram with cm := { s.ram.cm with last := 5 } } false a r')
    (E := fun e f' _ => f' = s.flash ∧ ∀ u, e ≠ .ub u) (X := fun f' _ => f' = s.flash) (fun _ => trivial) ?_ ?_ ?_ ?_ ?_
  · show wp _ (credMgmt x i (.ok q)) _ _ _ _ _
    unfold credMgmt
    apply wp_bind
    refine wp_consistency_quiet hl.settled ?_ ⟨rfl, nofun⟩ rfl
    simp only [hq]
    rw [if_neg (by decide)]
    apply wp_bind
    apply wp_pure
    rw [if_neg (by decide), if_neg (by decide), if_neg (by decide), if_neg (by decide), if_pos (by decide)]
    unfold cmNextCred
    apply wp_bind
    apply wp_get
    by_cases hc : ((aged i s.ram).lastCmd != 0x0A || ((aged i s.ram).cm.last != 4 && (aged i s.ram).cm.last != 5)) = true
    · rw [if_pos hc]
      apply wp_bind
      apply wp_mod
      exact wp_fail ⟨rfl, nofun⟩
    · rw [if_neg hc]
      apply wp_bind
      apply wp_mod
      have h1 : s.ram.lastCmd = 0x0A := by
        simp only [Bool.or_eq_true, bne_iff_ne, ne_eq, not_or, Decidable.not_not] at hc
        exact hc.1
      have h2 : s.ram.cm.last = 4 ∨ s.ram.cm.last = 5 := by
        simp only [Bool.or_eq_true, Bool.and_eq_true, bne_iff_ne, ne_eq, not_or, Decidable.not_not] at hc
        have : ¬ (¬ s.ram.cm.last = 4 ∧ ¬ s.ram.cm.last = 5) := hc.2
        by_cases h : s.ram.cm.last = 4
        · exact Or.inl h
        · exact Or.inr (Decidable.not_not.mp fun h' => this ⟨h, h'⟩)
      rw [hq]
      refine wp_mono (wp_cmCred false) ?_ ?_ ?_
      · rintro a f' r' ⟨rfl, h⟩
        exact ⟨rfl, h1, h2, h⟩
      · rintro e f' r' ⟨rfl, _, h⟩
        refine ⟨rfl, ?_⟩
        rintro u rfl
        obtain ⟨recs', p, e1, e2, e3⟩ := h u rfl
        rw [hl.store] at e1
        cases e1
        have : recs[p]? ∈ (positions s.ram.cm.slots).map (recs[·]?) := List.mem_map_of_mem e2
        rw [hl.going h1 h2, e3] at this
        simp at this
      · rintro f' r' rfl
        rfl
  · rintro a f' r' ⟨rfl, h1, h2, ⟨p, l, recs', d, kh, lbk, e1, e2, e3, e4, e5, e6, e7⟩, h3, h4⟩
    rw [hl.store] at e2
    cases e2
    have hg := hl.going h1 h2
    have e1 : positions s.ram.cm.slots = p :: l := e1
    rw [e1, List.map_cons, e3] at hg
    cases rest with
    | nil => cases hg
    | cons d' rest' =>
      simp only [List.map_cons, List.cons.injEq, Option.some.injEq] at hg
      obtain ⟨rfl, hg⟩ := hg
      subst e6
      refine Or.inl ⟨_, d, rest', rfl, rfl, rfl, rfl, rfl, ⟨hl.store, hl.settled, fun _ _ => ?_⟩, rfl, h3, h4, rfl⟩
      show (positions r'.cm.slots).map (recs[·]?) = _
      rw [e7]
      exact hg
  · rintro c f' r' ⟨rfl, _⟩
    exact Or.inr ⟨nofun, Listing.stopped hl.store hl.settled (show (0xFF : Byte) ≠ 0x0A by decide), nofun⟩
  · rintro u f' r' ⟨_, h⟩
    exact absurd rfl (h u)
  · rintro f' r' rfl
    exact Or.inr ⟨nofun, Listing.stopped hl.store hl.settled (show (0 : Byte) ≠ 0x0A by decide), nofun⟩

theorem credsIn_cons_none {o : Out} {l : List Out} (h : ∀ a, o ≠ .resp a) : credsIn (o :: l) = credsIn l := by
  unfold credsIn
  rw [List.filterMap_cons_none]
  cases o with
  | resp a => exact absurd rfl (h a)
  | _ => rfl

theorem listing_run {s : St} {recs rest : List Dc} (hl : Listing s recs rest) (ops : List (Op × Env)) (hops : ∀ o ∈ ops, o.1.cmSub 5) :
    (credsIn (run x s ops).2).map (fun c => (c.cid, c.user)) <+: rest.map (fun d => (d.cid, d.user)) := by
  induction ops generalizing s rest with
  | nil => exact List.nil_prefix
  | cons o ops ih =>
    obtain ⟨op, env⟩ := o
    obtain ⟨i, q, ho, hq⟩ := hops _ (List.mem_cons_self ..)
    simp only at ho
    subst ho
    have ih := fun {s rest} (hl : Listing s recs rest) => ih hl (fun o h => hops o (List.mem_cons_of_mem _ h))
    show (credsIn ((step x s (.cbor i (.cm (.ok q))) env).2 :: (run x (step x s (.cbor i (.cm (.ok q))) env).1 ops).2)).map _ <+: _
    rcases listing_next (x := x) hl i q hq env with ⟨c, d, rest', h1, h2, h3, _, rfl, h4, _⟩ | ⟨h1, h2, _⟩
    · rw [h1]
      show (c.cid, c.user) :: (credsIn _).map _ <+: _
      rw [h2, h3]
      exact List.cons_prefix_cons.mpr ⟨rfl, ih h4⟩
    · rw [credsIn_cons_none h1]
      have := ih h2
      rw [List.prefix_nil.mp this]
      exact List.nil_prefix

/-- The search for the entry of a relying party. -/
theorem foldUp_creds (rp : Bytes) (l : List Meta) (i : Nat) :
    match foldUp (credsBody rp) l i none with
    | (some m, j) => ∃ k, j = i + k ∧ l[k]? = some m ∧ m.slots ≠ 0#64 ∧ m.hash = rp
    | (none, _) => ∀ m ∈ l, m.slots ≠ 0#64 → m.hash ≠ rp := by
  induction l generalizing i with
  | nil => intro m h; cases h
  | cons b l ih =>
    unfold foldUp
    by_cases h0 : b.slots = 0#64
    · have : credsBody rp i b none = (none, false) := by unfold credsBody; rw [if_pos (by simp [h0])]
      rw [this]
      have := ih (i + 1)
      show match foldUp (credsBody rp) l (i + 1) none with | (some m, j) => _ | (none, _) => _
      rcases hr : foldUp (credsBody rp) l (i + 1) none with ⟨_ | m, j⟩
      · rw [hr] at this
        intro m hm h
        rcases List.mem_cons.mp hm with rfl | hm
        · exact absurd h0 h
        · exact this m hm h
      · rw [hr] at this
        obtain ⟨k, h1, h2, h3⟩ := this
        exact ⟨k + 1, by omega, by simpa using h2, h3⟩
    · by_cases hh : b.hash = rp
      · have : credsBody rp i b none = (some b, true) := by
          unfold credsBody; rw [if_neg (by simpa using h0), if_pos (by simpa using hh)]
        rw [this]
        exact ⟨0, rfl, rfl, h0, hh⟩
      · have : credsBody rp i b none = (none, false) := by
          unfold credsBody; rw [if_neg (by simpa using h0), if_neg (by simpa using hh)]
        rw [this]
        have := ih (i + 1)
        show match foldUp (credsBody rp) l (i + 1) none with | (some m, j) => _ | (none, _) => _
        rcases hr : foldUp (credsBody rp) l (i + 1) none with ⟨_ | m, j⟩
        · rw [hr] at this
          intro m hm h
          rcases List.mem_cons.mp hm with rfl | hm
          · exact hh
          · exact this m hm h
        · rw [hr] at this
          obtain ⟨k, h1, h2, h3⟩ := this
          exact ⟨k + 1, by omega, by simpa using h2, h3⟩

theorem wp_credsBegin {A : Fault → Prop} (q : CmReq) (n : Byte) :
    wp A (cmCredsBegin x q n) (fun a f' r' => f' = f ∧ ∃ (ms : List Meta) (j : Nat) (m : Meta) (r0 : Ram), f.dm = some ms ∧ ms[j]? = some m ∧ m.slots ≠ 0#64 ∧ m.hash = q.rpHash ∧
        r0.cm.slots = m.slots ∧ r0.cm.last = r.cm.last ∧ r0.sm2 = r.sm2 ∧ CredAns x f r0 true a r')
      (fun e f' _ => f' = f ∧ (e = .code Code.noCredentials → A .fail ∨ n = 0 ∨ ∀ ms : List Meta, f.dm = some ms → ∀ m ∈ ms, m.slots ≠ 0#64 → m.hash ≠ q.rpHash))
      (fun f' _ => f' = f) f r := by
  unfold cmCredsBegin
  apply wp_bind
  apply wp_get
  apply wp_bind
  apply wp_failIf
  · intro _; exact ⟨rfl, nofun⟩
  intro _
  apply wp_bind
  apply wp_failIf
  · intro h; exact ⟨rfl, fun _ => Or.inr (Or.inl (eq_of_beq h))⟩
  intro _
  unfold metaCount
  apply wp_bind
  apply wp_bind
  apply wp_rdF
  · intro _
    apply wp_pure
    apply wp_bind
    apply wp_mod
    cases hdm : f.dm with
    | none =>
      apply wp_bind
      apply wp_pure
      apply wp_bind
      apply wp_mod
      exact wp_fail ⟨rfl, fun _ => Or.inr (Or.inr nofun)⟩
    | some ms =>
      apply wp_bind
      refine wp_scanUp (l := ms) hdm (fun _ => ⟨rfl, nofun⟩) (fun _ => rfl) (Nat.zero_add _) ?_
      have := foldUp_creds q.rpHash ms 0
      rw [List.drop_zero]
      rcases hr : foldUp (credsBody q.rpHash) ms 0 none with ⟨_ | m, j⟩
      · rw [hr] at this
        apply wp_bind
        apply wp_mod
        refine wp_fail ⟨rfl, fun _ => Or.inr (Or.inr ?_)⟩
        intro ms' h
        cases h
        exact this
      · rw [hr] at this
        obtain ⟨k, _, h2, h3, h4⟩ := this
        apply wp_bind
        apply wp_mod
        apply wp_bind
        apply wp_mod
        refine wp_mono (wp_cmCred true) ?_ ?_ ?_
        · rintro a f' r' ⟨rfl, h⟩
          refine ⟨rfl, ms, k, m, _, rfl, h2, h3, h4, ?_, ?_, ?_, h⟩ <;> rfl
        · rintro e f' r' ⟨rfl, h, _⟩
          exact ⟨rfl, fun h' => absurd h' h⟩
        · rintro f' r' rfl
          rfl
  · intro hA
    apply wp_pure
    apply wp_bind
    apply wp_mod
    apply wp_bind
    apply wp_pure
    apply wp_bind
    apply wp_mod
    exact wp_fail ⟨rfl, fun _ => Or.inl hA⟩
  · intro _; rfl

/-- The subcommand that begins an enumeration of credentials, answered. -/
theorem listing_begin {s : St} (i : In) (q : CmReq) (hq : q.sub = 4) (env : Env) (a : Resp)
    (h : (step x s (.cbor i (.cm (.ok q))) env).2 = .resp a) (g : Good False (step x s (.cbor i (.cm (.ok q))) env).1.flash)
    (hs : Settled (step x s (.cbor i (.cm (.ok q))) env).1.flash) :
    ∃ c recs d rest, a = .cred c ∧ rdRecs (step x s (.cbor i (.cm (.ok q))) env).1.flash = some recs ∧ credsOf recs q.rpHash = d :: rest ∧
      c.cid = d.cid ∧ c.user = d.user ∧ c.total = some (rest.length + 1) ∧ Listing (step x s (.cbor i (.cm (.ok q))) env).1 recs rest ∧
      (step x s (.cbor i (.cm (.ok q))) env).1.ram.lastCmd = 0x0A ∧ (step x s (.cbor i (.cm (.ok q))) env).1.ram.cm.last = 4 := by
  obtain ⟨r1, hQ, hr⟩ := resp_of x i (s := s) (q := .cm (.ok q)) (env := env) (Q := fun a f r' => ∃ (ms : List Meta) (j : Nat) (m : Meta) (r0 : Ram),
      f.dm = some ms ∧ ms[j]? = some m ∧ m.slots ≠ 0#64 ∧ m.hash = q.rpHash ∧
        r0.cm.slots = m.slots ∧ r0.cm.last = 4 ∧ CredAns x f r0 true a r') (by
    show wp _ (credMgmt x i (.ok q)) _ _ _ _ _
    unfold credMgmt
    apply wp_bind
    refine wp_mono (wp_true _) ?_ (fun _ _ _ _ => trivial) (fun _ _ _ => trivial)
    intro _ f1 r1 _
    simp only [hq]
    rw [if_pos (by decide)]
    apply wp_bind
    apply wp_cmAuth
    intro n _
    rw [if_neg (by decide), if_neg (by decide), if_neg (by decide), if_pos (by decide)]
    refine wp_mono (wp_credsBegin q n) ?_ (fun _ _ _ _ => trivial) (fun _ _ _ => trivial)
    rintro a f2 r2 ⟨rfl, ms, j, m, r0, h1, h2, h3, h4, h5, h6, _, h7⟩
    exact ⟨ms, j, m, r0, h1, h2, h3, h4, h5, by rw [h6]; exact hq, h7⟩) h
  obtain ⟨ms, j, m, r0, h1, h2, h3, h4, h5, h6, h7⟩ := hQ
  obtain ⟨recs, ms', b, g⟩ := g
  obtain ⟨b', e1, e2, e3⟩ := hs
  have hb := g.attr.symm.trans e1
  cases hb
  have hms := g.dm.symm.trans h1
  cases hms
  have hi : Inv recs ms none := by
    have := g.inv
    rwa [pend_none e2 e3] at this
  have hp := positions_creds hi h2 h3
  obtain ⟨p, l, recs', d, kh, lbk, k1, k2, k3, k4, k5, k6, k7⟩ := h7.ans
  have hrecs := g.recs.symm.trans k2
  cases hrecs
  rw [h5] at k1
  rw [k1, List.map_cons, k3, h4] at hp
  cases hc : credsOf recs q.rpHash with
  | nil => rw [hc] at hp; cases hp
  | cons d' rest =>
    rw [hc] at hp
    simp only [List.map_cons, List.cons.injEq, Option.some.injEq] at hp
    obtain ⟨rfl, hp⟩ := hp
    refine ⟨_, recs, d, rest, k6, g.recs, hc, rfl, rfl, ?_, ⟨g.recs, ⟨b, e1, e2, e3⟩, fun _ _ => ?_⟩, ?_, ?_⟩
    · have := congrArg List.length hp
      simp only [List.length_map] at this
      rw [this]
      rfl
    · rw [hr]
      show (positions r1.cm.slots).map _ = _
      rw [k7]
      exact hp
    · rw [hr]; rfl
    · rw [hr]; exact h7.last.trans h6

/-- The beginning of an enumeration reports the first credential of the relying party and how many it has; the
commands for the next credential that follow report the others, each once, in the order of their slots, whatever fails or is
cut off on the way. -/
theorem C89_order (hm : ∀ k m, (x.hmac k m).length = 32) (s : St) (hs : Unused s.flash) (ops : List (Op × Env)) (hf : Along x Fair s ops)
    (i : In) (q : CmReq) (hq : q.sub = 4) (env : Env) (hf' : Fair (run x s ops).1 (.cbor i (.cm (.ok q)), env)) (a : Resp)
    (h : (step x (run x s ops).1 (.cbor i (.cm (.ok q))) env).2 = .resp a)
    (more : List (Op × Env)) (hmore : ∀ o ∈ more, o.1.cmSub 5) :
    ∃ c recs, a = .cred c ∧ rdRecs (step x (run x s ops).1 (.cbor i (.cm (.ok q))) env).1.flash = some recs ∧
      c.total = some (credsOf recs q.rpHash).length ∧
      (c :: credsIn (run x (step x (run x s ops).1 (.cbor i (.cm (.ok q))) env).1 more).2).map (fun c => (c.cid, c.user)) <+:
        (credsOf recs q.rpHash).map (fun d => (d.cid, d.user)) := by
  obtain ⟨g, hl⟩ := good_run (K := False) hm ops s hs.lb hf False.elim hs.good
  obtain ⟨g', hs'⟩ := good_step hm (run x s ops).1 (.cbor i (.cm (.ok q))) env hf'.1 (fun h => hf'.2.1 (Or.inl h)) hf'.2.2 hl
    (fun h => hf'.2.1 (Or.inr h)) g False.elim
  obtain ⟨c, recs, d, rest, rfl, h2, h3, h4, h5, h6, h7, _⟩ := listing_begin i q hq env a h g' (hs' i (.cm (.ok q)) a rfl rfl h)
  refine ⟨c, recs, rfl, h2, ?_, ?_⟩
  · rw [h6, h3]; rfl
  · rw [h3, List.map_cons, List.map_cons, h4, h5]
    exact List.cons_prefix_cons.mpr ⟨rfl, listing_run h7 more hmore⟩

/-- Without faults, the next credential is reported while there is one. -/
theorem listing_answers {s : St} {recs rest : List Dc} {d : Dc} (hl : Listing s recs (d :: rest)) (i : In) (q : CmReq) (hq : q.sub = 5)
    (env : Env) (he : ∀ n, env n = .ok) (h1 : s.ram.lastCmd = 0x0A) (h2 : s.ram.cm.last = 4 ∨ s.ram.cm.last = 5) (hu : Usable x s d) :
    ∃ a, (step x s (.cbor i (.cm (.ok q))) env).2 = .resp a := by
  refine cbor_wp (x := x) (s := s) (i := i) (q := .cm (.ok q)) (env := env) (A := allOk)
    (P := fun p : St × Out => ∃ a, p.2 = .resp a) (Q := fun _ _ _ => True) (E := fun _ _ _ => False) (X := fun _ _ => False) he ?_
    (fun a _ _ _ => ⟨a, rfl⟩) (fun _ _ _ h => h.elim) (fun _ _ _ h => h.elim) (fun _ _ h => h.elim)
  show wp _ (credMgmt x i (.ok q)) _ _ _ _ _
  unfold credMgmt
  apply wp_bind
  obtain ⟨a, ha, ha1, ha2⟩ := hl.settled
  unfold consistency
  apply wp_bind
  apply wp_ok_rdOr ha
  rw [if_neg (by simp [ha1, ha2])]
  apply wp_pure
  simp only [hq]
  rw [if_neg (by decide)]
  apply wp_bind
  apply wp_pure
  rw [if_neg (by decide), if_neg (by decide), if_neg (by decide), if_neg (by decide), if_pos (by decide)]
  unfold cmNextCred
  apply wp_bind
  apply wp_get
  have hc : ¬ ((aged i s.ram).lastCmd != 0x0A || ((aged i s.ram).cm.last != 4 && (aged i s.ram).cm.last != 5)) = true := by
    show ¬ (s.ram.lastCmd != 0x0A || (s.ram.cm.last != 4 && s.ram.cm.last != 5)) = true
    rw [h1]
    rcases h2 with h2 | h2 <;> rw [h2] <;> decide
  rw [if_neg hc]
  apply wp_bind
  apply wp_mod
  unfold cmCred
  apply wp_bind
  apply wp_get
  wzeta
  rw [lowest_head, popCount_length]
  have hg := hl.going h1 h2
  show wp allOk (match (positions s.ram.cm.slots).head? with | none => _ | some p => _) _ _ _ _ _
  cases hp : positions s.ram.cm.slots with
  | nil => rw [hp] at hg; cases hg
  | cons p l =>
    rw [hp] at hg
    simp only [List.map_cons, List.cons.injEq] at hg
    apply wp_bind
    apply wp_mod
    apply wp_bind
    apply wp_rdRec
    · intro recs' d' e1 e2
      rw [hl.store] at e1
      cases e1
      rw [hg.1] at e2
      cases e2
      obtain ⟨⟨kh, hk, hau⟩, halg, hhe⟩ := hu
      apply wp_bind
      refine wp_mono (ok_verifyKh hk hau) ?_ (fun _ _ _ h => h) (fun _ _ h => h)
      rintro k f r ⟨rfl, rfl, rfl⟩
      show wp allOk (do
        failIf (!algOk s.ram.sm2 (Cid.alg d.cid)) 0xFF
        let lbk ← if d.lbk then (do let k ← largeBlobKey x d.cid; pure (some k)) else pure none
        return .cred ⟨d.user, d.cid, khPri x kh (Cid.nonce d.cid), none, Cid.cp d.cid, lbk⟩ : M Resp) _ _ _ _ _
      apply wp_bind
      apply wp_failIf
      · intro h; rw [halg] at h; cases h
      intro _
      cases hlb : d.lbk with
      | false =>
        simp only [Bool.false_eq_true, if_false]
        apply wp_bind
        apply wp_pure
        exact wp_pure trivial
      | true =>
        simp only [if_true]
        obtain ⟨he, hhe⟩ : ∃ he, rdCert (·.he) s.flash = some he := by
          cases h : rdCert (·.he) s.flash with
          | none => exact absurd h (hhe hlb)
          | some he => exact ⟨he, rfl⟩
        unfold largeBlobKey
        apply wp_bind
        apply wp_bind
        apply wp_bind
        apply wp_ok_rdOr hhe
        apply wp_pure
        apply wp_pure
        exact wp_pure trivial
    · intro recs' e1 e2
      rw [hl.store] at e1
      cases e1
      rw [hg.1] at e2
      cases e2
    · intro e; rw [hl.store] at e; cases e
    · intro e; cases e
    · intro e; cases e

/-- The commands for the next credential, without faults. -/
def nextCreds (l : List (In × CmReq)) : List (Op × Env) := l.map fun p => (.cbor p.1 (.cm (.ok p.2)), fun _ => .ok)

theorem listing_all {s : St} {recs rest : List Dc} (hl : Listing s recs rest) (h1 : s.ram.lastCmd = 0x0A) (h2 : s.ram.cm.last = 4 ∨ s.ram.cm.last = 5)
    (hu : ∀ d ∈ rest, Usable x s d) (l : List (In × CmReq)) (hl5 : ∀ p ∈ l, p.2.sub = 5) (hlen : l.length = rest.length) :
    (credsIn (run x s (nextCreds l)).2).map (fun c => (c.cid, c.user)) = rest.map (fun d => (d.cid, d.user)) ∧
    ∀ i q env, q.sub = 5 → ∀ a, (step x (run x s (nextCreds l)).1 (.cbor i (.cm (.ok q))) env).2 ≠ .resp a := by
  induction l generalizing s rest with
  | nil =>
    cases rest with
    | cons d rest => cases hlen
    | nil =>
      refine ⟨rfl, fun i q env hq a ha => ?_⟩
      rcases listing_next (x := x) hl i q hq env with ⟨c, d, rest', _, _, _, _, h, _⟩ | ⟨h, _⟩
      · cases h
      · exact h a ha
  | cons p l ih =>
    obtain ⟨i, q⟩ := p
    cases rest with
    | nil => cases hlen
    | cons d rest =>
      have hq : q.sub = 5 := hl5 (i, q) (List.mem_cons_self ..)
      obtain ⟨a, ha⟩ := listing_answers (x := x) hl i q hq (fun _ => .ok) (fun _ => rfl) h1 h2 (hu d (List.mem_cons_self ..))
      rcases listing_next (x := x) hl i q hq (fun _ => .ok) with ⟨c, d', rest', k1, k2, k3, _, k4, k5, k6, k7, k8, k9⟩ | ⟨h, _⟩
      · cases k4
        have := ih k5 k6 (Or.inr k7) (fun d' hd => by
          obtain ⟨e1, e2, e3⟩ := hu d' (List.mem_cons_of_mem _ hd)
          refine ⟨?_, ?_, ?_⟩
          · rw [k9]; exact e1
          · rw [k8]; exact e2
          · rw [k9]; exact e3) (fun p hp => hl5 p (List.mem_cons_of_mem _ hp)) (by simpa using hlen)
        refine ⟨?_, this.2⟩
        show (credsIn ((step x s (.cbor i (.cm (.ok q))) fun _ => .ok).2 :: (run x (step x s (.cbor i (.cm (.ok q))) fun _ => .ok).1 (nextCreds l)).2)).map _ = _
        rw [k1]
        show (c.cid, c.user) :: (credsIn _).map _ = _
        rw [this.1, k2, k3]
        rfl
      · exact absurd ha (h a)

/-- When nothing fails and the credentials of the relying party can be used, an enumeration reports all of them, each
once, and one more command for the next credential is refused. -/
theorem C89_all (hm : ∀ k m, (x.hmac k m).length = 32) (s : St) (hs : Unused s.flash) (ops : List (Op × Env)) (hf : Along x Fair s ops)
    (i : In) (q : CmReq) (hq : q.sub = 4) (env : Env) (hf' : Fair (run x s ops).1 (.cbor i (.cm (.ok q)), env)) (c : CmCred)
    (h : (step x (run x s ops).1 (.cbor i (.cm (.ok q))) env).2 = .resp (.cred c)) (recs : List Dc)
    (hrecs : rdRecs (step x (run x s ops).1 (.cbor i (.cm (.ok q))) env).1.flash = some recs)
    (hus : ∀ d ∈ credsOf recs q.rpHash, Usable x (step x (run x s ops).1 (.cbor i (.cm (.ok q))) env).1 d)
    (l : List (In × CmReq)) (hl : ∀ p ∈ l, p.2.sub = 5) (hlen : l.length + 1 = (credsOf recs q.rpHash).length) :
    (c :: credsIn (run x (step x (run x s ops).1 (.cbor i (.cm (.ok q))) env).1 (nextCreds l)).2).map (fun c => (c.cid, c.user)) =
      (credsOf recs q.rpHash).map (fun d => (d.cid, d.user)) ∧
    ∀ i' q' env', q'.sub = 5 → ∀ a, (step x (run x (step x (run x s ops).1 (.cbor i (.cm (.ok q))) env).1 (nextCreds l)).1
      (.cbor i' (.cm (.ok q'))) env').2 ≠ .resp a := by
  obtain ⟨g, hlb⟩ := good_run (K := False) hm ops s hs.lb hf False.elim hs.good
  obtain ⟨g', hs'⟩ := good_step hm (run x s ops).1 (.cbor i (.cm (.ok q))) env hf'.1 (fun h => hf'.2.1 (Or.inl h)) hf'.2.2 hlb
    (fun h => hf'.2.1 (Or.inr h)) g False.elim
  obtain ⟨c', recs', d, rest, hc, h2, h3, h4, h5, h6, h7, h8, h9⟩ := listing_begin i q hq env _ h g' (hs' i (.cm (.ok q)) _ rfl rfl h)
  cases hc
  have := hrecs.symm.trans h2
  cases this
  rw [h3] at hus hlen ⊢
  obtain ⟨k1, k2⟩ := listing_all h7 h8 (Or.inl h9) (fun d' hd => hus d' (List.mem_cons_of_mem _ hd)) l hl (by simpa using hlen)
  refine ⟨?_, k2⟩
  rw [List.map_cons, List.map_cons, k1, h4, h5]

/-! ### Relying parties -/

/-- The entry is in use. -/
def Meta.used (m : Meta) : Bool := m.slots != 0#64

theorem filter_first {l : List Meta} {m : Meta} {rest : List Meta} (h : l.filter Meta.used = m :: rest) :
    ∃ k, l[k]? = some m ∧ l.findIdx? Meta.used = some k ∧ (l.drop (k + 1)).filter Meta.used = rest := by
  induction l with
  | nil => cases h
  | cons b l ih =>
    cases hb : b.used with
    | true =>
      rw [List.filter_cons_of_pos hb] at h
      cases h
      exact ⟨0, rfl, by rw [List.findIdx?_cons, hb]; rfl, rfl⟩
    | false =>
      rw [List.filter_cons_of_neg (by simp [hb])] at h
      obtain ⟨k, h1, h2, h3⟩ := ih h
      exact ⟨k + 1, by simpa using h1, by rw [List.findIdx?_cons, hb, h2]; rfl, by simpa using h3⟩

theorem foldDown_rps (l : List Meta) (k : Nat) (o : Option Nat) (c : Nat) (hk : k ≤ l.length) :
    foldDown rpsBody l k (o, c) = (((l.take k).findIdx? Meta.used).or o, c + ((l.take k).filter Meta.used).length) := by
  induction k generalizing o c with
  | zero => rfl
  | succ k ih =>
    unfold foldDown
    have hlt : k < l.length := by omega
    rw [List.getElem?_eq_getElem hlt]
    show foldDown rpsBody l k (rpsBody k l[k] (o, c)) = _
    rw [List.take_succ, List.getElem?_eq_getElem hlt, List.filter_append, List.length_append, List.findIdx?_append]
    cases hb : l[k].used with
    | true =>
      have e : rpsBody k l[k] (o, c) = (some k, c + 1) := by
        unfold rpsBody
        rw [if_neg (by unfold Meta.used at hb; simpa using hb)]
      rw [e, ih _ _ (by omega)]
      simp [hb, List.findIdx?_cons]
      refine ⟨?_, by omega⟩
      rw [Nat.min_eq_left (by omega)]
    | false =>
      have e : rpsBody k l[k] (o, c) = (o, c) := by
        unfold rpsBody
        rw [if_pos (by unfold Meta.used at hb; simpa using hb)]
      rw [e, ih _ _ (by omega)]
      simp [hb, List.findIdx?_cons]

theorem foldUp_next {l : List Meta} {m : Meta} {rest : List Meta} (h : l.filter Meta.used = m :: rest) (i : Nat) (s : Option Meta × Bool) :
    ∃ k, foldUp nextRpBody l i s = ((some m, true), i + k) ∧ l[k]? = some m ∧ (l.drop (k + 1)).filter Meta.used = rest := by
  induction l generalizing i s with
  | nil => cases h
  | cons b l ih =>
    unfold foldUp
    have hbody : nextRpBody i b s = ((some b, b.used), b.used) := rfl
    rw [hbody]
    cases hb : b.used with
    | true =>
      rw [List.filter_cons_of_pos hb] at h
      cases h
      exact ⟨0, rfl, rfl, rfl⟩
    | false =>
      rw [List.filter_cons_of_neg (by simp [hb])] at h
      obtain ⟨k, h1, h2, h3⟩ := ih h (i + 1) (some b, false)
      refine ⟨k + 1, ?_, by simpa using h2, by simpa using h3⟩
      show foldUp nextRpBody l (i + 1) (some b, false) = _
      rw [h1]
      congr 1
      omega

/-- The relying parties in the table are those that have credentials. -/
theorem used_rps {recs : List Dc} {ms : List Meta} (hi : Inv recs ms none) :
    ((ms.filter Meta.used).map (·.hash)).Nodup ∧
    ∀ h, h ∈ (ms.filter Meta.used).map (·.hash) ↔ ∃ d ∈ recs, d.deleted = false ∧ Cid.rp d.cid = h := by
  have used : ∀ m : Meta, m.used = true ↔ m.slots ≠ 0#64 := fun m => by unfold Meta.used; simp
  constructor
  · rw [List.Nodup, List.pairwise_map, List.pairwise_filter]
    rw [List.pairwise_iff_getElem]
    intro i j h1 h2 h3 _ h5
    exact hi.uniq i j _ _ h3 (List.getElem?_eq_getElem h1) (List.getElem?_eq_getElem h2) ((used _).mp h5)
  · intro h
    rw [List.mem_map]
    constructor
    · rintro ⟨m, hm, rfl⟩
      rw [List.mem_filter] at hm
      obtain ⟨j, hj⟩ := List.getElem?_of_mem hm.1
      have hne := (used m).mp hm.2
      have hpos : ∃ p, m.slots.getLsbD p = true := by
        refine Classical.byContradiction fun hno => hne ?_
        apply BitVec.eq_of_getLsbD_eq
        intro p _
        cases hb : m.slots.getLsbD p with
        | true => exact absurd ⟨p, hb⟩ hno
        | false => simp
      obtain ⟨p, hp⟩ := hpos
      obtain ⟨d, ⟨h1, h2⟩, h3⟩ := (hi.fits p nofun).back j m hj hp
      exact ⟨d, List.mem_of_getElem? h1, h2, h3.symm⟩
    · rintro ⟨d, hd, h1, rfl⟩
      obtain ⟨p, hp⟩ := List.getElem?_of_mem hd
      obtain ⟨j, m, h2, h3, h4⟩ := (hi.fits p nofun).forth d ⟨hp, h1⟩
      exact ⟨m, List.mem_filter.mpr ⟨List.mem_of_getElem? h2, (used m).mpr (ne_zero_of_bit h3)⟩, h4⟩

/-- An enumeration of the relying parties `rest` goes on. -/
structure RpListing (s : St) (ms rest : List Meta) : Prop where
  store : s.flash.dm = some ms
  settled : Settled s.flash
  cmd : s.ram.lastCmd = 0x0A
  last : s.ram.cm.last = 2 ∨ s.ram.cm.last = 3
  nRp : s.ram.cm.nRp = ms.length
  idx : ∃ j : Nat, s.ram.cm.idx = (j : Int) ∧ j < ms.length ∧ (ms.drop (j + 1)).filter Meta.used = rest

/-- The subcommand for the next relying party, when there is one: its answer, or the end of the enumeration. -/
theorem rp_next {s : St} {ms rest : List Meta} {m : Meta} (hl : RpListing s ms (m :: rest)) (i : In) (q : CmReq) (hq : q.sub = 3) (env : Env) :
    ((step x s (.cbor i (.cm (.ok q))) env).2 = .resp (.rp m.rpId m.hash none) ∧ RpListing (step x s (.cbor i (.cm (.ok q))) env).1 ms rest) ∨
    ((∀ a, (step x s (.cbor i (.cm (.ok q))) env).2 ≠ .resp a) ∧ Settled (step x s (.cbor i (.cm (.ok q))) env).1.flash ∧
      (step x s (.cbor i (.cm (.ok q))) env).1.ram.lastCmd ≠ 0x0A ∧ ∃ n, env n ≠ .ok) := by
  obtain ⟨j, hj, hlt, hrest⟩ := hl.idx
  obtain ⟨k, hk1, hk2, hk3⟩ := foldUp_next hrest (j + 1) (none, false)
  have hA : ∀ n, (fun e => ∃ n, env n = e) (env n) := fun n => ⟨n, rfl⟩
  refine cbor_wp (x := x) (s := s) (i := i) (q := .cm (.ok q)) (env := env) (A := fun e => ∃ n, env n = e)
    (P := fun p : St × Out => (p.2 = .resp (.rp m.rpId m.hash none) ∧ RpListing p.1 ms rest) ∨
      ((∀ a, p.2 ≠ .resp a) ∧ Settled p.1.flash ∧ p.1.ram.lastCmd ≠ 0x0A ∧ ∃ n, env n ≠ .ok))
    (Q := fun a f' r' => a = .rp m.rpId m.hash none ∧ f' = s.flash ∧ r'.cm.last = 3 ∧ r'.cm.nRp = ms.length ∧ r'.cm.idx = ((j + 1 + k : Nat) : Int))
    (E := fun e f' _ => f' = s.flash ∧ (∃ n, env n ≠ .ok) ∧ ∀ u, e ≠ .ub u) (X := fun f' _ => f' = s.flash ∧ ∃ n, env n ≠ .ok) hA ?_ ?_ ?_ ?_ ?_
  · have bad : (∃ n, env n = Fault.fail) → ∃ n, env n ≠ .ok := fun ⟨n, h⟩ => ⟨n, by rw [h]; exact nofun⟩
    have badc : (∃ n, env n = Fault.cut) → ∃ n, env n ≠ .ok := fun ⟨n, h⟩ => ⟨n, by rw [h]; exact nofun⟩
    show wp _ (credMgmt x i (.ok q)) _ _ _ _ _
    unfold credMgmt
    apply wp_bind
    obtain ⟨a, h1, h2, h3⟩ := hl.settled
    unfold consistency
    apply wp_bind
    apply wp_rd h1
    · rw [if_neg (by simp [h2, h3])]
      apply wp_pure
      simp only [hq]
      rw [if_neg (by decide)]
      apply wp_bind
      apply wp_pure
      rw [if_neg (by decide), if_neg (by decide), if_pos (by decide)]
      unfold cmNextRp
      apply wp_bind
      apply wp_get
      rw [if_neg]
      · apply wp_bind
        apply wp_mod
        apply wp_bind
        have hst : ((aged i s.ram).cm.idx + 1).toNat = j + 1 := by
          show (s.ram.cm.idx + 1).toNat = _
          rw [hj]
          omega
        rw [hst]
        refine wp_scanUp (l := ms) hl.store (fun h => ⟨rfl, bad h, nofun⟩) (fun h => ⟨rfl, badc h⟩) ?_ ?_
        · show j + 1 + (s.ram.cm.nRp - (j + 1)) = _
          rw [hl.nRp]
          omega
        rw [hk1]
        simp only [if_true]
        apply wp_bind
        apply wp_mod
        refine wp_pure ⟨rfl, rfl, hq, hl.nRp, rfl⟩
      · show ¬ (s.ram.lastCmd != 0x0A || (s.ram.cm.last != 2 && s.ram.cm.last != 3)) = true
        rw [hl.cmd]
        rcases hl.last with h | h <;> rw [h] <;> decide
    · intro h; exact ⟨rfl, bad h, nofun⟩
    · intro h; exact ⟨rfl, badc h⟩
  · rintro a f' r' ⟨rfl, rfl, h1, h2, h3⟩
    refine Or.inl ⟨rfl, hl.store, hl.settled, rfl, Or.inr h1, h2, _, h3, ?_, ?_⟩
    · have : ms[j + 1 + k]? = some m := by
        rw [List.getElem?_drop] at hk2
        exact hk2
      exact (List.getElem?_eq_some_iff.mp this).1
    · rw [List.drop_drop] at hk3
      exact hk3
  · rintro c f' r' ⟨rfl, h, _⟩
    exact Or.inr ⟨nofun, hl.settled, show (0xFF : Byte) ≠ 0x0A by decide, h⟩
  · rintro u f' r' ⟨_, _, h⟩
    exact absurd rfl (h u)
  · rintro f' r' ⟨rfl, h⟩
    exact Or.inr ⟨nofun, hl.settled, show (0 : Byte) ≠ 0x0A by decide, h⟩

/-- When no enumeration goes on, the subcommand for the next relying party is refused. -/
theorem rp_stopped {s : St} (hs : Settled s.flash) (h : s.ram.lastCmd ≠ 0x0A) (i : In) (q : CmReq) (hq : q.sub = 3) (env : Env) :
    (∀ a, (step x s (.cbor i (.cm (.ok q))) env).2 ≠ .resp a) ∧ Settled (step x s (.cbor i (.cm (.ok q))) env).1.flash ∧
      (step x s (.cbor i (.cm (.ok q))) env).1.ram.lastCmd ≠ 0x0A := by
  refine cbor_wp (x := x) (s := s) (i := i) (q := .cm (.ok q)) (env := env) (A := fun _ => True)
    (P := fun p : St × Out => (∀ a, p.2 ≠ .resp a) ∧ Settled p.1.flash ∧ p.1.ram.lastCmd ≠ 0x0A)
    (Q := fun _ _ _ => False) (E := fun e f' _ => f' = s.flash ∧ ∀ u, e ≠ .ub u) (X := fun f' _ => f' = s.flash) (fun _ => trivial) ?_ ?_ ?_ ?_ ?_
  · show wp _ (credMgmt x i (.ok q)) _ _ _ _ _
    unfold credMgmt
    apply wp_bind
    refine wp_consistency_quiet hs ?_ ⟨rfl, nofun⟩ rfl
    simp only [hq]
    rw [if_neg (by decide)]
    apply wp_bind
    apply wp_pure
    rw [if_neg (by decide), if_neg (by decide), if_pos (by decide)]
    unfold cmNextRp
    apply wp_bind
    apply wp_get
    rw [if_pos (by
      have : (s.ram.lastCmd != 0x0A) = true := by simpa using h
      show (s.ram.lastCmd != 0x0A || _) = true
      rw [this]; rfl)]
    apply wp_bind
    apply wp_mod
    exact wp_fail ⟨rfl, nofun⟩
  · intro _ _ _ h; exact h.elim
  · rintro c f' r' ⟨rfl, _⟩
    exact ⟨nofun, hs, show (0xFF : Byte) ≠ 0x0A by decide⟩
  · rintro u f' r' ⟨_, h⟩
    exact absurd rfl (h u)
  · rintro f' r' rfl
    exact ⟨nofun, hs, show (0 : Byte) ≠ 0x0A by decide⟩

theorem rpsIn_cons_none {o : Out} {l : List Out} (h : ∀ a, o ≠ .resp a) : rpsIn (o :: l) = rpsIn l := by
  unfold rpsIn
  rw [List.filterMap_cons_none]
  cases o with
  | resp a => exact absurd rfl (h a)
  | _ => rfl

theorem rp_stopped_run {s : St} (hs : Settled s.flash) (h : s.ram.lastCmd ≠ 0x0A) (ops : List (Op × Env)) (hops : ∀ o ∈ ops, o.1.cmSub 3) :
    rpsIn (run x s ops).2 = [] := by
  induction ops generalizing s with
  | nil => rfl
  | cons o ops ih =>
    obtain ⟨op, env⟩ := o
    obtain ⟨i, q, ho, hq⟩ := hops _ (List.mem_cons_self ..)
    simp only at ho
    subst ho
    obtain ⟨h1, h2, h3⟩ := rp_stopped (x := x) hs h i q hq env
    show rpsIn ((step x s (.cbor i (.cm (.ok q))) env).2 :: (run x (step x s (.cbor i (.cm (.ok q))) env).1 ops).2) = []
    rw [rpsIn_cons_none h1]
    exact ih h2 h3 fun o h => hops o (List.mem_cons_of_mem _ h)

theorem rp_run {s : St} {ms rest : List Meta} (hl : RpListing s ms rest) (ops : List (Op × Env)) (hops : ∀ o ∈ ops, o.1.cmSub 3)
    (hlen : ops.length ≤ rest.length) :
    rpsIn (run x s ops).2 <+: rest.map (fun m => (m.rpId, m.hash)) ∧
    ((∀ o ∈ ops, ∀ n, o.2 n = .ok) → rpsIn (run x s ops).2 = (rest.take ops.length).map (fun m => (m.rpId, m.hash))) := by
  induction ops generalizing s rest with
  | nil => exact ⟨List.nil_prefix, fun _ => rfl⟩
  | cons o ops ih =>
    obtain ⟨op, env⟩ := o
    obtain ⟨i, q, ho, hq⟩ := hops _ (List.mem_cons_self ..)
    simp only at ho
    subst ho
    have hops' : ∀ o ∈ ops, o.1.cmSub 3 := fun o h => hops o (List.mem_cons_of_mem _ h)
    cases rest with
    | nil => simp at hlen
    | cons m rest =>
      show rpsIn ((step x s (.cbor i (.cm (.ok q))) env).2 :: (run x (step x s (.cbor i (.cm (.ok q))) env).1 ops).2) <+: _ ∧ _
      rcases rp_next (x := x) hl i q hq env with ⟨h1, h2⟩ | ⟨h1, h2, h3, n, h4⟩
      · obtain ⟨k1, k2⟩ := ih h2 hops' (by simpa using hlen)
        constructor
        · rw [h1]
          exact List.cons_prefix_cons.mpr ⟨rfl, k1⟩
        · intro hok
          show rpsIn ((step x s (.cbor i (.cm (.ok q))) env).2 :: (run x (step x s (.cbor i (.cm (.ok q))) env).1 ops).2) = _
          rw [h1]
          show (m.rpId, m.hash) :: rpsIn _ = (m.rpId, m.hash) :: (rest.take ops.length).map _
          rw [k2 fun o h => hok o (List.mem_cons_of_mem _ h)]
      · constructor
        · rw [rpsIn_cons_none h1, rp_stopped_run h2 h3 ops hops']
          exact List.nil_prefix
        · intro hok
          exact absurd (hok _ (List.mem_cons_self ..) n) h4

theorem wp_rpsBegin {A : Fault → Prop} (n : Byte) {ms : List Meta} (hms : f.dm = some ms) :
    wp A (cmRpsBegin n) (fun a f' r' => f' = f ∧ ∃ rp h t, a = .rp rp h (some t) ∧ (A .fail ∧ t = 0 ∨ t = (ms.filter Meta.used).length ∧
        ∀ m rest, ms.filter Meta.used = m :: rest → rp = m.rpId ∧ h = m.hash ∧ r'.cm.last = r.cm.last ∧ r'.cm.nRp = ms.length ∧
          ∃ j : Nat, r'.cm.idx = (j : Int) ∧ j < ms.length ∧ (ms.drop (j + 1)).filter Meta.used = rest))
      (fun e f' _ => f' = f ∧ (e = .code Code.noCredentials → n = 0)) (fun f' _ => f' = f) f r := by
  unfold cmRpsBegin
  apply wp_bind
  apply wp_get
  apply wp_bind
  apply wp_failIf
  · intro _; exact ⟨rfl, nofun⟩
  intro _
  apply wp_bind
  apply wp_failIf
  · intro h; exact ⟨rfl, fun _ => eq_of_beq h⟩
  intro _
  unfold metaCount
  apply wp_bind
  apply wp_bind
  have fin : ∀ (r0 : Ram) (t : Nat), (A .fail ∧ t = 0 ∨ t = (ms.filter Meta.used).length ∧ ∀ m rest, ms.filter Meta.used = m :: rest →
      r0.cm.last = r.cm.last ∧ r0.cm.nRp = ms.length ∧ ∃ j : Nat, r0.cm.idx = (j : Int) ∧ ms[j]? = some m ∧ (ms.drop (j + 1)).filter Meta.used = rest) →
      wp A (do
        let r ← Cmd.get
        let m ← rdAt (fun f => f.dm) r.cm.idx
        return .rp m.rpId m.hash (some t) : M Resp)
        (fun a f' r' => f' = f ∧ ∃ rp h t, a = .rp rp h (some t) ∧ (A .fail ∧ t = 0 ∨ t = (ms.filter Meta.used).length ∧
          ∀ m rest, ms.filter Meta.used = m :: rest → rp = m.rpId ∧ h = m.hash ∧ r'.cm.last = r.cm.last ∧ r'.cm.nRp = ms.length ∧
            ∃ j : Nat, r'.cm.idx = (j : Int) ∧ j < ms.length ∧ (ms.drop (j + 1)).filter Meta.used = rest))
        (fun e f' _ => f' = f ∧ (e = .code Code.noCredentials → n = 0)) (fun f' _ => f' = f) f r0 := by
    intro r0 t hx
    apply wp_bind
    apply wp_get
    unfold rdAt
    apply wp_bind
    apply wp_ite
    · intro _
      exact wp_fail ⟨rfl, nofun⟩
    intro hidx
    apply wp_rdRec
    · intro ms' m' h1 h2
      have h1 : f.dm = some ms' := h1
      rw [hms] at h1
      cases h1
      refine wp_pure ⟨rfl, _, _, _, rfl, ?_⟩
      rcases hx with hx | ⟨ht, hx⟩
      · exact Or.inl hx
      refine Or.inr ⟨ht, fun m rest hf => ?_⟩
      obtain ⟨k1, k2, j, k4, k5, k6⟩ := hx m rest hf
      rw [k4, Int.toNat_natCast, k5] at h2
      cases h2
      exact ⟨rfl, rfl, k1, k2, j, k4, (List.getElem?_eq_some_iff.mp k5).1, k6⟩
    · intro _ _ _; exact ⟨rfl, nofun⟩
    · intro _; exact ⟨rfl, nofun⟩
    · intro _; exact ⟨rfl, nofun⟩
    · intro _; rfl
  apply wp_rdF
  · intro _
    apply wp_pure
    apply wp_bind
    apply wp_mod
    rw [hms]
    apply wp_bind
    refine wp_scanDown (l := ms) hms (fun _ => ⟨rfl, nofun⟩) (fun _ => rfl) (Nat.le_refl _) ?_
    have e : foldDown rpsBody ms ((Option.map (fun x => x.length) (some ms)).getD 0) (none, 0) = (ms.findIdx? Meta.used, (ms.filter Meta.used).length) := by
      show foldDown rpsBody ms ms.length (none, 0) = _
      rw [foldDown_rps ms ms.length none 0 (Nat.le_refl _), List.take_length, Nat.zero_add, Option.or_none]
    rw [e]
    cases hfi : ms.findIdx? Meta.used with
    | none =>
      refine fin _ _ (Or.inr ⟨rfl, fun m rest hf => ?_⟩)
      obtain ⟨k, _, h, _⟩ := filter_first hf
      rw [hfi] at h
      cases h
    | some p =>
      apply wp_bind
      apply wp_mod
      refine fin _ _ (Or.inr ⟨rfl, fun m rest hf => ?_⟩)
      obtain ⟨k, h1, h2, h3⟩ := filter_first hf
      rw [hfi] at h2
      cases h2
      exact ⟨rfl, rfl, p, rfl, h1, h3⟩
  · intro h
    apply wp_pure
    apply wp_bind
    apply wp_mod
    apply wp_bind
    apply wp_pure
    exact fin _ _ (Or.inl ⟨h, rfl⟩)
  · intro _; rfl

/-- An enumeration of the relying parties, answered with a number that is not 0: it reports the first of the relying parties that have
credentials and their number, and as many commands for the next as there are others report these, each once, in the
same order, whatever fails or is cut off on the way; all of them if nothing does.  Missing: that a further command is
refused, see `C89_refuted`. -/
theorem C89_rps_partial (hm : ∀ k m, (x.hmac k m).length = 32) (s : St) (hs : Unused s.flash) (ops : List (Op × Env)) (hf : Along x Fair s ops)
    (i : In) (q : CmReq) (hq : q.sub = 2) (env : Env) (hf' : Fair (run x s ops).1 (.cbor i (.cm (.ok q)), env)) (a : Resp)
    (h : (step x (run x s ops).1 (.cbor i (.cm (.ok q))) env).2 = .resp a) :
    ∃ recs n hash t, rdRecs (step x (run x s ops).1 (.cbor i (.cm (.ok q))) env).1.flash = some recs ∧ a = .rp n hash (some t) ∧
    (t ≠ 0 → ∃ rps : List (Bytes × Bytes), (rps.map (·.2)).Nodup ∧ t = rps.length ∧
      (∀ h, h ∈ rps.map (·.2) ↔ ∃ d ∈ recs, d.deleted = false ∧ Cid.rp d.cid = h) ∧
      ∀ more : List (Op × Env), (∀ o ∈ more, o.1.cmSub 3) → more.length < t →
        (n, hash) :: rpsIn (run x (step x (run x s ops).1 (.cbor i (.cm (.ok q))) env).1 more).2 <+: rps ∧
        ((∀ o ∈ more, ∀ k, o.2 k = .ok) → more.length + 1 = t →
          (n, hash) :: rpsIn (run x (step x (run x s ops).1 (.cbor i (.cm (.ok q))) env).1 more).2 = rps)) := by
  obtain ⟨g, hlb⟩ := good_run (K := False) hm ops s hs.lb hf False.elim hs.good
  obtain ⟨g', hs'⟩ := good_step hm (run x s ops).1 (.cbor i (.cm (.ok q))) env hf'.1 (fun h => hf'.2.1 (Or.inl h)) hf'.2.2 hlb
    (fun h => hf'.2.1 (Or.inr h)) g False.elim
  have hset := hs' i (.cm (.ok q)) a rfl rfl h
  obtain ⟨recs, ms, b, g⟩ := g'
  obtain ⟨r1, hQ, hr⟩ := resp_of x i (s := (run x s ops).1) (q := .cm (.ok q)) (env := env) (Q := fun a f r' => ∀ ms, f.dm = some ms →
      ∃ rp h t, a = .rp rp h (some t) ∧ (True ∧ t = 0 ∨ t = (ms.filter Meta.used).length ∧
        ∀ m rest, ms.filter Meta.used = m :: rest → rp = m.rpId ∧ h = m.hash ∧ r'.cm.last = 2 ∧ r'.cm.nRp = ms.length ∧
          ∃ j : Nat, r'.cm.idx = (j : Int) ∧ j < ms.length ∧ (ms.drop (j + 1)).filter Meta.used = rest)) (by
    show wp _ (credMgmt x i (.ok q)) _ _ _ _ _
    unfold credMgmt
    apply wp_bind
    refine wp_mono (wp_true _) ?_ (fun _ _ _ _ => trivial) (fun _ _ _ => trivial)
    intro _ f1 r1 _
    simp only [hq]
    rw [if_pos (by decide)]
    apply wp_bind
    apply wp_cmAuth
    intro n _
    rw [if_neg (by decide), if_pos (by decide)]
    cases hdm : f1.dm with
    | none =>
      refine wp_mono ((kp_cmList x q n).1 _ _ _) ?_ (fun _ _ _ _ => trivial) (fun _ _ _ => trivial)
      intro a f2 r2 hk ms hms
      rw [hk.2, hdm] at hms
      cases hms
    | some ms =>
      refine wp_mono (wp_rpsBegin n hdm) ?_ (fun _ _ _ _ => trivial) (fun _ _ _ => trivial)
      rintro a f2 r2 ⟨rfl, rp, h, t, h1, h2⟩ ms' hms
      rw [hdm] at hms
      cases hms
      refine ⟨rp, h, t, h1, h2.imp id fun ⟨h3, h4⟩ => ⟨h3, fun m rest hf => ?_⟩⟩
      obtain ⟨k1, k2, k3, k4⟩ := h4 m rest hf
      exact ⟨k1, k2, by rw [k3]; exact hq, k4⟩) h
  obtain ⟨rp, hash, t, h1, h2⟩ := hQ ms g.dm
  refine ⟨recs, rp, hash, t, g.recs, h1, fun ht => ?_⟩
  rcases h2 with ⟨_, h2⟩ | ⟨h2, h3⟩
  · exact absurd h2 ht
  obtain ⟨b', e1, e2, e3⟩ := id hset
  have hb := g.attr.symm.trans e1
  cases hb
  have hi : Inv recs ms none := by
    have := g.inv
    rwa [pend_none e2 e3] at this
  obtain ⟨u1, u2⟩ := used_rps hi
  have hmm : ((ms.filter Meta.used).map (fun m => (m.rpId, m.hash))).map (·.2) = (ms.filter Meta.used).map (·.hash) := by
    rw [List.map_map]; rfl
  refine ⟨(ms.filter Meta.used).map (fun m => (m.rpId, m.hash)), by rw [hmm]; exact u1, by rw [List.length_map]; exact h2,
    by rw [hmm]; exact u2, fun more hmore hlen => ?_⟩
  cases hu : ms.filter Meta.used with
  | nil => rw [hu] at h2; exact absurd h2 ht
  | cons m rest =>
    obtain ⟨k1, k2, k3, k4, k5⟩ := h3 m rest hu
    have hl : RpListing (step x (run x s ops).1 (.cbor i (.cm (.ok q))) env).1 ms rest := by
      refine ⟨g.dm, hset, ?_, ?_, ?_, ?_⟩ <;> rw [hr]
      · rfl
      · exact Or.inl k3
      · exact k4
      · exact k5
    rw [hu] at h2
    simp only [List.length_cons] at h2
    obtain ⟨r1, r2⟩ := rp_run hl more hmore (by omega)
    rw [k1, k2, List.map_cons]
    refine ⟨List.cons_prefix_cons.mpr ⟨rfl, r1⟩, fun hok hlen' => ?_⟩
    rw [r2 hok, List.take_of_length_le (by omega)]

/-! ### Nothing to list -/

theorem wp_cmAuthNum {A : Fault → Prop} (i : In) (q : CmReq) :
    wp A (cmAuth x i q) (fun n f' _ => f' = f ∧ ∃ a, rdAttr f = some a ∧ a.numbers = n) (fun e _ _ => e ≠ .code Code.noCredentials) (fun _ _ => True) f r := by
  unfold cmAuth
  apply wp_bind
  apply wp_mod
  apply wp_bind
  apply wp_rdOr
  · intro a ha
    apply wp_bind
    apply wp_failIf
    · intro _; decide
    intro _
    apply wp_bind
    apply wp_get
    apply wp_bind
    apply wp_failIf
    · intro _; decide
    intro _
    apply wp_bind
    apply wp_verifyToken x i
    · intro _
      apply wp_bind
      apply wp_failIf
      · intro _; decide
      intro _
      apply wp_bind
      apply wp_failIf
      · intro _; decide
      intro _
      exact wp_pure ⟨rfl, a, ha, rfl⟩
    · intro _
      apply wp_bind
      apply wp_failIf
      · intro _; decide
      intro _
      apply wp_bind
      apply wp_failIf
      · intro _; decide
      intro _
      exact wp_pure ⟨rfl, a, ha, rfl⟩
  · intro _; decide
  · intro _; decide
  · intro _; trivial

/-- When nothing fails, an enumeration is refused for want of credentials only if there are none (if no credential was registered
for a relying party and user that had one: the number of credentials is wrong after that, see `C57_refuted`). -/
theorem C89_none (hm : ∀ k m, (x.hmac k m).length = 32) (s : St) (hs : Unused s.flash) (ops : List (Op × Env)) (hf : Along x Fair s ops)
    (hk : Along x (fun s o => ¬ Replaces s.flash o.1) s ops)
    (i : In) (q : CmReq) (hq : q.sub = 2 ∨ q.sub = 4) (env : Env) (he : ∀ n, env n = .ok)
    (h : (step x (run x s ops).1 (.cbor i (.cm (.ok q))) env).2 = .err Code.noCredentials) :
    ∃ recs, rdRecs (step x (run x s ops).1 (.cbor i (.cm (.ok q))) env).1.flash = some recs ∧
      (q.sub = 2 → ∀ d ∈ recs, d.deleted = true) ∧ (q.sub = 4 → credsOf recs q.rpHash = []) := by
  obtain ⟨g, hlb⟩ := good_run (K := True) hm ops s hs.lb hf (fun _ => hk) hs.good
  revert h
  refine cbor_wp (x := x) (s := (run x s ops).1) (i := i) (q := .cm (.ok q)) (env := env) (A := allOk)
    (P := fun p : St × Out => p.2 = .err Code.noCredentials → ∃ recs, rdRecs p.1.flash = some recs ∧
      (q.sub = 2 → ∀ d ∈ recs, d.deleted = true) ∧ (q.sub = 4 → credsOf recs q.rpHash = []))
    (Q := fun _ _ _ => True) (E := fun e f' _ => e = .code Code.noCredentials → ∃ recs, rdRecs f' = some recs ∧
      (q.sub = 2 → ∀ d ∈ recs, d.deleted = true) ∧ (q.sub = 4 → credsOf recs q.rpHash = [])) (X := fun _ _ => True) he ?_
    (fun _ _ _ _ h => nomatch h) (fun c f r h h' => h (by cases h'; rfl)) (fun _ _ _ _ h => nomatch h) (fun _ _ _ h => nomatch h)
  show wp _ (credMgmt x i (.ok q)) _ _ _ _ _
  generalize (run x s ops).1.flash = f0 at g
  generalize aged i (run x s ops).1.ram = r0
  unfold credMgmt
  apply wp_bind
  have hcons : wp allOk consistency (fun _ f' _ => Good True f' ∧ Settled f') (fun e _ _ => e ≠ .code Code.noCredentials) (fun _ _ => True) f0 r0 := by
    obtain ⟨recs, ms, a, g⟩ := g
    by_cases hp : (a.add || a.del) = true
    · exact wp_mono (wp_recover g hp (fun h => nomatch h)) (fun _ _ _ h => h.1) (fun _ _ _ h => h.elim) (fun _ _ _ => trivial)
    · simp at hp
      exact wp_consistency_quiet ⟨a, g.attr, hp.1, hp.2⟩ ⟨g.good, a, g.attr, hp.1, hp.2⟩ (by decide) trivial
  refine wp_mono hcons ?_ (fun _ _ _ h h' => absurd h' h) (fun _ _ _ => trivial)
  rintro _ f1 r1 ⟨⟨recs, ms, a, g⟩, b, e1, e2, e3⟩
  have hb := g.attr.symm.trans e1
  cases hb
  have hi : Inv recs ms none := by
    have := g.inv
    rwa [pend_none e2 e3] at this
  have hzero : a.numbers = 0 → ∀ d ∈ recs, d.deleted = true := by
    intro hn d hd
    have hc := g.count trivial
    unfold Counted at hc
    simp only [e2, e3, Bool.or_self, Bool.false_eq_true, if_false, Nat.add_zero] at hc
    rw [hn] at hc
    have h0 : liveCount recs = 0 := hc.symm
    unfold liveCount at h0
    rw [List.countP_eq_zero] at h0
    simpa using h0 d hd
  have hnone : (∀ d ∈ recs, d.deleted = true) → credsOf recs q.rpHash = [] := by
    intro h
    unfold credsOf
    rw [List.filter_eq_nil_iff]
    intro d hd
    rw [h d hd]
    exact nofun
  rw [if_pos (by rcases hq with h | h <;> rw [h] <;> decide)]
  apply wp_bind
  have hauth : wp allOk (cmAuth x i q) (fun n f' _ => f' = f1 ∧ n = a.numbers) (fun e _ _ => e ≠ .code Code.noCredentials) (fun _ _ => True) f1 r1 := by
    refine wp_mono (wp_cmAuthNum i q) ?_ (fun _ _ _ h => h) (fun _ _ _ => trivial)
    rintro n f' r' ⟨h1, a', h2, h3⟩
    rw [g.attr] at h2
    cases h2
    exact ⟨h1, h3.symm⟩
  refine wp_mono hauth ?_ (fun _ _ _ h h' => absurd h' h) (fun _ _ _ => trivial)
  rintro n f2 r2 ⟨rfl, rfl⟩
  rcases hq with hq | hq
  · simp only [hq]
    rw [if_neg (by decide), if_pos (by decide)]
    refine wp_mono (wp_rpsBegin _ g.dm) (fun _ _ _ _ => trivial) ?_ (fun _ _ _ => trivial)
    rintro e f' r' ⟨rfl, h⟩ h'
    exact ⟨recs, g.recs, fun _ => hzero (h h'), fun h => absurd h (by decide)⟩
  · simp only [hq]
    rw [if_neg (by decide), if_neg (by decide), if_neg (by decide), if_pos (by decide)]
    refine wp_mono (wp_credsBegin q _) (fun _ _ _ _ => trivial) ?_ (fun _ _ _ => trivial)
    rintro e f' r' ⟨rfl, h⟩ h'
    refine ⟨recs, g.recs, fun h => absurd h (by decide), fun _ => ?_⟩
    rcases h h' with h | h | h
    · cases h
    · exact hnone (hzero h)
    · unfold credsOf
      rw [List.filter_eq_nil_iff]
      intro d hd hb
      simp only [Bool.and_eq_true, Bool.not_eq_true', beq_iff_eq] at hb
      obtain ⟨p, hp⟩ := List.getElem?_of_mem hd
      obtain ⟨j, m, h2, h3, h4⟩ := (hi.fits p nofun).forth d ⟨hp, hb.1⟩
      exact h ms g.dm m (List.mem_of_getElem? h2) (ne_zero_of_bit h3) (h4.trans hb.2)

/-! ### Examples -/

section
open Toy

/-- Two credentials for `rpA`, one for `rpB`; then a PIN and a token for credential management. -/
def stocked : List (Op × Env) := histN [(20000, 1, mc rpA user1 .yes 1 none), (20000, 2, mc rpB user1 .yes 1 none),
  (20000, 3, mc rpA user2 .yes 1 none), (20001, 0, Toy.setPin pin1), (20002, 0, getToken pin1 4 none)]
theorem stocked_fair : Along ext Fair produced stocked := by
  refine ⟨⟨rfl, fun _ _ => nofun, by decide, by decide⟩, ⟨rfl, fun _ _ => nofun, by decide, by decide⟩, ⟨rfl, fun _ _ => nofun, by decide, by decide⟩,
    ⟨rfl, fun _ _ => nofun, trivial⟩, ⟨rfl, fun _ _ => nofun, trivial⟩, trivial⟩
/-- The id of the credential for `rpB`. -/
def stockedB : Bytes := ((rdRecs (run ext produced stocked).1.flash).bind (·[1]?)).elim [] (·.cid)

/-- What a history reports: users of credentials with their number, relying parties with theirs, errors. -/
def told (l : List Out) : List (Bytes × Nat) := l.map fun o => match o with
  | .resp (.cred c) => (c.user.id, c.total.getD 0)
  | .resp (.rp _ h t) => (h.take 1, t.getD 0)
  | .err c => ([], c.toNat)
  | .ub _ => ([], 999)
  | _ => ([], 0)

/-- The hypotheses of `C89_order`, `C89_all` and `C89_rps_partial` are met, and the lists are not trivial. -/
example : told (run ext (run ext produced stocked).1 (histN [(20003, 0, cm 4 rpA []), (20003, 0, cm 5 [] []), (20003, 0, cm 5 [] []),
    (20003, 0, cm 5 [] [])])).2 = [([1], 2), ([2], 0), ([], 0xF1), ([], Code.notAllowed.toNat)] := by decide +kernel
example : told (run ext (run ext produced stocked).1 (histN [(20003, 0, cm 2 [] []), (20003, 0, cm 3 [] [])])).2 = [([0x0A], 2), ([0x0B], 0)] := by
  decide +kernel
example : ((rdRecs (run ext produced stocked).1.flash).getD []).map (fun d => (d.user.id, d.deleted)) = [([1], false), ([1], false), ([2], false)] ∧
    (credsOf ((rdRecs (run ext produced stocked).1.flash).getD []) rpA).length = 2 := by
  constructor <;> decide +kernel
/-- … and of `C89_none`. -/
example : told (run ext (run ext produced stocked).1 (histN [(20003, 0, cm 6 [] stockedB), (20003, 0, cm 4 rpB [])])).2 =
    [([], 0), ([], Code.noCredentials.toNat)] := by decide +kernel

/-- After the only relying party with credentials was reported, another one is, whose credential was deleted. -/
theorem C89_refuted : ∃ (s : St) (ops : List (Op × Env)), Unused s.flash ∧ Along ext Fair s ops ∧
    told ((run ext s ops).2.drop 6) = [([0x0A], 1), ([0x0B], 0)] ∧
    (credsOf ((rdRecs (run ext s ops).1.flash).getD []) rpB) = [] := by
  refine ⟨produced, stocked ++ histN [(20003, 0, cm 6 [] stockedB), (20003, 0, cm 2 [] []), (20003, 0, cm 3 [] [])], produced_unused, ?_,
    by decide +kernel, by decide +kernel⟩
  refine ⟨⟨rfl, fun _ _ => nofun, by decide, by decide⟩, ⟨rfl, fun _ _ => nofun, by decide, by decide⟩, ⟨rfl, fun _ _ => nofun, by decide, by decide⟩,
    ⟨rfl, fun _ _ => nofun, trivial⟩, ⟨rfl, fun _ _ => nofun, trivial⟩, ⟨rfl, fun _ _ => nofun, trivial⟩, ⟨rfl, fun _ _ => nofun, trivial⟩,
    ⟨rfl, fun _ _ => nofun, trivial⟩, trivial⟩

/-- One more command for the next relying party reads a buffer that was never written. -/
example : told (run ext (run ext produced stocked).1 (histN [(20003, 0, cm 2 [] []), (20003, 0, cm 3 [] []), (20003, 0, cm 3 [] [])])).2 =
    [([0x0A], 2), ([0x0B], 0), ([], 999)] := by decide +kernel
end

end Verif.Ctap
