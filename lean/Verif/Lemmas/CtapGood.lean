import Verif.Lemmas.CtapKeep
/-
The invariant of the credential store through the commands that change it.
-/
namespace Verif.Ctap
open Cmd

variable {α : Type} {A : Fault → Prop} {f : Flash} {r : Ram}

/-- The slot for which an update is pending. -/
def Attr.pend (a : Attr) : Option Nat := if a.add || a.del then some a.index.toNat else none

/-- The store is in order but for the pending update; under `K` the counter is right too. -/
structure Good' (K : Prop) (f : Flash) (recs : List Dc) (ms : List Meta) (a : Attr) : Prop where
  dc : f.dc = some ⟨recs, some a⟩
  dm : f.dm = some ms
  inv : Inv recs ms a.pend
  count : K → Counted recs a
  one : (a.add && a.del) = false

def Good (K : Prop) (f : Flash) : Prop := ∃ recs ms a, Good' K f recs ms a

/-- No update is pending. -/
def Settled (f : Flash) : Prop := ∃ a, rdAttr f = some a ∧ a.add = false ∧ a.del = false

theorem Good'.recs {K : Prop} {recs : List Dc} {ms : List Meta} {a : Attr} (h : Good' K f recs ms a) : rdRecs f = some recs := by
  unfold rdRecs; rw [h.dc]; rfl
theorem Good'.attr {K : Prop} {recs : List Dc} {ms : List Meta} {a : Attr} (h : Good' K f recs ms a) : rdAttr f = some a := by
  unfold rdAttr; rw [h.dc]; rfl

theorem Good.keep {K : Prop} {f f' : Flash} {r r' : Ram} (h : Good K f) (k : Keep f r f' r') : Good K f' := by
  obtain ⟨recs, ms, a, g⟩ := h
  exact ⟨recs, ms, a, k.1.trans g.dc, k.2.trans g.dm, g.inv, g.count, g.one⟩
theorem Settled.keep {f f' : Flash} {r r' : Ram} (h : Settled f) (k : Keep f r f' r') : Settled f' := by
  obtain ⟨a, h1, h2⟩ := h
  refine ⟨a, ?_, h2⟩
  unfold rdAttr at *
  rw [k.1]
  exact h1

theorem wp_wr {upd : Flash → Option Flash} {e : Err} {f' : Flash} {Q : Unit → Flash → Ram → Prop} {E : Err → Flash → Ram → Prop}
    {X : Flash → Ram → Prop} (h : upd f = some f') (hok : Q () f' r) (hfail : A .fail → E e f r) (hcut : A .cut → X f r) :
    wp A (Cmd.wrOr upd e) Q E X f r := by
  apply wp_wrOr
  · intro g hg
    rw [h] at hg
    cases hg
    exact hok
  · intro hn
    rw [h] at hn
    cases hn
  · exact hfail
  · exact hcut

theorem wp_rd {look : Flash → Option α} {e : Err} {b : α} {Q : α → Flash → Ram → Prop} {E : Err → Flash → Ram → Prop}
    {X : Flash → Ram → Prop} (h : look f = some b) (hok : Q b f r) (hfail : A .fail → E e f r) (hcut : A .cut → X f r) :
    wp A (Cmd.rdOr look e) Q E X f r := by
  apply wp_rdOr
  · intro g hg
    rw [h] at hg
    cases hg
    exact hok
  · intro hn
    rw [h] at hn
    cases hn
  · exact hfail
  · exact hcut

theorem updAttr_eq {recs : List Dc} {oa : Option Attr} (h : f.dc = some ⟨recs, oa⟩) (a : Attr) :
    updAttr a f = some { f with dc := some ⟨recs, some a⟩ } := by
  unfold updAttr; rw [h]; rfl
theorem updRec_eq {recs : List Dc} {oa : Option Attr} (h : f.dc = some ⟨recs, oa⟩) (p : Nat) (d : Dc) :
    updRec p d f = some { f with dc := some ⟨setAt recs p d, oa⟩ } := by
  unfold updRec; rw [h]
theorem updMeta_eq {ms : List Meta} (h : f.dm = some ms) (p : Nat) (m : Meta) :
    updMeta p m f = some { f with dm := some (setAt ms p m) } := by
  unfold updMeta; rw [h]

theorem Good'.good {K : Prop} {recs : List Dc} {ms : List Meta} {a : Attr} (h : Good' K f recs ms a) : Good K f := ⟨recs, ms, a, h⟩

theorem pend_some {a : Attr} (h : (a.add || a.del) = true) : a.pend = some a.index.toNat := by
  unfold Attr.pend
  rw [if_pos h]
theorem pend_none {a : Attr} (h1 : a.add = false) (h2 : a.del = false) : a.pend = none := by
  unfold Attr.pend
  rw [h1, h2]
  rfl

/-- Nothing to recover. -/
theorem wp_consistency_quiet {Q : Unit → Flash → Ram → Prop} {E : Err → Flash → Ram → Prop} {X : Flash → Ram → Prop}
    (h : Settled f) (hQ : Q () f r) (hE : E (.code Code.unhandled) f r) (hX : X f r) : wp A consistency Q E X f r := by
  obtain ⟨a, h1, h2, h3⟩ := h
  unfold consistency
  apply wp_bind
  apply wp_rd h1
  · rw [if_neg (by simp [h2, h3])]
    exact wp_pure hQ
  · intro _; exact hE
  · intro _; exact hX

theorem sub_one_toNat {b : Byte} (h : 0 < b.toNat) : (b - 1).toNat = b.toNat - 1 := by
  have hb : (1 : Byte) ≤ b := by
    rw [UInt8.le_iff_toNat_le]
    exact h
  rw [UInt8.toNat_sub_of_le _ _ hb]
  rfl

theorem not_live_any {recs : List Dc} {p : Nat} (h : ∀ d, ¬ LiveAt recs p d) : (recs[p]?.any (!·.deleted)) = false := by
  cases hd : recs[p]? with
  | none => rfl
  | some d =>
    cases hdd : d.deleted with
    | true => simp [hdd]
    | false => exact absurd ⟨hd, hdd⟩ (h d)

/-- What is stored was stored before, and no update was pending for it. -/
def StoreKept (recs : List Dc) (a : Attr) (f' : Flash) : Prop :=
  ∀ recs' p d, rdRecs f' = some recs' → LiveAt recs' p d → LiveAt recs p d ∧ ((a.add || a.del) = true → a.index.toNat ≠ p)

/-- The recovery of an interrupted update, interrupted again or not. -/
theorem wp_recover {K : Prop} {recs : List Dc} {ms : List Meta} {a : Attr} (g : Good' K f recs ms a)
    (hp : (a.add || a.del) = true) (hA : ¬ A .fail) :
    wp A consistency (fun _ f' _ => (Good K f' ∧ Settled f') ∧ StoreKept recs a f') (fun _ _ _ => False) (fun f' _ => A .cut ∧ Good K f') f r := by
  have hpend := pend_some hp
  have hidx : a.index.toNat < 64 := g.inv.idx _ hpend
  have rest : ∀ {f : Flash} {r : Ram} {recs : List Dc}, Good' K f recs ms a → (∀ d, ¬ LiveAt recs a.index.toNat d) →
      wp A (do
        let k ← Cmd.rdOr (fun f => f.dm.map (·.length)) (.code Code.unhandled)
        if k > 0 && a.index.toNat ≥ 64 then throw (.ub .oob)
        let (m, j) ← scanUp (fun f => f.dm)
          (fun _ m (_ : Option Meta) => if m.slots.getLsbD a.index.toNat then (some m, true) else (none, false)) k 0 none
        match m with
        | some m => Cmd.wrOr (updMeta j { m with slots := m.slots &&& ~~~(BitVec.twoPow 64 a.index.toNat) }) (.code Code.unhandled)
        | none => pure ()
        Cmd.wrOr (updAttr { a with numbers := if a.del then a.numbers - 1 else a.numbers, add := false, del := false })
          (.code Code.unhandled) : M Unit)
        (fun _ f' _ => (Good K f' ∧ Settled f') ∧ rdRecs f' = some recs) (fun _ _ _ => False) (fun f' _ => A .cut ∧ Good K f') f r := by
    intro f r recs g hdead
    have hi : Inv recs ms (some a.index.toNat) := hpend ▸ g.inv
    have fin : ∀ {f : Flash} {r : Ram} {ms : List Meta}, Good' K f recs ms a → (∀ (j : Nat) (m : Meta), ms[j]? = some m → m.slots.getLsbD a.index.toNat = false) →
        wp A (Cmd.wrOr (updAttr { a with numbers := if a.del then a.numbers - 1 else a.numbers, add := false, del := false })
          (.code Code.unhandled) : M Unit) (fun _ f' _ => (Good K f' ∧ Settled f') ∧ rdRecs f' = some recs) (fun _ _ _ => False) (fun f' _ => A .cut ∧ Good K f') f r := by
      intro f r ms g hno
      have hi : Inv recs ms (some a.index.toNat) := hpend ▸ g.inv
      apply wp_wr (updAttr_eq g.dc _)
      · refine ⟨⟨⟨recs, ms, _, rfl, g.dm, hi.finish (fits_none hdead hno), fun k => ?_, rfl⟩, _, rfl, rfl, rfl⟩, rfl⟩
        have hc := g.count k
        unfold Counted at hc ⊢
        rw [if_pos hp] at hc
        have hl := liveCount_erase recs a.index.toNat
        rw [not_live_any hdead] at hl
        simp only [Bool.or_self, Bool.false_eq_true, if_false]
        cases hdel : a.del with
        | false =>
          rw [hdel] at hc
          simp at hc
          simp [hc, hl]
        | true =>
          rw [hdel] at hc
          simp at hc
          rw [if_pos rfl, sub_one_toNat (by omega), hc, hl]
          simp
      · intro h; exact absurd h hA
      · intro hc; exact ⟨hc, g.good⟩
    apply wp_bind
    apply wp_rd (show (fun f : Flash => f.dm.map (·.length)) f = some ms.length by simp [g.dm])
    · wzeta
      rw [if_neg (by simp; intro _; omega)]
      apply wp_bind
      apply wp_scanUp g.dm (fun h => absurd h hA) (fun hc => ⟨hc, g.good⟩) (by omega)
      rw [List.drop_zero]
      rcases foldUp_first (fun m : Meta => m.slots.getLsbD a.index.toNat)
        (fun _ m (_ : Option Meta) => if m.slots.getLsbD a.index.toNat then (some m, true) else (none, false))
        (fun _ _ _ => rfl) ms 0 with ⟨j, m, e, h1, h2, _⟩ | ⟨e, h1⟩
      · rw [e, Nat.zero_add]
        apply wp_bind
        apply wp_wr (updMeta_eq g.dm _ _)
        · exact fin ⟨g.dc, rfl, hpend ▸ hi.clear h1, g.count, g.one⟩ (hi.cleared h1 h2)
        · intro h; exact absurd h hA
        · intro hc; exact ⟨hc, g.good⟩
      · rw [e]
        exact fin g h1
    · intro h; exact absurd h hA
    · intro hc; exact ⟨hc, g.good⟩
  unfold consistency
  apply wp_bind
  apply wp_rd g.attr
  · rw [if_pos hp]
    wzeta
    apply wp_bind
    apply wp_rdF
    · intro _
      by_cases hn : ((rdRecs f).map (·.length)).getD 0 ≥ a.index.toNat + 1
      · rw [if_pos hn]
        rw [g.recs] at hn
        simp at hn
        apply wp_bind
        have hd : recs[a.index.toNat]? = some recs[a.index.toNat] := List.getElem?_eq_getElem (by omega)
        apply wp_rd (show (fun f => (rdRecs f).bind (·[a.index.toNat]?)) f = some recs[a.index.toNat] by
          show (rdRecs f).bind _ = _
          rw [g.recs]
          exact hd)
        · cases hdd : recs[a.index.toNat].deleted with
          | true =>
            simp only [Bool.not_true, Bool.false_eq_true, if_false]
            refine wp_mono (rest g ?_) (fun _ _ _ h => ⟨h.1, fun recs' p d e hl => ?_⟩) (fun _ _ _ h => h) (fun _ _ h => h)
            rotate_left
            · rw [h.2] at e
              cases e
              refine ⟨hl, fun _ hx => ?_⟩
              subst hx
              have := Option.some.inj (hl.1.symm.trans hd)
              have h2 := hl.2
              rw [this, hdd] at h2
              cases h2
            intro d hl
            have := Option.some.inj (hl.1.symm.trans hd)
            have h2 := hl.2
            rw [this, hdd] at h2
            cases h2
          | false =>
            simp only [Bool.not_false, if_true]
            apply wp_bind
            apply wp_wr (updRec_eq g.dc _ _)
            · refine wp_mono (rest (recs := setAt recs a.index.toNat { recs[a.index.toNat] with deleted := true }) ⟨rfl, g.dm, ?_, fun k => ?_, g.one⟩ ?_)
                (fun _ _ _ h => ⟨h.1, fun recs' p d e hl => ?_⟩) (fun _ _ _ h => h) (fun _ _ h => h)
              rotate_right
              · rw [h.2] at e
                cases e
                have h1 := hl.1
                rw [getElem?_setAt (by omega)] at h1
                by_cases hpi : p = a.index.toNat
                · rw [if_pos hpi] at h1
                  have := hl.2
                  rw [← Option.some.inj h1] at this
                  cases this
                · rw [if_neg hpi] at h1
                  exact ⟨⟨h1, hl.2⟩, fun _ hx => hpi hx.symm⟩
              · rw [hpend]
                exact Inv.record (hpend ▸ g.inv) _ (by omega)
              · have hc := g.count k
                unfold Counted at hc ⊢
                rw [if_pos hp] at hc ⊢
                rw [erase_setAt (by omega)]
                exact hc
              · intro d hl
                have h1 := hl.1
                rw [getElem?_setAt (by omega), if_pos rfl] at h1
                have := hl.2
                rw [← Option.some.inj h1] at this
                cases this
            · intro h; exact absurd h hA
            · intro hc; exact ⟨hc, g.good⟩
        · intro h; exact absurd h hA
        · intro hc; exact ⟨hc, g.good⟩
      · rw [if_neg hn]
        rw [g.recs] at hn
        simp at hn
        refine wp_mono (rest g ?_) (fun _ _ _ h => ⟨h.1, fun recs' p d e hl => ?_⟩) (fun _ _ _ h => h) (fun _ _ h => h)
        rotate_left
        · rw [h.2] at e
          cases e
          refine ⟨hl, fun _ hx => ?_⟩
          have h1 := hl.1
          rw [List.getElem?_eq_none (by omega)] at h1
          cases h1
        intro d hl
        have h1 := hl.1
        rw [List.getElem?_eq_none (by omega)] at h1
        cases h1
    · intro h; exact absurd h hA
    · intro hc; exact ⟨hc, g.good⟩
  · intro h; exact absurd h hA
  · intro hc; exact ⟨hc, g.good⟩

/-- The recovery that every command begins with, without storage errors if there is something to recover. -/
theorem wp_consistency {K : Prop} {recs : List Dc} {ms : List Meta} {a : Attr} (g : Good' K f recs ms a) (hA : ¬ Settled f → ¬ A .fail) :
    wp A consistency (fun _ f' _ => (Good K f' ∧ Settled f') ∧ StoreKept recs a f') (fun _ f' _ => Good K f') (fun f' _ => Good K f') f r := by
  by_cases hq : Settled f
  · refine wp_consistency_quiet hq ⟨⟨g.good, hq⟩, fun recs' p d e hl => ?_⟩ g.good g.good
    rw [g.recs] at e
    cases e
    obtain ⟨a', h1, h2, h3⟩ := hq
    rw [g.attr] at h1
    cases h1
    exact ⟨hl, fun h => by rw [h2, h3] at h; cases h⟩
  · refine wp_mono (wp_recover g ?_ (hA hq)) (fun _ _ _ h => h) (fun _ _ _ h => h.elim) (fun _ _ h => h.2)
    cases hp : (a.add || a.del) with
    | true => rfl
    | false =>
      simp at hp
      exact absurd ⟨a, g.attr, hp.1, hp.2⟩ hq

/-! ### Storing a credential -/

theorem add_one_toNat {b : Byte} (h : b.toNat ≤ 64) : (b + 1).toNat = b.toNat + 1 := by
  rw [UInt8.toNat_add]
  show (b.toNat + 1) % 256 = _
  omega

/-- A credential of this relying party and user, for which no update is pending. -/
def Stores (f : Flash) (rp uid : Bytes) : Prop :=
  ∃ recs p d, rdRecs f = some recs ∧ LiveAt recs p d ∧ Cid.rp d.cid = rp ∧ d.user.id = uid

theorem wp_mcStore {K : Prop} {q : McReq} {cid : Bytes} (g : Good K f) (hs : Settled f) (hrp : Cid.rp cid = q.rpHash)
    (hk : K → ¬ Stores f q.rpHash q.user.id) :
    wp A (mcStore q cid) (fun _ f' _ => Good K f' ∧ Settled f') (fun _ f' _ => Good K f') (fun f' _ => Good K f') f r := by
  obtain ⟨recs, ms, a, g⟩ := g
  obtain ⟨a', ha, h1, h2⟩ := hs
  rw [g.attr] at ha
  cases ha
  have hinv : Inv recs ms none := pend_none h1 h2 ▸ g.inv
  unfold mcStore
  apply wp_bind
  apply wp_rd (show (fun f => (rdRecs f).map (·.length)) f = some recs.length by simp [g.recs])
  · apply wp_bind
    apply wp_scanUp g.recs (fun _ => g.good) (fun _ => g.good) (by omega)
    rw [List.drop_zero]
    have hslot := foldUp_slot q.rpHash q.user.id recs 0 none
    generalize foldUp (slotBody q.rpHash q.user.id) recs 0 none = e at hslot
    obtain ⟨fd, p0⟩ := e
    show wp A _ _ _ _ f r
    dsimp only at hslot ⊢
    -- the slot
    have slot : ∀ p, p = (if p0 == recs.length then fd.getD p0 else p0) →
        p ≤ recs.length ∧ (∀ d, LiveAt recs p d → Cid.rp d.cid = q.rpHash ∧ d.user.id = q.user.id) := by
      intro p hp
      rcases hslot with ⟨k, d, e1, e2, e3, e4, e5, e6⟩ | ⟨e1, e2⟩
      · rw [Nat.zero_add] at e1
        cases e1
        rw [if_neg (by simp; omega)] at hp
        subst hp
        refine ⟨by omega, fun d' hd' => ?_⟩
        have := Option.some.inj (hd'.1.symm.trans e3)
        subst this
        exact ⟨e5, e6⟩
      · rw [Nat.zero_add] at e1
        subst e1
        rw [if_pos (by simp)] at hp
        cases hfd : fd with
        | none =>
          rw [hfd] at hp
          have hp' : p = recs.length := hp
          refine ⟨by omega, fun d' hd' => ?_⟩
          have := hd'.1
          rw [List.getElem?_eq_none (by omega)] at this
          cases this
        | some p1 =>
          rw [hfd] at hp e2
          have hp' : p = p1 := hp
          rcases e2 p1 rfl with e3 | ⟨k, d, e3, e4, e5⟩
          · cases e3
          · have hkl : k < recs.length := (List.getElem?_eq_some_iff.mp e4).1
            refine ⟨by omega, fun d' hd' => ?_⟩
            have h5 := hd'.1
            rw [hp', e3, Nat.zero_add, e4] at h5
            have h6 := hd'.2
            rw [← Option.some.inj h5, e5] at h6
            cases h6
    generalize (if p0 == recs.length then fd.getD p0 else p0) = p at slot
    obtain ⟨hple, hlive⟩ := slot p rfl
    apply wp_bind
    apply wp_failIf
    · intro _; exact g.good
    intro hp
    have hp : p < 64 := by simpa using hp
    have hpi : (UInt8.ofNat p).toNat = p := by
      rw [UInt8.toNat_ofNat']
      exact Nat.mod_eq_of_lt (by omega)
    apply wp_bind
    apply wp_rd g.attr
    · apply wp_bind
      apply wp_wr (updAttr_eq g.dc _)
      · -- pending
        have hpd : Attr.pend { a with add := true, index := UInt8.ofNat p } = some p := by
          rw [pend_some rfl]
          show some (UInt8.ofNat p).toNat = _
          rw [hpi]
        have hcount : K → a.numbers.toNat = liveCount (recs.eraseIdx p) := fun k => by
          have hc := g.count k
          unfold Counted at hc
          rw [h1, h2] at hc
          simp at hc
          have hno : ∀ d, ¬ LiveAt recs p d := fun d hd => hk k ⟨recs, p, d, g.recs, hd, hlive d hd⟩
          have hl := liveCount_erase recs p
          rw [not_live_any hno] at hl
          simp at hl
          omega
        have g1 : ∀ {f' : Flash} {recs' : List Dc} {ms' : List Meta}, f'.dc = some ⟨recs', some { a with add := true, index := UInt8.ofNat p }⟩ →
            f'.dm = some ms' → Inv recs' ms' (some p) → recs'.eraseIdx p = recs.eraseIdx p →
            Good' K f' recs' ms' { a with add := true, index := UInt8.ofNat p } := by
          intro f' recs' ms' hdc hdm hi he
          refine ⟨hdc, hdm, hpd ▸ hi, fun k => ?_, by simp [h2]⟩
          unfold Counted
          show a.numbers.toNat = (if true || a.del then liveCount (recs'.eraseIdx (UInt8.ofNat p).toNat) else _) + (if a.del then 1 else 0)
          rw [hpi, he, h2]
          simpa using hcount k
        have ga := g1 (f' := { f with dc := some ⟨recs, some { a with add := true, index := UInt8.ofNat p }⟩ }) rfl g.dm (hinv.begin hp) rfl
        apply wp_bind
        apply wp_wr (updRec_eq ga.dc _ _)
        · have hi2 := (hinv.begin hp).record ⟨cid, q.user, false, q.lbk,
            match q.credBlob with
            | some b => if b.length ≤ 32 then b else []
            | none => []⟩ hple
          revert hi2
          generalize hdd : (⟨cid, q.user, false, q.lbk,
            match q.credBlob with
            | some b => if b.length ≤ 32 then b else []
            | none => []⟩ : Dc) = d
          intro hi2
          have hdc : d.cid = cid := by rw [← hdd]
          have hdel : d.deleted = false := by rw [← hdd]
          have hld : LiveAt (setAt recs p d) p d := ⟨by rw [getElem?_setAt hple, if_pos rfl], hdel⟩
          have hbits : ∀ (k : Nat) (c : Meta), ms[k]? = some c → c.slots.getLsbD p = true → c.hash = Cid.rp d.cid := by
            intro k c hc hb
            obtain ⟨d', hd', hh⟩ := (hinv.fits p nofun).back k c hc hb
            rw [hh, (hlive d' hd').1, hdc, hrp]
          have gb := g1 (f' := { f with dc := some ⟨setAt recs p d, some { a with add := true, index := UInt8.ofNat p }⟩ }) rfl g.dm hi2 (erase_setAt hple)
          have fin : ∀ {f' : Flash} {r : Ram} {ms' : List Meta}, Good' K f' (setAt recs p d) ms' { a with add := true, index := UInt8.ofNat p } →
              Fits (setAt recs p d) ms' p →
              wp A (Cmd.wrOr (updAttr { a with add := false, index := UInt8.ofNat p, numbers := a.numbers + 1 }) (.code Code.unhandled) : M Unit)
                (fun _ f' _ => Good K f' ∧ Settled f') (fun _ f' _ => Good K f') (fun f' _ => Good K f') f' r := by
            intro f' r ms' gc hf
            apply wp_wr (updAttr_eq gc.dc _)
            · refine ⟨⟨_, ms', _, rfl, gc.dm, ?_, fun k => ?_, by simp⟩, _, rfl, rfl, h2⟩
              · have e : Attr.pend { a with add := false, index := UInt8.ofNat p, numbers := a.numbers + 1 } = none := pend_none rfl h2
                rw [e]
                exact (hpd ▸ gc.inv).finish hf
              · unfold Counted
                show (a.numbers + 1).toNat = (if false || a.del then _ else liveCount (setAt recs p d)) + (if a.del then 1 else 0)
                rw [h2]
                have hl := liveCount_erase (setAt recs p d) p
                rw [hld.1, erase_setAt hple, ← hcount k] at hl
                simp [hdel] at hl
                have hle := liveCount_le (setAt recs p d)
                have := hi2.len
                rw [add_one_toNat (by omega)]
                simp
                omega
            · intro _; exact gc.good
            · intro _; exact gc.good
          apply wp_bind
          apply wp_rd (show (fun f : Flash => f.dm.map (·.length)) { f with dc := some ⟨setAt recs p d, some { a with add := true, index := UInt8.ofNat p }⟩ } = some ms.length by
            simp [g.dm])
          · apply wp_bind
            apply wp_scanUp gb.dm (fun _ => gb.good) (fun _ => gb.good) (by omega)
            rw [List.drop_zero]
            rcases foldUp_meta q.rpHash ms 0 none with ⟨j, m, fm, e, e1, e2, e3⟩ | ⟨fm, e, e1, _, e2⟩
            · rw [e, Nat.zero_add]
              have hjl : j < ms.length := (List.getElem?_eq_some_iff.mp e1).1
              show wp A (do
                Cmd.wrOr (updMeta (if j == ms.length then fm.getD j else j) ⟨q.rpHash, q.rpId, m.slots ||| BitVec.twoPow 64 p⟩) (.code Code.unhandled)
                Cmd.wrOr (updAttr { a with add := false, index := UInt8.ofNat p, numbers := a.numbers + 1 }) (.code Code.unhandled) : M Unit) _ _ _ _ _
              rw [if_neg (by simp; omega)]
              obtain ⟨i1, i2⟩ := hi2.addTo (rpId := q.rpId) hbits hld e1 e2 (by rw [e3, hdc, hrp])
              rw [hdc, hrp] at i1 i2
              apply wp_bind
              apply wp_wr (updMeta_eq gb.dm _ _)
              · exact fin (g1 rfl rfl i1 (erase_setAt hple)) i2
              · intro _; exact gb.good
              · intro _; exact gb.good
            · rw [e, Nat.zero_add]
              show wp A (do
                Cmd.wrOr (updMeta (if ms.length == ms.length then fm.getD ms.length else ms.length) ⟨q.rpHash, q.rpId, 0#64 ||| BitVec.twoPow 64 p⟩) (.code Code.unhandled)
                Cmd.wrOr (updAttr { a with add := false, index := UInt8.ofNat p, numbers := a.numbers + 1 }) (.code Code.unhandled) : M Unit) _ _ _ _ _
              rw [if_pos (by simp)]
              have hj : fm.getD ms.length ≤ ms.length ∧ (∀ m, ms[fm.getD ms.length]? = some m → m.slots = 0#64) ∧
                  (∀ (k : Nat) (m : Meta), k < fm.getD ms.length → ms[k]? = some m → m.slots ≠ 0#64) := by
                rcases e2 rfl with ⟨e3, e4⟩ | ⟨k, m, e3, e4, e5, e6⟩
                · rw [e3]
                  refine ⟨Nat.le_refl _, fun m hm => ?_, fun k m _ hm => e4 k m hm⟩
                  rw [show (none : Option Nat).getD ms.length = ms.length from rfl, List.getElem?_eq_none (Nat.le_refl _)] at hm
                  cases hm
                · rw [e3, Nat.zero_add]
                  have hkl : k < ms.length := (List.getElem?_eq_some_iff.mp e4).1
                  refine ⟨by show k ≤ _; omega, fun m' hm => ?_, e6⟩
                  rw [show (some k).getD ms.length = k from rfl, e4] at hm
                  rw [← Option.some.inj hm]
                  exact e5
              obtain ⟨i1, i2⟩ := hi2.addNew (rpId := q.rpId) hbits hld (fun k c hc hz => by rw [hdc, hrp]; exact e1 k c hc hz) hj.1 hj.2.1 hj.2.2
              rw [hdc, hrp] at i1 i2
              apply wp_bind
              apply wp_wr (updMeta_eq gb.dm _ _)
              · exact fin (g1 rfl rfl i1 (erase_setAt hple)) i2
              · intro _; exact gb.good
              · intro _; exact gb.good
          · intro _; exact gb.good
          · intro _; exact gb.good
        · intro _; exact ga.good
        · intro _; exact ga.good
      · intro _; exact g.good
      · intro _; exact g.good
    · intro _; exact g.good
    · intro _; exact g.good
  · intro _; exact g.good
  · intro _; exact g.good

/-! ### Deleting and updating -/

theorem good_mono {m : M α} {K : Prop} {g : Flash} {s : Ram} (h : Rel Keep m) (hg : Good K g) {Q : α → Flash → Ram → Prop}
    (hQ : ∀ a f' r', Keep g s f' r' → Q a f' r') : wp A m Q (fun _ f' _ => Good K f') (fun f' _ => Good K f') g s :=
  wp_mono (h A g s) hQ (fun _ _ _ k => hg.keep k) (fun _ _ k => hg.keep k)

/-- The search for a credential. -/
theorem good_cmFind {K : Prop} {q : CmReq} {n : Byte} {recs : List Dc} {ms : List Meta} {a : Attr} (g : Good' K f recs ms a)
    {Q : Dc × Nat → Flash → Ram → Prop} (hQ : ∀ d p r', LiveAt recs p d → d.cid = q.cid → Q (d, p) f r') :
    wp A (cmFind q n) Q (fun _ f' _ => Good K f') (fun f' _ => Good K f') f r := by
  unfold cmFind
  apply wp_bind
  apply wp_get
  apply wp_bind
  apply wp_failIf
  · intro _; exact g.good
  intro _
  apply wp_bind
  apply wp_failIf
  · intro _; exact g.good
  intro _
  apply wp_bind
  apply wp_rd (show (fun f => (rdRecs f).map (·.length)) f = some recs.length by simp [g.recs])
  · apply wp_bind
    apply wp_scanUp g.recs (fun _ => g.good) (fun _ => g.good) (by omega)
    rw [List.drop_zero]
    rcases foldUp_first (fun d : Dc => !d.deleted && d.cid == q.cid) (cidBody q.cid) (fun _ d _ => by
      unfold cidBody
      cases d.deleted <;> simp) recs 0 with ⟨p, d, e, h1, h2, _⟩ | ⟨e, _⟩
    · rw [e, Nat.zero_add]
      simp at h2
      apply wp_bind
      apply wp_mod
      exact wp_pure (hQ d p _ ⟨h1, h2.1⟩ h2.2)
    · rw [e]
      apply wp_bind
      apply wp_mod
      exact wp_fail g.good
  · intro _; exact g.good
  · intro _; exact g.good

theorem wp_cmUpdate {K : Prop} {q : CmReq} {n : Byte} (g : Good K f) (hs : Settled f) :
    wp A (cmUpdate q n) (fun _ f' _ => Good K f' ∧ Settled f') (fun _ f' _ => Good K f') (fun f' _ => Good K f') f r := by
  obtain ⟨recs, ms, a, g⟩ := g
  obtain ⟨a', ha, h1, h2⟩ := hs
  rw [g.attr] at ha
  cases ha
  have hinv : Inv recs ms none := pend_none h1 h2 ▸ g.inv
  unfold cmUpdate
  apply wp_bind
  apply good_cmFind g
  intro d p r' hd hc
  have hp : p < recs.length := (List.getElem?_eq_some_iff.mp hd.1).1
  show wp A _ _ _ _ f r'
  apply wp_bind
  apply wp_failIf
  · intro _; exact g.good
  intro _
  apply wp_bind
  apply wp_wr (updRec_eq g.dc _ _)
  · refine wp_pure ⟨⟨_, ms, a, rfl, g.dm, ?_, fun k => ?_, g.one⟩, a, rfl, h1, h2⟩
    · rw [pend_none h1 h2]
      exact hinv.user (d' := { d with user := q.user }) hd rfl hd.2
    · have hcn := g.count k
      unfold Counted at hcn ⊢
      rw [h1, h2] at hcn ⊢
      simp at hcn ⊢
      have hl := liveCount_erase recs p
      have hl' := liveCount_erase (setAt recs p { d with user := q.user }) p
      have hdf := hd.2
      rw [erase_setAt (by omega), getElem?_setAt (by omega), if_pos rfl] at hl'
      rw [hd.1] at hl
      rw [Option.any_some] at hl hl'
      dsimp only at hl'
      rw [hdf] at hl
      rw [hl', hdf]
      omega
  · intro _; exact g.good
  · intro _; exact g.good

theorem wp_cmDelete {K : Prop} {q : CmReq} {n : Byte} (g : Good K f) (hs : Settled f) :
    wp A (cmDelete q n) (fun _ f' _ => Good K f' ∧ Settled f') (fun _ f' _ => Good K f') (fun f' _ => Good K f') f r := by
  obtain ⟨recs, ms, a, g⟩ := g
  obtain ⟨a', ha, h1, h2⟩ := hs
  rw [g.attr] at ha
  cases ha
  have hinv : Inv recs ms none := pend_none h1 h2 ▸ g.inv
  unfold cmDelete
  apply wp_bind
  apply good_cmFind g
  intro d p r' hd hc
  have hpl : p < recs.length := (List.getElem?_eq_some_iff.mp hd.1).1
  have hp : p < 64 := by have := hinv.len; omega
  have hpi : (UInt8.ofNat p).toNat = p := by
    rw [UInt8.toNat_ofNat']
    exact Nat.mod_eq_of_lt (by omega)
  show wp A _ _ _ _ f r'
  apply wp_bind
  apply wp_rd g.attr
  · apply wp_bind
    apply wp_wr (updAttr_eq g.dc _)
    · have hpd : Attr.pend { a with index := UInt8.ofNat p, del := true } = some p := by
        rw [pend_some (by simp)]
        show some (UInt8.ofNat p).toNat = _
        rw [hpi]
      have hcount : K → a.numbers.toNat = liveCount (recs.eraseIdx p) + 1 := fun k => by
        have hcn := g.count k
        unfold Counted at hcn
        rw [h1, h2] at hcn
        simp at hcn
        have hl := liveCount_erase recs p
        have hdf := hd.2
        rw [hd.1] at hl
        simp [hdf] at hl
        omega
      have g1 : ∀ {f' : Flash} {recs' : List Dc} {ms' : List Meta}, f'.dc = some ⟨recs', some { a with index := UInt8.ofNat p, del := true }⟩ →
          f'.dm = some ms' → Inv recs' ms' (some p) → recs'.eraseIdx p = recs.eraseIdx p →
          Good' K f' recs' ms' { a with index := UInt8.ofNat p, del := true } := by
        intro f' recs' ms' hdc hdm hi he
        refine ⟨hdc, hdm, hpd ▸ hi, fun k => ?_, by simp [h1]⟩
        unfold Counted
        show a.numbers.toNat = (if a.add || true then liveCount (recs'.eraseIdx (UInt8.ofNat p).toNat) else _) + 1
        rw [hpi, he]
        simpa using hcount k
      have ga := g1 (f' := { f with dc := some ⟨recs, some { a with index := UInt8.ofNat p, del := true }⟩ }) rfl g.dm (hinv.begin hp) rfl
      apply wp_bind
      apply wp_wr (updRec_eq ga.dc _ _)
      · have hi2 := (hinv.begin hp).record { d with deleted := true } (by omega)
        have hdead : ∀ c, ¬ LiveAt (setAt recs p { d with deleted := true }) p c := by
          intro c hl
          have e := hl.1
          rw [getElem?_setAt (by omega), if_pos rfl] at e
          have := hl.2
          rw [← Option.some.inj e] at this
          cases this
        have gb := g1 (f' := { f with dc := some ⟨setAt recs p { d with deleted := true }, some { a with index := UInt8.ofNat p, del := true }⟩ })
          rfl g.dm hi2 (erase_setAt (by omega))
        have fin : ∀ {f' : Flash} {r : Ram} {ms' : List Meta}, Good' K f' (setAt recs p { d with deleted := true }) ms' { a with index := UInt8.ofNat p, del := true } →
            (∀ (j : Nat) (m : Meta), ms'[j]? = some m → m.slots.getLsbD p = false) →
            wp A (do
              Cmd.wrOr (updAttr { a with index := UInt8.ofNat p, numbers := a.numbers - 1, del := false }) (.code Code.unhandled)
              return .empty : M Resp)
              (fun _ f' _ => Good K f' ∧ Settled f') (fun _ f' _ => Good K f') (fun f' _ => Good K f') f' r := by
          intro f' r ms' gc hf
          apply wp_bind
          apply wp_wr (updAttr_eq gc.dc _)
          · refine wp_pure ⟨⟨_, ms', _, rfl, gc.dm, ?_, fun k => ?_, by simp⟩, _, rfl, h1, rfl⟩
            · have e : Attr.pend { a with index := UInt8.ofNat p, numbers := a.numbers - 1, del := false } = none := pend_none h1 rfl
              rw [e]
              exact (hpd ▸ gc.inv).finish (fits_none hdead hf)
            · unfold Counted
              show (a.numbers - 1).toNat = (if a.add || false then _ else liveCount (setAt recs p { d with deleted := true })) + 0
              rw [h1]
              have hl := liveCount_erase (setAt recs p { d with deleted := true }) p
              rw [not_live_any hdead, erase_setAt (by omega)] at hl
              have := hcount k
              rw [sub_one_toNat (by omega), hl]
              simp
              omega
          · intro _; exact gc.good
          · intro _; exact gc.good
        apply wp_bind
        apply wp_rd (show (fun f : Flash => f.dm.map (·.length)) { f with dc := some ⟨setAt recs p { d with deleted := true }, some { a with index := UInt8.ofNat p, del := true }⟩ } = some ms.length by
          simp [g.dm])
        · apply wp_bind
          apply wp_scanUp gb.dm (fun _ => gb.good) (fun _ => gb.good) (by omega)
          rw [List.drop_zero]
          -- the entry that has the bit of the slot
          obtain ⟨j0, m0, k1, k2, k3⟩ := (hinv.fits p nofun).forth d hd
          rcases foldUp_first (fun m : Meta => m.hash == Cid.rp q.cid) (delBody (Cid.rp q.cid)) (fun _ _ _ => rfl) ms 0 with ⟨j, m, e, e1, e2, e3⟩ | ⟨e, e1⟩
          · rw [e, Nat.zero_add]
            have hm : m.hash = Cid.rp q.cid := eq_of_beq e2
            have hjj : j = j0 := by
              rcases Nat.lt_trichotomy j j0 with hlt | heq | hgt
              · exact absurd (by rw [hm, k3, hc]) (hinv.uniq j j0 m m0 hlt e1 k1 (ne_zero_of_bit k2))
              · exact heq
              · have := e3 j0 m0 hgt k1
                rw [k3, hc] at this
                simp at this
            subst hjj
            rw [e1] at k1
            cases k1
            apply wp_bind
            apply wp_wr (updMeta_eq gb.dm _ _)
            · exact fin (g1 rfl rfl (hi2.clear e1) (erase_setAt (by omega))) (hi2.cleared e1 k2)
            · intro _; exact gb.good
            · intro _; exact gb.good
          · have := e1 j0 m0 k1
            rw [k3, hc] at this
            simp at this
        · intro _; exact gb.good
        · intro _; exact gb.good
      · intro _; exact ga.good
      · intro _; exact ga.good
    · intro _; exact g.good
    · intro _; exact g.good
  · intro _; exact g.good
  · intro _; exact g.good

end Verif.Ctap
