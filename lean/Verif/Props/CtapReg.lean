import Verif.Lemmas.CtapReg
/-
Registrations are answered as a host expects: property C108.
-/
namespace Verif.Props
open Verif.Ctap Verif.Spec.Reg

/-- C108. A registration request, with storage that works: it is refused exactly for the reasons of the table, with the
status of the table, and then nothing was stored. Otherwise the answer has a new credential of this device for the
request, the counter has gone up by one, and a discoverable credential is stored in its place with all others untouched.
The PIN, its tries and the secrets of the device stay what they were. -/
theorem C108_registration (x : Ext) (hm : ∀ k m, (x.hmac k m).length = 32) (s : St) (i : In) (q : McReq) (d : Facts)
    (hs : Sees s i q d) (hn : i.rndNonce.length = 16) (hp : q.rpHash.length = 32) (hx : ∀ e ∈ q.exclude, e.length = 70)
    (env : Env) (he : ∀ n, env n = .ok) (o : St × Out) (ho : o = step x s (.cbor i (.mc (.ok q))) env) :
    Rest s.flash o.1.flash ∧
    match refusal x d i q with
    | some c => o.2 = .err c ∧ rdRecs o.1.flash = some d.recs
    | none => ∃ cid, Issued x d i q cid ∧ o.2 = .resp (.mc (answer x d q cid)) ∧ o.1.flash.counter = some (d.ctr + 1) ∧
        rdRecs o.1.flash = after d q cid ∧ (after d q cid).isSome = true := by
  subst ho
  refine cbor_wp (P := fun o : St × Out => Rest s.flash o.1.flash ∧
    match refusal x d i q with
    | some c => o.2 = .err c ∧ rdRecs o.1.flash = some d.recs
    | none => ∃ cid, Issued x d i q cid ∧ o.2 = .resp (.mc (answer x d q cid)) ∧ o.1.flash.counter = some (d.ctr + 1) ∧
        rdRecs o.1.flash = after d q cid ∧ (after d q cid).isSome = true) (A := allOk) he
    (ok_makeCredential hm hn hp hx hs) ?_ ?_ ?_ ?_
  · rintro a f r ⟨hR, cid, h1, rfl, h2, h3, h4, h5⟩
    refine ⟨h5, ?_⟩
    rw [hR]
    exact ⟨cid, h1, rfl, h4, h2, h3⟩
  · rintro c f r ⟨c', e, hR, h1, h2⟩
    cases e
    refine ⟨h2, ?_⟩
    rw [hR]
    exact ⟨rfl, h1⟩
  · rintro u f r ⟨c', e, _⟩
    cases e
  · rintro f r h
    exact h.elim

/-- The facts of a state. -/
def factsOf (s : St) (i : In) : Facts where
  pin := decide (rdCert (·.pin) s.flash ≠ some [])
  left := s.ram.consec
  tok := s.ram.tok.observe i.tick
  kh := (rdCert (·.kh) s.flash).getD []
  he := (rdCert (·.he) s.flash).getD []
  ctr := s.flash.counter.getD 0
  recs := (rdRecs s.flash).getD []

/-- C108. The theorem is about the states that histories lead to: after any history of an authenticator without a reset,
with power cuts and storage errors, if no update is pending - as is the case after every command that was answered - and
the PIN and the attestation key can be read. -/
theorem C108_reached (x : Ext) (hm : ∀ k m, (x.hmac k m).length = 32) (s : St) (hs : Unused s.flash)
    (hk : (rdCert (·.kh) s.flash).isSome = true) (hh : (rdCert (·.he) s.flash).isSome = true) (hc : s.flash.counter.isSome = true)
    (ops : List (Op × Env)) (hf : Along x Fair s ops) (t : St) (ht : t = (run x s ops).1) (i : In) (q : McReq)
    (hq : ∃ a, rdAttr t.flash = some a ∧ a.add = false ∧ a.del = false)
    (hpin : (rdCert (·.pin) t.flash).isSome = true) (hkey : (rdCert (·.key) t.flash).isSome = true)
    (ha : q.alg = ES256 ∨ q.alg = EDDSA ∨ (t.ram.sm2.enabled = true ∧ q.alg = t.ram.sm2.algo)) :
    Sees t i q (factsOf t i) := by
  subst ht
  obtain ⟨⟨recs, ms, a, g⟩, _⟩ := good_run (K := False) hm ops s hs.lb hf False.elim hs.good
  obtain ⟨b1, b2, b3, _⟩ := secrets_run ops s hs.lb hf
  have some_get : ∀ {α : Type} {o : Option α} {z : α}, o.isSome = true → o = some (o.getD z) := by
    intro α o z h
    cases o with
    | none => cases h
    | some a => rfl
  refine ⟨?_, rfl, rfl, ?_, ?_, ?_, ?_, ?_, hq, ?_, hkey, ha⟩
  · obtain ⟨p, hp⟩ := Option.isSome_iff_exists.mp hpin
    refine ⟨p, hp, ?_⟩
    unfold factsOf
    rw [hp]
    simp
  · exact some_get (b1 ▸ hk)
  · exact some_get (b2 ▸ hh)
  · exact some_get (b3 hc)
  · rw [g.recs]
    unfold factsOf
    rw [g.recs]
    rfl
  · unfold factsOf
    rw [g.recs]
    exact g.inv.len
  · rw [g.dm]
    rfl

/-- C108. Without user verification (getInfo announces that registrations need none): whether or not a PIN is set, a
request for a credential that is not discoverable, without authentication, with an empty exclude list and no large-blob
key, works when the user touches the device. -/
theorem C108_without_pin (x : Ext) (d : Facts) (i : In) (q : McReq) (ha : q.pinAuth = none) (hu : q.uv ≠ .yes) (hup : q.up ≠ .no)
    (hrk : q.rk ≠ .yes) (hx : q.exclude = []) (hl : q.lbk = false) (hi : i.present) : refusal x d i q = none := by
  have ht : ∀ c, touch i c = none := by
    intro c
    unfold touch
    rcases hi with h | h
    · rw [if_pos h]
    · rw [h]
      split <;> rfl
  have huv : uv d q = false := by unfold uv; rw [ha]; simp
  unfold refusal
  rw [if_neg (by rw [ha]; nofun), if_neg (by rw [ha]; exact fun h => h.1 rfl), if_neg (fun h => hu h.1), if_neg hup,
    if_neg (fun h => hrk h.2.2), if_neg (by rw [huv]; exact fun h => nomatch h.1), if_neg (by rw [huv]; exact fun h => nomatch h.1),
    if_neg (by rintro ⟨e, h, _⟩; rw [hx] at h; cases h), if_neg (by rw [ht]; exact fun h => h.2 rfl),
    if_neg (by rw [hl]; exact fun h => nomatch h.1), if_neg (fun h => hrk h.1)]

/-- C108. A discoverable credential: with a PIN it needs the token, and the token is enough. -/
theorem C108_with_pin (x : Ext) (d : Facts) (i : In) (q : McReq) (hpin : d.pin = true) (hp : q.proto.isSome = true) (hup : q.up ≠ .no)
    (hleft : d.left ≠ 0) (hne : q.pinAuth ≠ some [])
    (ha : Authorized x d.tok permMc q.rpHash q.cdh q.pinAuth (q.proto.getD 0)) (hb : ¬ Barred x d.kh q true) (hi : i.present)
    (hl : q.lbk = true → q.rk = .yes) (hf : full d q = false) : refusal x d i q = none := by
  have ht : ∀ c, touch i c = none := by
    intro c
    unfold touch
    rcases hi with h | h
    · rw [if_pos h]
    · rw [h]
      split <;> rfl
  obtain ⟨a, hpa, _⟩ := ha.mac
  have huv : uv d q = true := by unfold uv; rw [hpa, hpin]; rfl
  unfold refusal
  rw [if_neg hne, if_neg (fun h => by rw [h.2] at hp; cases hp), if_neg (fun h => by rw [hpa] at h; exact nomatch h.2), if_neg hup,
    if_neg (fun h => by rw [hpa] at h; exact nomatch h.2.1), if_neg (fun h => hleft h.2), if_neg (fun h => h.2 ha),
    if_neg (by rw [huv]; exact hb), if_neg (by rw [ht]; exact fun h => h.2 rfl),
    if_neg (fun h => h.2 (hl h.1)), if_neg (fun h => by rw [hf] at h; exact nomatch h.2)]

/-! ### The hypotheses can be met -/

open Verif.Ctap.Toy in
/-- A device from production, a request for a discoverable credential. -/
example : Sees produced (env 20000) (mcReq rpA user1 .yes 1 none) (factsOf produced (env 20000)) := by
  refine ⟨⟨[], by decide +kernel, by decide +kernel⟩, rfl, rfl, by decide +kernel, by decide +kernel, by decide +kernel,
    by decide +kernel, by decide +kernel, ?_, by decide +kernel, by decide +kernel, Or.inl rfl⟩
  exact ⟨⟨0, 0, false, false⟩, by decide +kernel, rfl, rfl⟩

open Verif.Ctap.Toy in
/-- It is not refused. -/
example : refusal ext (factsOf produced (env 20000)) (env 20000) (mcReq rpA user1 .yes 1 none) = none := by
  have hp : (factsOf produced (env 20000)).pin = false := by decide +kernel
  have hr : (factsOf produced (env 20000)).recs = [] := by decide +kernel
  unfold refusal uv full
  rw [hp, hr]
  simp [mcReq, seen, touch, env, Barred]

open Verif.Ctap.Toy in
/-- A second one for the same user takes the place of the first, one for another user comes behind it. -/
example : (rdRecs (run ext produced (histN [(20000, 1, mc rpA user1 .yes 1 none), (20001, 2, mc rpA user1 .yes 1 none),
      (20002, 3, mc rpA user2 .yes 1 none)])).1.flash).map (·.map fun d => (d.user.id, (Cid.nonce d.cid).take 1)) =
    some [([1], [2]), ([2], [3])] := by
  decide +kernel

open Verif.Ctap.Toy in
/-- With a PIN: a discoverable credential needs the token, another one does not. -/
example : (run ext withPin1 (hist [(20001, mc rpA user1 .yes 1 none)])).2 = [.err 0x36] ∧
    uvs withPin1 (hist [(20001, mc rpA user1 .no 1 none)]) = [some false] ∧
    uvs withPin1 (hist [(20001, getToken pin1 1 none), (20002, mc rpA user1 .yes 1 (some (auth cdh)))]) = [none, some true] := by
  decide +kernel

/-- A store that is full for a user, and has room for another whose credential it replaces. -/
example : let c (n : Nat) : Dc := ⟨List.replicate 70 0, ⟨[UInt8.ofNat n], [], []⟩, false, false, []⟩
    let d : Facts := ⟨false, 3, Tok.init, [], [], 0, (List.range 64).map c⟩
    full d (Toy.mcReq (Cid.rp (List.replicate 70 0)) ⟨[100], [], []⟩ .yes 1 none) = true ∧
    full d (Toy.mcReq (Cid.rp (List.replicate 70 0)) ⟨[17], [], []⟩ .yes 1 none) = false := by
  decide +kernel

end Verif.Props
