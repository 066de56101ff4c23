import Verif.Spec.U2fMsg
import Verif.Base.Calc
/-
C116: U2F messages are what a relying party can decode and verify.
-/
namespace Verif.U2fMsg
open Verif.Spec.U2fMsg

variable {x : Lib}

theorem wr_next {p r d : Bytes} {n : Nat} (hn : p.length = n) (h : d.length ≤ r.length) :
    wrRange (p ++ r) n d = .ok (p ++ d ++ r.drop d.length) := by
  subst hn
  unfold wrRange
  rw [if_pos (by simp; omega)]
  simp [List.drop_append]

theorem wr_full {p r d : Bytes} {n : Nat} (hn : p.length = n) (h : r.length < d.length) :
    wrRange (p ++ r) n d = .error .oob := by
  subst hn
  unfold wrRange
  rw [if_neg (by simp; omega)]

theorem rd_at {p d q : Bytes} {n m : Nat} (hn : p.length = n) (hm : d.length = m) :
    rdRange (p ++ d ++ q) n m = .ok d := by
  rw [rdRange_eq_ok]
  subst hn; subst hm
  simp

theorem signAt_eq (hx : x.Ok) {p r key digest : Bytes} {s : Nat} (hs : p.length = s) (hr : 72 ≤ r.length) :
    ∃ q, q.length + (x.ansi (x.sign key digest)).length = r.length ∧
      signAt x (p ++ r) s key digest = .ok (p ++ x.ansi (x.sign key digest) ++ q, (x.ansi (x.sign key digest)).length) := by
  have h1 := hx.sign key digest
  have h2 := hx.ansi _ h1
  unfold signAt
  generalize x.sign key digest = raw at *
  refine ⟨(raw ++ r.drop raw.length).drop (x.ansi raw).length, by simp; omega, ?_⟩
  rw [wr_next hs (by omega), ok_bind, rd_at hs h1, ok_bind, List.append_assoc, wr_next hs (by simp; omega), ok_bind]
  rfl

theorem signAt_full (hx : x.Ok) {p r key digest : Bytes} {s : Nat} (hs : p.length = s) (hr : r.length < 64) :
    signAt x (p ++ r) s key digest = .error .oob := by
  have h1 := hx.sign key digest
  unfold signAt
  rw [wr_full hs (by omega), error_bind]

theorem send_eq {m q : Bytes} {n : Nat} (hm : m.length = n) (hq : 2 ≤ q.length) :
    send (m ++ q, n) = .ok (m ++ [0x90, 0x00]) := by
  unfold send
  rw [wr_next (d := [0x90, 0x00]) hm hq, ok_bind]
  have := rd_at (p := []) (d := m ++ [0x90, 0x00]) (q := q.drop 2) (n := 0) (m := n + 2) rfl (by simp; omega)
  simpa using this

/-- The head of a registration response. -/
def regHead (pub kh : Bytes) : Bytes := [0x05] ++ ([0x04] ++ pub) ++ [70] ++ kh

theorem regHead_length {pub kh : Bytes} (h : pub.length = 64) (h' : kh.length = 70) : (regHead pub kh).length = 137 := by
  simp [regHead]; omega

/-- `u2f_register` up to the certificate, in a buffer that has room for it. -/
theorem register_head {b chal app pub cert : Bytes} {o : Nat} {kh : Bytes → Bytes} {dev : Option Bytes}
    (hr : Requests b o chal app) (hp : pub.length = 64) (hk : (kh app).length = 70) (hc : cert.length ≤ 1152)
    (hb : 137 ≤ b.length) : ∃ r, r.length + 137 = b.length ∧
    register x b o kh pub cert dev = (do
      let b ← wrRange (regHead pub (kh app) ++ r) 137 cert
      let p ← rdRange b 1 65
      let digest := x.sha ([0x00] ++ app ++ chal ++ kh app ++ p)
      match dev with
      | none => return (b, 67 + khLen + cert.length)
      | some k =>
        let (b, n) ← signAt x b (67 + khLen + cert.length) k digest
        return (b, 67 + khLen + cert.length + n)) := by
  obtain ⟨hc1, hc2, pre, post, e, ho⟩ := hr
  have r1 : rdRange b (o + 32) 32 = .ok app := by
    rw [e]
    exact rd_at (by simp; omega) hc2
  have r2 : rdRange b o 32 = .ok chal := by
    rw [e, List.append_assoc (pre ++ chal)]
    exact rd_at ho hc1
  clear e
  refine ⟨((((b.drop 1).drop 1).drop 64).drop 1).drop 70, by simp; omega, ?_⟩
  unfold register
  rw [r1, ok_bind, ok_bind, r2, ok_bind, List.take_of_length_le hc]
  have w1 : wrRange b 0 [0x05] = .ok ([0x05] ++ b.drop 1) := wr_next (p := []) (r := b) rfl (by simp; omega)
  have w2 : wrRange ([0x05] ++ b.drop 1) 1 [0x04] = .ok ([0x05] ++ [0x04] ++ (b.drop 1).drop 1) :=
    wr_next rfl (by simp; omega)
  have w3 : wrRange ([0x05] ++ [0x04] ++ (b.drop 1).drop 1) 2 pub = .ok ([0x05] ++ [0x04] ++ pub ++ ((b.drop 1).drop 1).drop 64) := by
    rw [← hp]; exact wr_next rfl (by simp; omega)
  have w4 : wrRange ([0x05] ++ [0x04] ++ pub ++ ((b.drop 1).drop 1).drop 64) 66 [UInt8.ofNat khLen] =
      .ok ([0x05] ++ [0x04] ++ pub ++ [70] ++ (((b.drop 1).drop 1).drop 64).drop 1) :=
    wr_next (by simp; omega) (by simp; omega)
  have w5 : wrRange ([0x05] ++ [0x04] ++ pub ++ [70] ++ (((b.drop 1).drop 1).drop 64).drop 1) 67 (kh app) =
      .ok (regHead pub (kh app) ++ ((((b.drop 1).drop 1).drop 64).drop 1).drop 70) := by
    rw [wr_next (by simp; omega) (by simp; omega), hk]
    simp [regHead]
  rw [w1, ok_bind, w2, ok_bind, w3, ok_bind, w4, ok_bind, w5, ok_bind]
  rfl

theorem register_cert {b chal app pub cert : Bytes} {o : Nat} {kh : Bytes → Bytes} {dev : Option Bytes}
    (hr : Requests b o chal app) (hp : pub.length = 64) (hk : (kh app).length = 70) (hc : cert.length ≤ 1152)
    (hb : 137 + cert.length ≤ b.length) : ∃ r, r.length + 137 + cert.length = b.length ∧
    register x b o kh pub cert dev = (match dev with
      | none => .ok (regHead pub (kh app) ++ cert ++ r, 137 + cert.length)
      | some k => do
        let (b, n) ← signAt x (regHead pub (kh app) ++ cert ++ r) (137 + cert.length) k
          (x.sha (signedReg app chal (kh app) ([0x04] ++ pub)))
        return (b, 137 + cert.length + n)) := by
  obtain ⟨r, hl, e⟩ := register_head (x := x) (dev := dev) hr hp hk hc (by omega)
  refine ⟨r.drop cert.length, by simp; omega, ?_⟩
  rw [e, wr_next (regHead_length hp hk) (by omega), ok_bind]
  have rp : rdRange (regHead pub (kh app) ++ cert ++ r.drop cert.length) 1 65 = .ok ([0x04] ++ pub) := by
    have := rd_at (p := [0x05]) (d := [0x04] ++ pub) (q := [70] ++ kh app ++ cert ++ r.drop cert.length) (n := 1) (m := 65)
      rfl (by simp; omega)
    simpa [regHead] using this
  rw [rp, ok_bind]
  cases dev <;> rfl

/-- **C116**, for certificates that leave room for the signature and the status. A registration response, as it is sent, for every place of the request in the buffer: the relying party
finds the public key, the key handle, and the certificate followed by the signature; the signature was made with the
device key over the application and the challenge of the request, the key handle and the public key. -/
theorem C116_register_partial (hx : x.Ok) {b chal app pub cert dev : Bytes} {o : Nat} {kh : Bytes → Bytes}
    (hr : Requests b o chal app) (hp : pub.length = 64) (hk : (kh app).length = 70) (hc : cert.length ≤ 1152)
    (hb : 137 + cert.length + 72 + 2 ≤ b.length) :
    let sig := x.ansi (x.sign dev (x.sha (signedReg app chal (kh app) ([0x04] ++ pub))))
    ∃ m, (register x b o kh pub cert (some dev) >>= send) = .ok (m ++ [0x90, 0x00]) ∧
      splitReg m = some ([0x04] ++ pub, kh app, cert ++ sig) := by
  intro sig
  obtain ⟨r, hl, e⟩ := register_cert (x := x) (dev := some dev) hr hp hk hc (by omega)
  obtain ⟨q, hq, e'⟩ := signAt_eq hx (p := regHead pub (kh app) ++ cert) (r := r) (s := 137 + cert.length) (key := dev)
    (digest := x.sha (signedReg app chal (kh app) ([0x04] ++ pub)))
    (by rw [List.length_append, regHead_length hp hk]) (by omega)
  have hs : sig.length ≤ 72 := hx.ansi _ (hx.sign _ _)
  refine ⟨regHead pub (kh app) ++ cert ++ sig, ?_, ?_⟩
  · rw [e]
    simp only
    rw [e', ok_bind, pure_eq_ok, ok_bind]
    apply send_eq
    · rw [List.length_append, List.length_append, regHead_length hp hk]
    · have : q.length + sig.length = r.length := hq
      omega
  · have e1 : regHead pub (kh app) ++ cert ++ sig = 0x05 :: (([0x04] ++ pub) ++ (70 :: (kh app ++ (cert ++ sig)))) := by
      simp [regHead]
    have hl : ([0x04] ++ pub).length = 65 := by simp; omega
    rw [e1]
    generalize [0x04] ++ pub = pk at *
    simp only [splitReg]
    rw [List.take_left' hl, List.drop_left' hl]
    have h70 : (70 : UInt8).toNat = 70 := rfl
    simp only [h70]
    rw [if_pos ⟨hl, by simp; omega⟩, List.take_left' hk, List.drop_left' hk]

/-- **C116.** Without the device key (its read fails), the response ends with the certificate: there is no signature,
but the status is 9000. -/
theorem C116_no_device_key {b chal app pub cert : Bytes} {o : Nat} {kh : Bytes → Bytes}
    (hr : Requests b o chal app) (hp : pub.length = 64) (hk : (kh app).length = 70) (hc : cert.length ≤ 1152)
    (hb : 137 + cert.length + 2 ≤ b.length) :
    (register x b o kh pub cert none >>= send) = .ok (regHead pub (kh app) ++ cert ++ [0x90, 0x00]) := by
  obtain ⟨r, hl, e⟩ := register_cert (x := x) (dev := none) hr hp hk hc (by omega)
  rw [e]
  exact send_eq (by rw [List.length_append, regHead_length hp hk]) (by omega)

/-- **C116, refuted for large certificates.** The certificate and the signature are written without regard to the size
of the buffer: a certificate that leaves less than 64 bytes makes every registration write past its end. So does a
certificate of 1152 bytes, which is accepted, over every transport (buffers of 1300 and 1340 bytes). -/
theorem C116_refuted_cert (hx : x.Ok) {b chal app pub cert dev : Bytes} {o : Nat} {kh : Bytes → Bytes}
    (hr : Requests b o chal app) (hp : pub.length = 64) (hk : (kh app).length = 70) (hc : cert.length ≤ 1152)
    (hb : 137 ≤ b.length) (hbig : b.length < 137 + cert.length + 64) :
    register x b o kh pub cert (some dev) = .error .oob := by
  by_cases h : 137 + cert.length ≤ b.length
  · obtain ⟨r, hl, e⟩ := register_cert (x := x) (dev := some dev) hr hp hk hc h
    rw [e]
    simp only
    rw [signAt_full hx (by rw [List.length_append, regHead_length hp hk]) (by omega), error_bind]
  · obtain ⟨r, hl, e⟩ := register_head (x := x) (dev := some dev) hr hp hk hc hb
    rw [e, wr_full (regHead_length hp hk) (by omega), error_bind]

theorem be32_value (n : UInt32) : ∃ a b c d, be32 n = [a, b, c, d] ∧
    ((a.toNat * 256 + b.toNat) * 256 + c.toNat) * 256 + d.toNat = n.toNat := by
  refine ⟨_, _, _, _, rfl, ?_⟩
  have := n.toNat_lt
  simp only [UInt8.toNat_ofNat']
  omega

/-- **C116.** An authentication response, as it is sent, for every place of the request in the buffer: user presence,
the counter, and the signature with the key of the credential over the application of the request, user presence, the
counter and the challenge of the request. -/
theorem C116_authenticate (hx : x.Ok) {b chal app key : Bytes} {o : Nat} {ctr : UInt32} (hr : Requests b o chal app)
    (hb : 79 ≤ b.length) :
    let sig := x.ansi (x.sign key (x.sha (signedAuth app 0x01 (be32 ctr) chal)))
    ∃ m, (authenticate x b o ctr key >>= send) = .ok (m ++ [0x90, 0x00]) ∧ splitAuth m = some (0x01, ctr.toNat, sig) := by
  intro sig
  obtain ⟨hc1, hc2, pre, post, e, ho⟩ := hr
  have e0 : b = (pre ++ chal) ++ app ++ post := by rw [e]
  have e1 : b = pre ++ chal ++ (app ++ post) := by rw [e, List.append_assoc (pre ++ chal)]
  have r1 : rdRange b (o + 32) 32 = .ok app := by rw [e0]; exact rd_at (by simp; omega) hc2
  have r2 : rdRange b o 32 = .ok chal := by rw [e1]; exact rd_at ho hc1
  obtain ⟨a1, a2, a3, a4, hbe, hval⟩ := be32_value ctr
  have hd := hx.sha (signedAuth app 0x01 (be32 ctr) chal)
  have hs : sig.length ≤ 72 := hx.ansi _ (hx.sign _ _)
  have hdig : x.sha (app ++ [0x01] ++ be32 ctr ++ chal) = x.sha (signedAuth app 0x01 (be32 ctr) chal) := rfl
  have hsig : sig = x.ansi (x.sign key (x.sha (signedAuth app 0x01 (be32 ctr) chal))) := rfl
  clear_value sig
  generalize x.sha (signedAuth app 0x01 (be32 ctr) chal) = dig at *
  have w1 : wrRange b (o + 32) dig = .ok (pre ++ chal ++ dig ++ post) := by
    rw [e1, wr_next (p := pre ++ chal) (by simp; omega) (by simp; omega), hd, ← hc2, List.drop_left]
  have hbl : b.length = pre.length + 64 + post.length := by rw [e]; simp; omega
  have w2 : wrRange (pre ++ chal ++ dig ++ post) 0 ([0x01] ++ be32 ctr) =
      .ok ([0x01] ++ be32 ctr ++ (pre ++ chal ++ dig ++ post).drop 5) := by
    have := wr_next (p := []) (r := pre ++ chal ++ dig ++ post) (d := [0x01] ++ be32 ctr) (n := 0) rfl
      (by rw [hbe]; simp; omega)
    simpa [hbe] using this
  have hl5 : ([0x01] ++ be32 ctr).length = 5 := by rw [hbe]; rfl
  have r3 : rdRange ([0x01] ++ be32 ctr ++ (pre ++ chal ++ dig ++ post).drop 5) (o + 32) 32 = .ok dig := by
    have e3 : (pre ++ chal ++ dig ++ post).drop 5 = (pre ++ chal).drop 5 ++ dig ++ post := by
      rw [List.append_assoc, List.drop_append_of_le_length (by simp; omega), List.append_assoc]
    rw [e3, List.append_assoc (List.drop 5 (pre ++ chal)), ← List.append_assoc, ← List.append_assoc]
    exact rd_at (by rw [List.length_append, hl5]; simp; omega) hd
  obtain ⟨q, hq, e'⟩ := signAt_eq hx (p := [0x01] ++ be32 ctr) (r := (pre ++ chal ++ dig ++ post).drop 5) (s := 5) (key := key)
    (digest := dig) hl5 (by simp; omega)
  rw [← hsig] at hq e'
  refine ⟨[0x01] ++ be32 ctr ++ sig, ?_, ?_⟩
  · unfold authenticate
    rw [r1, ok_bind, r2, ok_bind]
    simp only [hdig]
    rw [w1, ok_bind, w2, ok_bind, r3, ok_bind, e', ok_bind, pure_eq_ok, ok_bind]
    apply send_eq
    · rw [List.length_append, hl5, Nat.add_comm]
    · simp at hq
      omega
  · rw [hbe]
    simp [splitAuth, hval]

/-! ### Concrete cases -/

namespace Ex

/-- A toy library. -/
def lib : Lib := ⟨fun b => (b.take 32) ++ List.replicate (32 - b.length) 0, fun k d => ((k ++ d) ++ List.replicate 64 0).take 64,
  fun b => [0x30, 68] ++ b⟩

theorem lib_ok : lib.Ok := by
  refine ⟨fun b => ?_, fun k d => ?_, fun b h => ?_⟩
  · simp [lib]; omega
  · simp [lib]; omega
  · simp [lib]; omega

/-- A request as it lies in the buffer of CTAPHID. -/
def req : Bytes := List.replicate 7 0 ++ List.replicate 32 1 ++ List.replicate 32 2 ++ List.replicate 1229 0

example : Requests req 7 (List.replicate 32 1) (List.replicate 32 2) ∧ 137 + 300 + 72 + 2 ≤ req.length :=
  ⟨⟨by simp, by simp, List.replicate 7 0, List.replicate 1229 0, rfl, by simp⟩, by unfold req; simp only [List.length_append, List.length_replicate]; omega⟩

/-- A certificate of 1152 bytes in buffers of 1300 and 1340 bytes. -/
example : (1300 : Nat) < 137 + 1152 + 64 ∧ (1340 : Nat) < 137 + 1152 + 64 := by decide

end Ex

end Verif.U2fMsg
