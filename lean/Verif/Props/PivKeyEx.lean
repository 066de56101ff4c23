import Verif.Props.PivKey
import Verif.Props.PivEx2
/-
Concrete cases for C98, and where the full claim fails.
-/
namespace Verif.Piv.Ex.Keys
open Verif.Piv Verif.Spec.Piv Cmd Verif.KeyFile Verif.Spec.Key Verif.Piv.Ex
open Verif.Key (KeyMat)

/-- Toy cryptography in which everything depends on the private key. -/
def kcr : Crypto where
  priv := fun _ => 32
  pub := fun _ => 64
  sig := fun _ => 64
  imp := fun _ => ⟨fun _ => true, fun _ => true, List.reverse, fun _ => true⟩
  pubOf := fun _ k => List.replicate 64 (k.pri.headD 0)
  swap := List.reverse
  sign := fun _ k d => some (d.map (· + k.pri.headD 0))
  rsaPrivate := fun k d => some (d.map (· + k.p.headD 0))
  ansi := fun _ d => d
  ecdh := fun _ k d => some (d.map (· + k.pri.headD 0))
  tdes := tdes

def xk : Ext := ⟨2, kcr⟩

theorem xkOk : xk.Ok := ⟨by decide, by decide⟩
theorem sizes : PubSizes xk :=
  ⟨fun _ k => by show (List.replicate 64 (k.pri.headD 0)).length = 64; simp, fun d => by show d.reverse.length = _; simp,
   fun _ _ _ => (by decide : 64 ≤ 124), fun _ _ => (by decide : 64 ≤ 512)⟩

def keyA : KeyMat := { zeroMat with pri := [3], e := [0, 1, 0, 1] }

/-- GENERATE in slot 9A with an algorithm and no PIN. -/
def gen (alg : Byte) : In :=
  { inp 0x47 0 0x9A ([0xAC, 6, 0x80, 1, alg] ++ [0xAA, 1, 1]) with gen := fun _ => some keyA }

def adm : List (Op × Env) := good [.boot rnd, challenge, response [2, 3, 4, 5, 6, 7, 8, 9]]

/-- The device after administrative authentication. -/
def s0 : St := (run xk ⟨fresh, none⟩ [] adm).1

def chal (n : Nat) (b : Byte) : Bytes := List.replicate n b

def signWith (alg : Byte) (ch : Bytes) : In :=
  { inp 0x87 alg 0x9A ([0x7C, lo (ch.length + 4), 0x82, 0, 0x81, lo ch.length] ++ ch) with tail := List.replicate 32 9 }

/-- GENERATE of a P-256 key, and a signature. -/
example : (step xk s0 (.apdu (gen 0x11)) Env.good).2 =
      .reply (.resp ([0x7F, 0x49, 67, 0x86, 65, 4] ++ List.replicate 64 3) 0x9000) ∧
    (step xk (step xk s0 (.apdu (gen 0x11)) Env.good).1 (.apdu (signWith 0x11 (chal 32 5))) Env.good).2 =
      .reply (.resp ([0x7C, 34, 0x82, 32] ++ List.replicate 32 8) 0x9000) := by decide +kernel

theorem isGen (alg : Byte) : IsGenerate (gen alg) .k9A alg [.pin 1] :=
  ⟨rfl, rfl, rfl, rfl, (by intro p hp; simp at hp; subst hp; exact ⟨by decide, by decide⟩), 6, rfl⟩

theorem genE (alg : Byte) : ∀ t k, (gen alg).gen t = some k → t.isRsa = true → k.e.length = 4 := by
  intro t k h _
  cases h
  rfl

theorem genOk : (step xk s0 (.apdu (gen 0x11)) Env.good).2 =
    .reply (.resp ([0x7F, 0x49, 67, 0x86, 65, 4] ++ List.replicate 64 3) 0x9000) := by decide +kernel

/-- The theorem about GENERATE applies. -/
example : ∃ k m, HasKey (step xk s0 (.apdu (gen 0x11)) Env.good).1.flash .k9A k m ∧ m.pin = 1 ∧
    PublicKey xk [0x7F, 0x49] m.type k ([0x7F, 0x49, 67, 0x86, 65, 4] ++ List.replicate 64 3) := by
  obtain ⟨r, k, k0, old, m, _, _, _, _, _, _, hp, _, _, hk, _, hpub⟩ :=
    C98_generated sizes s0 (gen 0x11) Env.good .k9A 0x11 [.pin 1] (isGen _) (genE _) _ genOk
  exact ⟨k, m, hk, hp, hpub⟩

/-- After GENERATE, PIN attempts and a power cycle, with a power cut in between, the slot still signs with that key. -/
def between : List (Op × Env) :=
  [(verifyBad, Env.good), (cmd 0xF7 0 0x9A [], Env.good), (.boot rnd, Env.good)]

theorem noRekey : NoRekey .k9A between := by
  intro e he
  simp only [between, List.mem_cons, List.not_mem_nil, or_false] at he
  rcases he with rfl | rfl | rfl
  · exact ⟨by rintro (⟨h | h, _⟩ | h) <;> exact absurd h (by decide), fun _ h => by cases h⟩
  · exact ⟨by rintro (⟨h | h, _⟩ | h) <;> exact absurd h (by decide), fun _ h => by cases h⟩
  · exact ⟨id, fun _ _ _ => cutOk⟩

example : ∃ k t l, PublicKey xk [0x7F, 0x49] t k ([0x7F, 0x49, 67, 0x86, 65, 4] ++ List.replicate 64 3) ∧
    Template (signWith 0x11 (chal 32 5)).c.data l ∧
    ((∃ ch sg, AsksSign l ch ∧ [0x7C, 34, 0x82, 32] ++ List.replicate 32 8 =
          answer t.isRsa (if t.isRsa then xk.cr.sig t else sg.length) sg ∧
          (t.isRsa = true ∨ t.isWei = true ∨ ch.length = xk.cr.priv t → Computes xk t k ch sg)) ∨
       (∃ pt z, AsksEcdh l pt ∧ [0x7C, 34, 0x82, 32] ++ List.replicate 32 8 = answer false (xk.cr.priv t) z ∧
          AgreesOn xk t k pt z)) :=
  C98_public_key_partial sizes s0 (by decide +kernel) (gen 0x11) Env.good .k9A 0x11 [.pin 1] (isGen _) (genE _) _ genOk
    between noRekey (signWith 0x11 (chal 32 5)) Env.good ⟨rfl, rfl⟩ ([0x7C, 34, 0x82, 32] ++ List.replicate 32 8)
    (by decide +kernel)

/-- GET METADATA tells the same public key. -/
example : (step xk (step xk s0 (.apdu (gen 0x11)) Env.good).1 (.apdu (inp 0xF7 0 0x9A [])) Env.good).2 =
    .reply (.resp ([1, 1, 0x11, 2, 2, 1, 1, 3, 1, 1, 4, 67, 0x86, 65, 4] ++ List.replicate 64 3) 0x9000) := by decide +kernel

/-! ### Requests and answers -/

/-- A device with a key in slot 9A. -/
def devWith (t : KTy) (pin touch : Byte) : Flash := (factory rnd none).setKey .k9A (some ⟨keyA, some ⟨t, 1, 1, pin, touch⟩⟩)

def ram0 : Ram := { Ram.init with alg := defaultAlg }

def tpl (ch : Bytes) : List Item := [⟨0x82, [0], []⟩, ⟨0x81, [lo ch.length], ch⟩]

theorem tplOk {ch : Bytes} (h : ch.length < 120) {alg : Byte} : Template (signWith alg ch).c.data (tpl ch) := by
  refine ⟨?_, _, _, LenEnc.one (ch.length + 4) (by omega), ?_, ?_⟩
  · intro t ht
    simp only [tpl, List.mem_cons, List.not_mem_nil, or_false] at ht
    rcases ht with rfl | rfl
    · exact ⟨by decide, .one 0 (by decide)⟩
    · exact ⟨(by decide : (0x81 : Byte) ∈ ([0x80, 0x81, 0x82, 0x85] : List Byte)), .one ch.length (by omega)⟩
  · simp [tpl, Item.enc]
  · simp [tpl, Item.enc, signWith, inp, lo]

theorem tplAsks {ch : Bytes} (h : ch ≠ []) : AsksSign (tpl ch) ch := ⟨rfl, h, rfl, rfl⟩

theorem names11 : ∀ t, Names defaultAlg 0x11 t ↔ t = .secp256r1 := by
  intro t
  unfold Names
  cases t <;> decide

/-- A key that asks for the PIN every time and for touch answers after VERIFY. -/
example : ∃ f1 r1 r2, step xk ⟨devWith .secp256r1 3 2, some ram0⟩ verifyOk Env.good = (⟨f1, some r1⟩, .reply (.resp [] 0x9000)) ∧
    step xk ⟨f1, some r1⟩ (.apdu { signWith 0x11 (chal 20 5) with present := true }) Env.good =
      (⟨f1, some r2⟩, .reply (.resp ([0x7C, 34, 0x82, 32] ++ List.replicate 12 3 ++ List.replicate 20 8) 0x9000)) :=
  ⟨_, C98_answers xkOk (devWith .secp256r1 3 2) ram0 (inp 0x20 0 0x80 [0x31, 0x32, 0x33, 0x34, 0x35, 0x36, 0xFF, 0xFF])
    { signWith 0x11 (chal 20 5) with present := true } Env.good Env.good (fun _ => noOk) (fun _ => noOk) _
    ⟨rfl, rfl, rfl, rfl, rfl, rfl⟩ ⟨_, 3, rfl, rfl, by decide, by decide, by decide⟩ _ 3 rfl rfl .k9A keyA
    ⟨.secp256r1, 1, 1, 3, 2⟩ (tpl (chal 20 5)) _ rfl ⟨rfl, rfl⟩ ⟨rfl, by decide⟩ names11 (tplOk (by decide)) (fun _ => .inr rfl)
    (.inl ⟨chal 20 5, List.replicate 12 3 ++ List.replicate 20 8, tplAsks (by decide),
      ⟨by decide, _, rfl, by decide⟩, .inr (.inl rfl), by decide⟩) (by decide)⟩

/-- Key agreement. -/
def agree : In := inp 0x87 0x11 0x9D ([0x7C, 69, 0x82, 0, 0x85, 65, 4] ++ List.replicate 64 7)

def dev9D : Flash := (factory rnd none).setKey .k9D (some ⟨keyA, some ⟨.secp256r1, 1, 1, 1, 1⟩⟩)

example : ∃ r', step xk ⟨dev9D, some ram0⟩ (.apdu { agree with tail := List.replicate 32 0 }) Env.good = (⟨dev9D, some r'⟩,
    .reply (.resp ([0x7C, 34, 0x82, 32] ++ List.replicate 64 10) 0x9000)) :=
  C98_answers_freely dev9D ram0 { agree with tail := List.replicate 32 0 } Env.good (fun _ => noOk) .k9D keyA
    ⟨.secp256r1, 1, 1, 1, 1⟩ [⟨0x82, [0], []⟩, ⟨0x85, [65], 4 :: List.replicate 64 7⟩] _ rfl rfl ⟨rfl, rfl⟩ ⟨rfl, by decide⟩
    names11
    ⟨by
      intro t ht
      simp only [List.mem_cons, List.not_mem_nil, or_false] at ht
      rcases ht with rfl | rfl
      · exact ⟨by decide, .one 0 (by decide)⟩
      · exact ⟨by decide, .one 65 (by decide)⟩, 69, [69], .one 69 (by decide), by decide, by decide⟩
    (fun h => by rcases h with h | h <;> exact absurd h (by decide))
    (.inr ⟨4 :: List.replicate 64 7, List.replicate 64 10, ⟨rfl, by decide, rfl, rfl, by decide⟩, ⟨4, _, rfl, by decide, by decide⟩,
      by decide⟩) (by decide)

/-- IMPORT of a P-256 key with a touch policy. -/
def imp : In := inp 0xFE 0x11 0x9A ([0x06, 32] ++ List.replicate 32 6 ++ [0xAB, 1, 2])

example : ∃ k m r', k.pri = List.replicate 32 6 ∧ m = ⟨.secp256r1, 2, 1, 1, 2⟩ ∧
    step xk ⟨devWith .rsa2048 1 1, some { ram0 with admin := true }⟩ (.apdu imp) Env.good =
      (⟨{ devWith .rsa2048 1 1 with keys := fun s => if s = .k9A then some ⟨k, some m⟩ else (devWith .rsa2048 1 1).keys s }, some r'⟩,
        .reply (.resp [] 0x9000)) :=
  C98_import_ec (devWith .rsa2048 1 1) { ram0 with admin := true } imp Env.good (fun _ => noOk) .k9A 0x11 .secp256r1 names11 rfl
    (by decide) (List.replicate 32 6) [.touch 2] (by intro p hp; simp at hp; subst hp; exact ⟨by decide, by decide⟩) (by decide)
    (by decide) rfl rfl ⟨rfl, rfl, rfl, rfl, rfl⟩ rfl keyA ⟨.rsa2048, 1, 1, 1, 1⟩ rfl

theorem namesE1 : ∀ t, Names defaultAlg 0xE1 t ↔ t = .x25519 := by
  intro t
  unfold Names
  cases t <;> decide

/-- IMPORT of an X25519 key. -/
def impX : In := inp 0xFE 0xE1 0x9D ([0x08, 32] ++ List.replicate 31 6 ++ [7])

example : ∃ k m r', k.pri = (xk.cr.imp .x25519).swapEndian (List.replicate 31 6 ++ [7]) ∧ m = ⟨.x25519, 2, 1, 1, 1⟩ ∧
    step xk ⟨dev9D, some { ram0 with admin := true }⟩ (.apdu impX) Env.good =
      (⟨{ dev9D with keys := fun s => if s = .k9D then some ⟨k, some m⟩ else dev9D.keys s }, some r'⟩, .reply (.resp [] 0x9000)) :=
  C98_import_curve dev9D { ram0 with admin := true } impX Env.good (fun _ => noOk) .k9D 0xE1 .x25519 namesE1 rfl
    0x08 (.inr (.inr ⟨rfl, rfl⟩)) (List.replicate 31 6 ++ [7]) [] (by simp) (by decide) (by decide) _ rfl rfl rfl
    ⟨rfl, rfl, rfl, rfl, rfl⟩ rfl keyA ⟨.secp256r1, 1, 1, 1, 1⟩ rfl

/-! ### Ed25519 -/

/-- **C98, refuted for Ed25519.** A host that generates an Ed25519 key and has a challenge of 40 bytes signed gets, with
9000, the signature of its first 32 bytes: two challenges that differ only behind them get the same answer, and it is not
what the key makes of either. -/
theorem C98_refuted :
    let s := (step xk s0 (.apdu (gen 0xE0)) Env.good).1
    (step xk s (.apdu (signWith 0xE0 (chal 32 5 ++ chal 8 6))) Env.good).2 =
      (step xk s (.apdu (signWith 0xE0 (chal 32 5 ++ chal 8 7))) Env.good).2 ∧
    ∃ d k m, (step xk s (.apdu (signWith 0xE0 (chal 32 5 ++ chal 8 6))) Env.good).2 = .reply (.resp d 0x9000) ∧
      HasKey s.flash .k9A k m ∧ m.type = .ed25519 ∧
      Template (signWith 0xE0 (chal 32 5 ++ chal 8 6)).c.data (tpl (chal 32 5 ++ chal 8 6)) ∧
      AsksSign (tpl (chal 32 5 ++ chal 8 6)) (chal 32 5 ++ chal 8 6) ∧
      ¬ ∃ sg, Computes xk m.type k (chal 32 5 ++ chal 8 6) sg ∧ d = answer false sg.length sg := by
  refine ⟨by decide +kernel, [0x7C, 34, 0x82, 32] ++ List.replicate 32 8, { keyA with pinPolicy := 1, touchPolicy := 1 },
    ⟨.ed25519, 1, 1, 1, 1⟩, by decide +kernel, ⟨by decide +kernel, by decide⟩, rfl, tplOk (by decide), tplAsks (by decide), ?_⟩
  rintro ⟨sg, h1, h2⟩
  have h1 : some ((chal 32 5 ++ chal 8 6).map (· + 3)) = some sg := h1
  cases h1
  exact absurd h2 (by decide)

/-- A challenge of 16 bytes is not signed either: the signature covers bytes the host did not send as part of it. -/
theorem C98_refuted' :
    let s := (step xk s0 (.apdu (gen 0xE0)) Env.good).1
    (step xk s (.apdu (signWith 0xE0 (chal 16 5))) Env.good).2 =
      .reply (.resp ([0x7C, 34, 0x82, 32] ++ List.replicate 16 8 ++ List.replicate 16 12) 0x9000) := by decide +kernel

end Verif.Piv.Ex.Keys
