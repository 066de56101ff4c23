# Formal model of canokey-core: design

## 1. Approach

The firmware is modelled, function by function, as total computable Lean 4
functions.  Each definition cites the C file and lines it models and says where
it simplifies.  Properties are theorems about these functions, quantified over
all inputs, states, histories, storage failures and crash points they mention.

Layout of `lean/Verif/`:

* `Base/` – byte strings, storage with failure and power-cut injection.
* `Model/*.lean` – the model, one file per C module.
* `Spec/*.lean` – small specifications independent of the model (ISO 7816-4
  encoder, finite map, host-side reassembly, ...), where a property needs one.
* `Lemmas/*.lean` – helper lemmas.
* `Props/*.lean` – the property theorems (named `Cnn_...`), each followed by an
  `example` showing that its hypotheses are met by a concrete case.

Conventions

* C bytes are `UInt8`; buffers are `List UInt8` plus an explicit capacity.
  An access outside a buffer is not assumed away: it is a distinct outcome
  (`oob`), so "memory safe" is a provable or refutable statement.
* Persistent writes go through a storage monad in which the environment decides,
  for every write, whether it succeeds, fails (negative return code), or whether
  power is cut before it.  Quantifying over the environment quantifies over
  every failure pattern and crash point.  A single `write_attr`/`write_file`
  call is atomic (this is littlefs's contract and is trusted).
* External code (crypto, littlefs, tinycbor, touch hardware, clock) is a
  parameter or an input of the operation.
* Where the code violates a property, the negation is proved with a concrete
  witness, and the largest true part is proved as a `..._partial` theorem.

## 2. Per-property plan

| id | modelled | proof |
|----|----------|-------|
| C01-C04 | `src/pin.c` over the storage monad | invariant over op lists; case analysis of every crash point |
| C05 | `build_capdu` | round trip against an ISO 7816-4 encoder; bounds via partial reads |
| C06, C07 | `apdu_input` | induction over the block list; invariant `lc <= cap`; witness for the dropped block |
| C08, C09 | `apdu_output`, GET RESPONSE part of `process_apdu` | induction over chunk schedule; witness |
| C10 | `process_apdu` dispatch with abstract applets | case analysis, induction over command history |
| C11 | `acquire/release_apdu_buffer` | invariant over interleavings |
| C12 | `tlv_get_length_safe` | round trip, bounds |
| C13, C14 | `ck_parse_piv(_policies)`, `ck_parse_openpgp`, template walk of `openpgp_import_key` | in-bounds by case analysis; witnesses |
| C15-C20, C22 | `oath.c` | slot list invariant, refinement to a finite map, monotone counters, paging by induction |
| C21, C23 | `pass.c` | non-interference; witness |
| C24 | `kbdhid.c` | simulation of the typing automaton over any schedule |
| C25, C26 | `ndef.c` | refinement to a byte array |
| C27-C29 | `admin.c` | case analysis and invariants over histories |
| C30-C34 | `piv.c` authentication, policy, object store | invariants over histories |
| C35-C40 | `openpgp.c` authentication, policy, counters, life cycle | invariants over histories |
| C41 | `device.c` presence loop over an event schedule | induction over the schedule |
| C42-C45 | `ctaphid.c` frame machine with explicit out-of-bounds outcome | round trip, invariant, witnesses |
| C46, C47, C70 | `ccid.c` packet machine with other interfaces taking the buffer | induction over packets, invariant over every interleaving, witnesses |
| C48, C49 | `nfc.c` block machine | induction over blocks, witness |
| C50 | `webusb.c` | invariant over interleavings |
| C51-C55, C74 | `ctap_client_pin`, token functions of `secret.c` (`Model/Ctap`, `Model/CtapCmd`) | weakest preconditions at every crash point, invariants over histories, witnesses |
| C56, C57, C61 | resident credential store of `ctap.c` | invariant over histories and crash points (also in the recovery itself), witnesses |
| C58-C60, C64, C75 | `ctap_make_credential`, `ctap_get_assertion`, `secret.c`, `u2f.c` | weakest preconditions of each command, ghost history of created ids |
| C62 | `ctap_large_blobs` | invariant over fragments and crash points |
| C65, C72 | `ctap_reset_data`, `ctap_install` | case analysis of crash points, witnesses |
| C63, C66, C76, C77 | `ctap-parser.c` over a CBOR tree (`Model/CtapParse`) | a Hoare logic for parsers with an out-of-bounds outcome, induction over the entries, witnesses |
| C78 | `CTAPHID_Loop` while waiting (`Model/Hid`) | case analysis of one packet, induction over what happens during the wait |
| C79 | `nfc.c` with its interrupts (`Model/Nfc`) | a balance of frames heard and sent, kept by every operation |
| C80, C81, C82 | `usbd_core.c`, `usbd_ctlreq.c`, `usbd_ioreq.c`, `usbd_desc.c` (`Model/Usb`) | invariant of a transfer over any interleaving; the composed descriptor equals a concatenation; witnesses |
| C83, C84, C85 | the same with the classes' control requests and bus events | invariants over histories, simulation of the chapter 9 machine, witnesses |
| C67, C68 | `Model/Key.lean`, host-side encodings in `Spec/Key.lean` | round trip |
| C69 | `openpgp_sign_or_auth`, `openpgp_decipher` | weakest preconditions, case analysis |
| C71, C73 | `ctap_get_assertion`, `ctap_credential_management` | invariants over histories, witnesses |
| C86, C87 | the FIDO commands over histories | an invariant that ties one credential to one slot through updates, recoveries and power cuts, and a liveness proof of getAssertion from it; witness for U2F |
| C88 | the exclude list of `ctap_make_credential` | weakest precondition with the error codes, induction over the list |
| C89 | the enumerations of `ctap_credential_management` | the store invariant of C56 makes the bits of a relying party's entry the slots of its credentials; invariant of the enumeration in RAM, induction over the commands for the next entry |
| C90 | what the commands of `ctap.c` write with the CBOR encoder (`Model/CtapEnc`), and a decoder of RFC 8949 in `Spec/Cbor` | each call of the encoder, each closed group of calls gives a piece that decodes to its value and has bounded length; an invariant of the sizes in the store over histories; witnesses |
| C91 | PIN commands, PUT DATA and installation of `openpgp.c` over `pin.c` | effects of every command on the stored PINs, invariant of their sizes over histories; witness |
| C92 | the whole card (`Model/Card`): dispatcher, all applets on their parts of flash and RAM, boot and reader power | a trace of the operations that each applet performs in one step of the card, and a simulation over histories: the log of the card splits into the log of each applet alone |
| C93 | the same, with the policies of C31, C35 and C36 | the theorems about the applets alone carried over the simulation of C92; who is the current applet |
| C94 | the same, with the admin applet on the whole flash | what one operation of the card is for the admin applet, invariant over histories |
| C95 | the installations of all applets behind the admin commands | success postcondition of every installation, composed over the card; witness for FIDO |
| C96 | GET DATA and PUT DATA of OpenPGP | invariant on sizes and on the files of an active applet over all histories, effect of every operation on every object, and a separate BER-TLV decoder in `Spec/PgpData.lean` applied to the responses |
| C97 | the state machine of the three certificates | relation between the log and the state machine as an invariant of all operations; contents as a function of the log; witnesses for the stale number |
| C98 | PIV slots: templates, signatures, key agreement, GENERATE, IMPORT, GET METADATA | relation between template and parse result in both directions; weakest preconditions of each command over all faults; key of a slot as an invariant of histories; witness for Ed25519 |
| C99 | OATH SET CODE, VALIDATE, SELECT and the session | relation of each operation to code, challenge and open flag, over all faults; the host computes code and challenge from the log by induction; witness for a replay on the applet and on the whole card |
| C100 | `src/fs.c` over a model of the littlefs calls it makes | weakest preconditions over all faults; effect of each call by byte position; equivalence with one step of `Verif.Base.Storage`; induction over histories |
| C101 | the PIN commands of the PIV applet (`Model/Piv.lean` over `Model/Pin.lean`) | refinement: every step of a history, with power cuts, is a step of a five-variable machine (`Spec/PivSecret.lean`) with the same status word; induction over histories |
| C102 | the PIN commands, TERMINATE, ACTIVATE and GET DATA C4 of the OpenPGP applet (`Model/Pgp.lean` over `Model/Pin.lean`) | refinement of the machine in `Spec/PgpSecret.lean`, as for C101; the other commands by two walks (flash, variables) over their code; the two deviations (lengths modulo 256, an uninitialised counter) as witnesses |
| C103 | `u2f_register`, `u2f_authenticate` and getAssertion with a U2F key handle (`Model/CtapCmd.lean`) | the handle authenticates under the device secret, which every step without a reset keeps (`secret_step`); each answer of AUTHENTICATE by walking its code; the CTAP2 part from C86 |
| C104 | the hmac-secret extension, its stored request for getNextAssertion, and the large-blob keys of four commands (`Model/CtapCmd.lean`) | weakest preconditions of `gaHmac` and of the callers give the answer in terms of `Spec/CtapHmac.lean`; stability from `secret_step`; getNextAssertion by an invariant over the history |
| C105 | the whole admin applet over abstract other applets (`Model/Admin.lean`) | `Spec/AdminMach.lean` is a machine of eight fields; every command refines it (weakest preconditions per command), then induction over histories with power cuts. Partial: false for data longer than 255 bytes (`C105_refuted`) |
| C106 | `oath_calculate_all` and SEND REMAINING (`Model/Oath.lean`) | a host loop `gatherAll` in `Spec/OathAll.lean`; each page is a span of the record list, the refusal is the only other outcome without faults; induction over the pages |
| C107 | `ctap_client_pin`, `ctap_install`, `ctap_reset_data`, the PIN attributes (`Model/Ctap.lean`, `Model/CtapCmd.lean`) | a machine of PIN digest, tries on flash, tries until power-up and key-agreement number (`Spec/CtapPinMach.lean`); each subcommand is shown to end as the machine says or, when cut, in one of its torn states; trace refinement by induction over the history |
| C108 | `ctap_make_credential`, `ctap_make_auth_data` (`Model/CtapCmd.lean`) | a decision table (`refusal`), the answer, and a function on the list of credentials (`place`) in `Spec/CtapReg.lean`, without reference to the commands of the model; each part of the command is shown to go the way of the table when no file-system call fails; states of histories meet the hypotheses (`C108_reached`) |
| C109 | `ctap_get_assertion` (`Model/CtapCmd.lean`) | a decision table, the credential that is used as a function of the stored list (`Spec/CtapLogin.lean`), and the answer; non-interference of protected credentials follows; an invariant over histories says that all stored credentials are the device's own |
| C110 | `ctap_credential_management`, subcommands 1, 6 and 7 (`Model/CtapCmd.lean`) | a decision table and a change of the list of credentials (`Spec/CtapManage.lean`), exact over all settled states with a right count; the state after an answer is such a state again |
| C111 | `ctap_large_blobs` (`Model/CtapCmd.lean`) in every history with all other CTAP, U2F and admin operations | a machine with an array and an upload (`Spec/CtapBlobMach.lean`); a simulation between it and the files and session variables, by induction over the history |
| C112 | `pass.c` with `oath_set_default`, `oath_delete`, `oath_calculate_by_offset` (`Model/Oath.lean`) in every history with all other OATH commands | a machine with two slots, saved and in use (`Spec/Touch.lean`); a simulation between it and the file and the variables, by induction over the history; a frame lemma for all other commands |
| C113 | `oath_put`, `oath_delete`, `oath_rename`, `oath_set_default`, `oath_calculate` and the dispatcher (`Model/Oath.lean`) | a table over the store as a map (`Spec/OathTable.lean`), arguments read field by field with the status of each refusal; the result of every parser is computed for all data, then each command by its weakest precondition; that the file stays, by a frame lemma over all commands |
| C114 | `ndef.c` (`Model/Ndef.lean`) | a deterministic machine with four components (`Spec/NdefTag.lean`); simulation of every operation by its weakest precondition, with the exact status of each refusal, then induction over histories |
| C115 | `piv_general_authenticate` and the frame of all other commands (`Model/Piv.lean`) | a machine with what is pending and the rights (`Spec/PivHand.lean`); the weakest precondition of each request for every template, the frame of the other commands from their effects, then induction over histories |
| C116 | `u2f_register` and `u2f_authenticate` in the shared buffer (`Model/U2fMsg.lean`) | the order of reads and writes on one buffer with the request at any offset; the message is split as a relying party does (`Spec/U2fMsg.lean`) |
| C117 | the light and `device_allow_kbd_touch` of `src/device.c` (`Model/Led.lean`) | a lamp with unbounded time and a count of changes (`Spec/Led.lean`); refinement by induction over histories; witnesses for the start of the clock |
| C118 | `fm11nt_read`, `fm11nt_write` and `fm_crc8` (`Model/Fm.lean`) | the bus and a chip behind it as a machine that notices illegal events and may refuse any byte (`Spec/Fm.lean`); induction over the bytes and over histories; each round of the checksum has an inverse |
| C119 | `usbd_ccid.c` and the timer of `ccid.c` (`Model/CcidPipe.lean`) | a host that puts packets together (`Spec/CcidPipe.lean`); an invariant over histories in which the host may take packets at every moment |
| C120 | `USBD_CTAPHID_SendReport` and `USBD_CTAPHID_DataIn` (`Model/HidPipe.lean`) | what arrives is a subsequence of the packets; the numbers of the packets leave only the whole message (decoder of `Spec/Hid.lean`); induction over the packets |
| C121 | `admin_flash_usage`, `get_fs_size`, `get_fs_usage` (`Model/FlashUse.lean`), with the C conversions; the result of `lfs_fs_size` is an input | arithmetic without bounds on the geometry; refuted from 256 KiB on and for errors |
| C122 | the functions of `fm.c` for FM11NC, and `fm11_init` (`Model/FmSpi.lean`), over any platform functions | the chip as a machine on the wires (`Spec/FmSpi.lean`; its command format is an assumption); every call refines an operation on the contents; induction over the history |
| C123 | `fm11_init` for FM11NT (`Model/FmNt.lean`), on the functions of C118 | the chip of `Spec/Fm.lean` with a memory (`Spec/FmNt.lean`); from C118 for each access; refuted for a chip that refuses a byte |

## 3. Trusted base

* Lean's kernel; the axioms `propext`, `Classical.choice`, `Quot.sound`
  (checked with `#print axioms`).
* The reading of the C code: each definition cites what it models.
* littlefs: each write call is atomic and durable when it returns; reads return
  what was last written.
* Cryptographic primitives are uninterpreted parameters.
* `memcmp_s` returns zero exactly when the two buffers are equal.

## 4. What is modelled and what is not

Every theorem listed in `MANIFEST.json` depends on no axiom besides `propext`,
`Classical.choice` and `Quot.sound`.

| source | model | not modelled |
|--------|-------|--------------|
| `src/fs.c` | `Model/Fs.lean`, with the calls of littlefs below it | littlefs itself (empty submodule): working copy of an open file, one commit at close, creation as a commit of its own, flag of a failed write; formatting, mounting, usage statistics |
| `src/pin.c` | `Model/Pin.lean`, all functions | timing |
| `src/apdu.c` | `Model/Apdu.lean`: `build_capdu`, `apdu_input`, `apdu_output`, `process_apdu`, buffer ownership | debug output; applets are parameters of the dispatcher |
| `src/applets.c`, and `src/apdu.c` with the applets in place | `Model/Card.lean`: SELECT and dispatch to the applets of the models below, `applets_install`, `applets_poweroff`, CTAPHID and keyboard beside the dispatcher, `ctap_process_apdu` | the applets are called one command at a time; transports below the APDU and the arbitration between them are separate models |
| `src/key.c` | `Model/Key.lean`: TLV length, PIV and OpenPGP import parsers, key files, encoders of public keys | the arithmetic of the algorithms (`canokey-crypto` is an empty submodule) |
| `applets/oath/oath.c` | `Model/Oath.lean` | HMAC is a parameter |
| `applets/pass/pass.c` | `Model/Oath.lean` | YubiKey HMAC challenge is a parameter |
| `interfaces/USB/class/kbdhid/kbdhid.c` | `Model/Kbd.lean` | USB stack below the report |
| `applets/ndef/ndef.c` | `Model/Ndef.lean` | |
| `applets/admin/admin.c` | `Model/Admin.lean` | vendor version strings, flash statistics |
| `applets/piv/piv.c` | `Model/Piv.lean` | algorithm extension table contents, key arithmetic |
| `applets/openpgp/openpgp.c` | `Model/Pgp.lean` | key arithmetic |
| `src/device.c` | `Model/Device.lean`: user presence; `Model/Led.lean`: light and touches for the keyboard | interrupts between the machine instructions of a statement of the light; sensor calibration; the expiry of a touch is platform code (hypothesis `Prompt`) |
| `interfaces/USB/class/ctaphid/ctaphid.c` | `Model/Hid.lean` | the USB stack: frames may arrive around every transmission; the CTAP layer is a parameter |
| `interfaces/USB/class/ccid/ccid.c` | `Model/Ccid.lean` | time extensions and `usbd_ccid.c` (see `Model/CcidPipe.lean`), the USB stack; packets may arrive at four points of the main loop |
| `interfaces/USB/class/webusb/webusb.c` | `Model/WebUsb.lean` | the USB stack, of which only the stages of a control transfer are modelled |
| `interfaces/USB/core/*.c`, `usbd_desc.c`, `usbd_canokey.c`, control requests of the classes | `Model/Usb.lean` | the driver of the USB peripheral: a packet is put into a FIFO and taken by the host, a received packet is stored where the last `PrepareReceive` said; opening and closing of endpoints, the address register |
| `interfaces/NFC/nfc.c` | `Model/Nfc.lean` | the reset of the chip; interrupts happen while a command is executed and while a frame waits to be sent |
| `interfaces/NFC/fm.c` | `Model/Fm.lean`: the functions for FM11NT, checksum; `Model/FmSpi.lean`: the functions for FM11NC, its `fm11_init`; `Model/FmNt.lean`: `fm11_init` for FM11NT | the functions of the platform that drive the pins, pauses |
| `applets/ctap/ctap.c`, `secret.c`, `u2f.c` | `Model/Ctap.lean` (files, tokens, credential ids, consistency check), `Model/CtapCmd.lean` (commands, boot, reset) | the encoding of responses in these two files: a response is the data it carries (for the encoding see `Model/CtapEnc.lean` and `Model/U2fMsg.lean`); ECDSA, EdDSA, SM2, AES, HMAC and SHA are parameters |
| `applets/ctap/ctap-parser.c` | `Model/CtapParse.lean` | the decoding of bytes to CBOR items (tinycbor is an empty submodule): the input is a tree in which any place may be malformed |
| the encoding in `applets/ctap/ctap.c` | `Model/CtapEnc.lean` | tinycbor's encoder is modelled from its documentation: shortest heads, refusal (error 0x12) of what does not fit or does not match the declared count; error returns of `cbor_encode_*` that the code checks with `CHECK_CBOR_RET` |

`write_file` on a file that does not exist is two commits in littlefs (create, then
write); the applet models take it as one. On files that exist, that one call is one atomic
step is a theorem about `src/fs.c` (C100).  The submodules `canokey-crypto`, `littlefs` and
`tinycbor` are empty in `/repo`: what they do is an assumption or a parameter.

## 5. Disagreements between the code and the properties, and other findings

Where a property is false of the code, its negation is a theorem with a concrete
witness and the true part is a `_partial` theorem.  The findings below come from
modelling; those with a theorem name it.

File functions (`src/fs.c`)
* `write_file` with truncation and a position out of range is refused, but `lfs_file_close` on the error path commits that
  the file was emptied (`C100_range_witness`); no caller uses such positions. Creating a file is a commit of its own, so
  that a cut leaves an empty file (`C100_create_witness`).

PIN store (`src/pin.c`)
* A power cut in `pin_create` between the file and the attributes leaves a PIN
  that can never be verified (C04).
* Callers pass the 16-bit command length as an 8-bit PIN length.

APDU layer (`src/apdu.c`)
* The chaining buffer is shared; an overflow leaves the chain open (C07); a stale
  response stays readable after selecting OATH (C09); `EXCEPT` does not clear `LL`.

Key import (`src/key.c`)
* The PIV policy parser reads one byte past its input (C13); the OpenPGP import
  parser trusts inner lengths (C14).

OATH and PASS
* The challenge of the OATH access code is neither used up by VALIDATE nor cleared by `oath_poweroff`, and the card stays
  on the selected applet when it is powered off over CCID: a recorded VALIDATE opens the next session without SELECT
  (`C99_refuted`, `C99_refuted_card`). Before the first SELECT the challenge is eight zero bytes.
* The result of writing back an HOTP counter is ignored; `pass_delete_oath` clears
  only the first slot pointing at the deleted record (C21); an install with a
  failing size query wipes the store; SELECT does not revoke validation.

Keyboard
* An eject request while typing leaves the current key pressed; unmapped
  characters are typed as key code 0.

NDEF
* A power cut in reset leaves a 19-byte file; a failing read of the capability
  container at boot unlocks writing; a failing toggle changes memory only.

Admin
* READ CONFIG checks `LE < 5` but answers 6 bytes; VERIFY with the right PIN and a
  storage error answers 6900 although the session is validated; the factory reset
  passes when the retry counter cannot be read; a touch that happened before the
  five-touch test counts as its first; a cut while writing the serial number
  leaves it blank for ever.

PIV
* A challenge request whose random/tdes step fails leaves the session waiting for
  the all-zero challenge.
* GENERAL AUTHENTICATE case 1 can move up to a private-key length past the position
  of the challenge, beyond the 1340-byte buffer.
* RESET and power-off do not clear the challenge context; the challenge given under
  the old management key stays answerable.
* A power cut between key file and metadata puts a new key under the old policy
  (C34 is partial for this reason); a cut in the reset leaves a half-reset applet.
* RESET RETRY COUNTER does not update the default-PIN flag; `get_metadata` tests
  the wrong variable.
* GENERAL AUTHENTICATE signs with Ed25519 exactly 32 bytes at the position of the challenge, whatever its
  length (`piv.c:592-660`): longer challenges are cut, shorter ones are completed with
  bytes behind them (`C98_refuted`). The first byte of a point given for key agreement is
  not looked at. If reading the algorithm configuration fails while switching on, the
  applet is installed anew and all keys are lost.

OpenPGP
* `openpgp_poweroff` does not reset `current_occurrence`, and a refused PUT DATA leaves it: after SELECT DATA and a
  deselection, or a write without PW3, the next write, meant for the first certificate, replaces the one that was selected
  before (`C97_refuted`, `C97_refuted_refused`).
* PUT DATA of the user interaction flag of the authentication key does not check the length: without data, a byte of an
  earlier command is taken. Algorithm attributes that do not begin with 1 but go on like those of RSA set an RSA key.
* CHANGE REFERENCE DATA and RESET RETRY COUNTER do not stop when `pin_verify` answers that
  the length is invalid. If `pin_get_size` fails, it returns -1, the length is invalid, the
  retry counter was not set, and the byte in front of the data and the data become the new
  PIN: PW1 or PW3 is replaced by someone who knows neither (`C91_read_error_refuted`).
* The length of the data of VERIFY, CHANGE REFERENCE DATA and RESET RETRY COUNTER goes to `pin.c` as a `uint8_t`: 262
  bytes that begin with PW1 are accepted as PW1 (`C102_refuted_length`). The counter that `pin_verify` does not set when the
  length is invalid is looked at before the length: too short a command is answered 6983 or 6700, depending on what is on
  the stack (`C102_refuted_stack`).
* GENERATE ASYMMETRIC KEY PAIR does not check PW3 at all (`C37_generate_refuted`).
* A storage error after signing answers 6900 together with the signature, without
  counting it.
* CHANGE REFERENCE DATA and RESET RETRY COUNTER use an unspecified retry counter
  when the PIN length cannot be read, and can then set the PIN unauthenticated.
* A power cut at first start leaves every command answering 6900
  (`C40_first_start_witness`); a failing size query at boot reinstalls the applet
  (`C38_boot_error_witness`).
* The signature counter wraps modulo 2^24.

User presence (`src/device.c`)
* A touch registered before the wait is accepted; how long it stays valid is up to
  the platform.  A nested wait ends at once with a timeout.

CTAPHID
* An INIT command announcing more than 1300 bytes is refused, but its length
  replaces that of the pending message, whose next packets are then stored behind
  the buffer (`C44_refuted`).
* The length of a MSG is read from the buffer, whatever the length of the message;
  the CTAP layer is told of up to 65535 bytes of data (`C44_refuted_msg`).
* Received and sent packets share one variable.  A packet that arrives while a
  response is being sent changes the channel of the rest of the response and is
  lost (`C43_refuted`); a timeout report replaces a packet that has just arrived,
  and is then taken for a command (`C42_timeout_swallows`).
* While waiting for the user, a refused command on the waiting channel releases
  the channel; a packet of another channel then gets the response
  (`C45_refuted`).
* An INIT with fewer than 8 bytes is answered with stale bytes as its nonce.

CCID
* The announced length of an XfrBlock is not compared with the buffer
  (`C47_refuted`).
* The header of the last packet is used without protection: a command that arrives
  while the previous one is being decoded leads to an over-read
  (`C47_refuted_race`), one that arrives while the response is being sent is
  written into a buffer that another interface may own by then (`C70_refuted`).
* The response to a command for a slot that does not exist contains the previous
  response (`C46_stale_response`).
* Unsupported commands are answered with the status byte of the previous command.
* If a response cannot be queued (busy endpoint), the buffer is never released.

NFC
* The data of an I-block is copied before its length is checked (`C49_refuted`), and a
  block of one or two bytes gives a negative length (`C49_refuted_short`).
* The error handler resets the size of the response to 0 but not the number of bytes
  sent. A reader that acknowledges the last block of a response (an error), and goes on
  acknowledging, reads 29 bytes per block from behind the response: first stale data
  (`C49_stale`), then up to 64 KiB of memory behind the buffer (`C49_refuted_read`).
  No authentication is involved.
* R(NAK) for a lost acknowledgement of a command block is answered with an I-block
  (`C48_refuted`).
* After a reception error during the execution of a command the next command is
  swallowed and gets the previous response (`C48_refuted_error`).

USB device stack (`interfaces/USB/core`, `usbd_desc.c`)
* The configuration descriptor is always sent with 159 bytes; without the keyboard
  it has 127, and 32 bytes of the shared buffer follow (C81).
* GET_STATUS ignores the length asked for (C80).
* `USBD_LL_Reset` does not forget the state saved by a suspension, so that the next
  resumption makes the device configured; a second suspension overwrites the saved
  state, so that the device stays suspended (C83).
* The type of a request to the device is not looked at: a class request with the
  number of SET_CONFIGURATION is executed (C83).
* Every OUT packet counts as full, so that a WebUSB command may contain bytes that
  the host never sent (C85); a command without data, or a standard GET_STATUS to
  that interface, leaves it waiting for ever, with the shared buffer in its hands.
* Many requests get neither an answer nor a stall: unknown strings, descriptors of
  length 0, endpoints from 4 on, other features than remote wake-up, vendor requests
  to the HID interfaces, SET_IDLE to an endpoint. In the addressed state, GET_STATUS
  and CLEAR_FEATURE for an endpoint halt it. SET_FEATURE both stalls and succeeds.

WebUSB and the shared buffer
* String and BOS descriptors are composed in the shared buffer without asking for it
  (`usbd_desc.c:397-445`; `BUFFER_OWNER_USBD` is declared but never used): reading a
  descriptor while a command waits, on any interface, replaces the start of the command
  (`C50_refuted`).
* A request between the check of the idle timeout and the release of the buffer is
  accepted although the buffer is released (`C50_refuted_race`).
* Configuring the device while a command is executed does not discard its response
  (`C50_refuted_reset`).
* The idle timeout applies to one state only: a host that announces a command and does not
  send it keeps the buffer for ever (`C50_never_released`), and after a reset of the bus
  the buffer stays owned until the next WebUSB command.

FIDO: PIN and tokens (`ctap.c`, `secret.c`)
* The permissions of a token survive a registration or assertion for credential
  management, because the mask clears the wrong bits (`C55_refuted`).
* changePIN leaves tokens that were given out before valid; getPinToken with a wrong PIN
  does not replace the key agreement key; an attempt with a wrong MAC extends the life of
  the token; the right old PIN with an unacceptable new PIN costs a try
  (`C107_unacceptable_costs`).
* setPIN writes the PIN and then its counter: a power cut between leaves no counter, or
  the old one (`C74_refuted`).
* Token times are compared modulo 2^32 ms.

FIDO: credential store
* Replacing a credential counts it again; a crash while replacing deletes it without
  counting down; the count wraps at 256 (`C57_refuted`).  With a wrong count, enumerating
  relying parties returns dead entries or uninitialised memory.
* A registration that replaces a credential, cut between the write of the attribute and
  that of the record, makes the recovery delete the old credential; the new one is not
  stored either (so `C86_works` excludes registrations for the same user, also failing
  ones).
* A read error of the file size in the consistency check is taken for "too short": the
  marks are cleared but the credential stays (`C56_storage_error_in_recovery`).
* A reset that is interrupted is not resumed at the next start (`C72_refuted`,
  `C56_interrupted_reset`): the credentials are gone, their index is not; the PIN is
  gone while ids created before still sign; the signature counter is zeroed before the
  key is replaced.  A read error of the large-blob file at start wipes everything.
* A reset does not clear the reception state of the large-blob array nor its temporary
  file.

FIDO: commands
* With an allow list that has a resident credential that is then replaced by one that is
  not, the credBlob of the first is returned with the signature of the second, also
  across relying parties (`C71_refuted`).
* credentialManagement notes the subcommand before it checks the token, and accepts
  unknown subcommands without any check: enumerations can then be continued without
  token (`C73_refuted`), on a device without credentials with uninitialised data
  (`C73_uninit`).
* The algorithm in a credential id is not authenticated (`C64_algorithm_not_bound`); an
  unsupported one leads to a length of SIZE_MAX in the encoder.
* U2F signs with every credential id of this device, whatever its protection, also when
  the credential was deleted (`C59_any_credential`).
* An id in an allow list that is shorter than a credential id is laid over the previous
  one, so that a credential is accepted that is not in the list.
* A deleted resident credential still excludes a registration.
* A failing read of the attestation key makes makeCredential fail after the credential
  has been stored; u2f_register without device key answers success without signature.
* hmac-secret with a protocol other than 1 and 2 returns uninitialised memory; errors of
  the encryption are ignored.
* Enumerating an SM2 credential writes an item without key: the bytes of the key are
  written, but only the first of them is counted (`C90_refuted_listing`).
* The attestation certificate is read to its place in the response without looking at the
  room: with the largest certificate that can be installed (1152 bytes) every registration
  writes past the end of the response buffer, of 1300 bytes over CTAPHID and of 1340
  otherwise (`C90_refuted_cert`).
* `build_ecdsa_cose_key` returns the error code of the encoder as the length of the key:
  SM2 identifiers that together need more than five bytes give a key of 18 bytes
  (`C90_refuted_sm2`).
* The reset window opens again after 49.7 days (`C65_wrap`).
* The next relying party after the last one is one whose credentials were all deleted, or
  memory that was never written (`C89_refuted`); the first one, when the counter of
  credentials is too high or a read fails, is the one of an earlier enumeration, with
  number 0.
* The order of credentials is that of slots, not of creation: a slot that was freed is
  used again (C61).

* `ctap_install` and `ctap_install_private_key` return `uint8_t` codes such as 0xF1 on
  storage errors. The admin applet takes only negative values for errors: RESET CTAP and
  FACTORY RESET then answer 9000 although FIDO data were not erased (`C95_refuted`), and a private key is
  reported as installed although it was not.

FIDO: parser (`ctap-parser.c`)
* newPinEnc and pinHashEnc before pinUvAuthProtocol are copied with the length that they
  have, up to the size of a message, to fields of 80 and 32 bytes on the stack, before
  any authentication (`C63_new_pin_enc_refuted`, `C63_pin_hash_enc_refuted`).
* getAssertion zeroes the last byte of a relying party id of 254 bytes before hashing it:
  credentials created for it cannot be used (`C76_longest_id_refuted`).
* A relying party or user without id is accepted, the former as the one with hash zero
  (`C77_registration_refuted`); `parse_cose_key` counts repeated labels
  (`C77_key_agreement_refuted`).
* The type of a credential descriptor is not looked at; subcommand and permissions are
  truncated to 8 bits before they are checked; pinUvAuthParam may have 1 to 32 bytes.
* `parse_large_blobs` accepts get and set together (the exclusive or is of bit masks),
  and computes where the data begin from the shortest encoding of their length.

FIDO: answers
* getAssertion returns the large-blob key of every credential that has one, whether or not
  the request asks for it, and hmac-secret outputs also for credentials that were registered
  without the extension.

OATH: CALCULATE ALL
* One increasing-only credential that refuses the challenge ends the whole run with 6982
  (`C106_one_refuses_all`): the host does not get the codes of the other credentials, and
  those before it remember the challenge although their codes were not shown.
* U2F registration writes certificate and signature without regard to the size of the
  buffer: with a certificate of 1152 bytes every registration, over every transport, writes
  past its end (`C116_refuted_cert`).
* The light is controlled with comparisons of 32-bit ticks: a blink without end that begins
  shortly before the clock starts again stands still for 49 days (`C117_refuted_wrap`); if the
  light changed in the last second before, no touch is taken for the keyboard until it blinks
  again (`C117_refuted_keyboard`).
* A read of no bytes from the NFC chip FM11NT, which `nfc_handler` makes when the chip reports
  an empty queue, neither reads nor stops: the chip holds the data line (`C118_refuted_empty`).
  A refused byte leaves the bus without a stop (`C118_refuted_stop`). `nfc_handler` ignores all
  refusals: it then uses uninitialised interrupt flags and the old length.
* A CCID response that meets a time extension which the host does not take for 50 ms is
  dropped: `CCID_Response_SendData` returns busy, which its caller ignores, and the APDU
  buffer stays with CCID (`C119_refuted_lost`).
* Packets of a CTAPHID response are dropped without notice if the host does not take one for
  50 ms (`C120_refuted_lost`); the host notices from the numbers (`C120_never_garbled`), unless
  it has asked again on the same channel in between (`C120_two_responses_mix`).
* The reported use and size of the flash memory are the low bytes of the numbers of KiB: a memory of
  256 KiB has the reported size 0 (`C121_refuted_large`). An error of `lfs_fs_size` is given as the use,
  with status 9000 (`C121_refuted_error`).
* `fm11_init` for FM11NT ignores all results. If the reading of the serial number is refused, the
  checksum is computed over uninitialised memory and written to the chip (`C123_refuted_stack`).
