{"id": "C01", "title": "A blocked PIN stays blocked", "statement": "Once the retry counter of a PIN object is 0, no sequence of verify calls, with any candidate including the correct PIN, ever reports success or marks the PIN validated; only an update or re-creation of the PIN restores retries.", "quantifier": "every PIN object state with counter 0, every finite sequence of verify calls with arbitrary candidates, every pattern of storage failures", "why_tests_cant": "A test tries a handful of candidates after blocking; the claim is about all candidates and all call sequences, including storage errors in between.", "anchors": ["src/pin.c:pin_verify", "src/pin.c:pin_update", "src/pin.c:pin_create"]}
{"id": "C02", "title": "Guess budget of a PIN", "statement": "Between two successful verifications (or PIN updates) at most N wrong candidates are ever compared against the stored PIN, where N is the configured default retry count, and each compared wrong candidate lowers the reported retry count by exactly one.", "quantifier": "every history of verify calls without storage failures, every candidate, every default retry count", "why_tests_cant": "Histories are unbounded; a test can only sample interleavings of right and wrong guesses and length errors.", "anchors": ["src/pin.c:pin_verify", "src/pin.c:pin_get_retries"]}
{"id": "C03", "title": "A PIN is validated only by presenting it", "statement": "If the validated flag of a PIN is set after any sequence of PIN operations, then the last operation touching the flag was a verify whose candidate is byte-for-byte (and length-for-length) the PIN stored at that time, made while the retry counter was non-zero; creating, updating or failing to verify always leaves it unvalidated.", "quantifier": "every history of create/verify/update/power-off operations with arbitrary arguments and storage failures", "why_tests_cant": "Requires all byte strings, including prefixes/extensions of the PIN and wrong lengths, in all states.", "anchors": ["src/pin.c:pin_verify", "src/pin.c:pin_update"]}
{"id": "C04", "title": "Power cut during PIN verification never refills the counter", "statement": "Cutting power at any point of a verify call with a wrong candidate leaves the persisted retry counter either unchanged or one lower and never raises it, and never changes the stored PIN. (Stronger wish, refuted: every compared wrong candidate is charged even if power is cut, because the counter is written after the comparison.)", "quantifier": "every crash point of a verify call, every candidate and counter value", "why_tests_cant": "Crash points between flash writes cannot be scheduled by unit tests.", "anchors": ["src/pin.c:pin_verify"]}
{"id": "C05", "title": "APDU decoding inverts encoding", "statement": "Every ISO 7816-4 command (cases 1, 2S, 3S, 4S, 2E, 3E, 4E) with any header, any data and any expected length is decoded to exactly its header, data, Lc and Le (with 0 meaning 256 or 65536); byte strings whose length does not match one of these encodings are rejected; no byte past the given length is read.", "quantifier": "every header, every data string up to 65535 bytes, every Le; and every byte string for the rejection and bounds part", "why_tests_cant": "The input space is all byte strings; boundaries (Le=0, Lc=255/256, short/extended ambiguity) multiply.", "anchors": ["src/apdu.c:build_capdu"]}
{"id": "C06", "title": "Command chaining delivers the concatenation", "statement": "A command sent in any number of chained blocks (CLA bit 0x10 on all but the last) with the same CLA/INS/P1/P2 whose total data fits the 1340-byte buffer is executed exactly once, on the last block, with data equal to the concatenation of all blocks, Le of the last block and the chaining bit cleared, whatever the previous chaining state, provided no chain with the same header is already pending.", "quantifier": "every split of every data string into blocks, every header, every prior state of the chaining buffer", "why_tests_cant": "Unbounded number of blocks and prior states.", "anchors": ["src/apdu.c:apdu_input"]}
{"id": "C07", "title": "Command chaining never overruns its buffer", "statement": "No sequence of blocks makes the chaining buffer exceed its capacity. (Stronger wish, refuted: once a block is refused for overflow, the command is not executed - the refused block is silently dropped and the following final block executes a truncated command.)", "quantifier": "every sequence of blocks with arbitrary headers and data", "why_tests_cant": "Requires arbitrary sequences of blocks, including ones following an overflow.", "anchors": ["src/apdu.c:apdu_input", "src/apdu.c:process_apdu"]}
{"id": "C08", "title": "Response chaining returns every byte once", "statement": "Reading a long response through the first answer followed by GET RESPONSE commands, with any sequence of positive chunk sizes, returns exactly the response bytes in order, without loss or repetition; every non-final answer carries 61xx with xx = min(remaining,255) and the final one carries the command's status word.", "quantifier": "every response, every status word, every sequence of requested chunk sizes", "why_tests_cant": "All response lengths and all chunk size schedules.", "anchors": ["src/apdu.c:apdu_output", "src/apdu.c:process_apdu"]}
{"id": "C09", "title": "GET RESPONSE only continues the current command's response", "statement": "A GET RESPONSE never returns bytes of a response produced before the most recent SELECT of another applet. (Refuted for the code: the pending response survives applets that answer without chaining; proved partially for histories in which the intervening command goes through response chaining.)", "quantifier": "every history of commands across applets", "why_tests_cant": "Depends on cross-applet histories no unit test enumerates.", "anchors": ["src/apdu.c:process_apdu"]}
{"id": "C10", "title": "Applet routing and isolation", "statement": "After SELECT of an applet by AID, every non-SELECT command is handled only by that applet until the next SELECT; a SELECT that changes the current applet first powers off every applet (dropping OpenPGP, admin, OATH and PIV session flags their poweroff covers); commands before any SELECT are refused with 6A82.", "quantifier": "every history of commands, every AID prefix, every handler behaviour", "why_tests_cant": "Histories over all applets with arbitrary handlers.", "anchors": ["src/apdu.c:process_apdu", "src/applets.c:applets_poweroff"]}
{"id": "C11", "title": "One owner of the shared APDU buffer", "statement": "At any time at most one interface owns the shared APDU buffer; acquiring succeeds only if it is free or already owned by the caller, and release by a non-owner has no effect.", "quantifier": "every interleaving of acquire/release calls by every interface", "why_tests_cant": "Interleavings of interfaces are schedule dependent.", "anchors": ["src/apdu.c:acquire_apdu_buffer", "src/apdu.c:release_apdu_buffer"]}
{"id": "C12", "title": "TLV length decoding is safe and exact", "statement": "Decoding a BER-TLV length inverts the encoding for 1-, 2- and 3-byte lengths, never reads outside the given bytes, flags an error when the header or the announced value does not fit, and otherwise guarantees header plus value fit in the input.", "quantifier": "every byte string and announced length", "why_tests_cant": "All byte strings, including truncated headers.", "anchors": ["src/common.c:tlv_get_length_safe"]}
{"id": "C13", "title": "PIV key import never reads outside the command", "statement": "Parsing an imported PIV key only reads bytes of the command data. (Refuted for the trailing policy TLVs: data ending in AA or AA 01 makes the parser read past the end; proved partially for the key material part.)", "quantifier": "every command data string and every key type", "why_tests_cant": "Out-of-bounds reads are silent in unit tests; needs all byte strings.", "anchors": ["src/key.c:ck_parse_piv", "src/key.c:ck_parse_piv_policies"]}
{"id": "C14", "title": "OpenPGP key import never reads outside the command", "statement": "Parsing an imported OpenPGP key template only reads bytes of the command data. (Refuted: the control reference template length is trusted, so 4D 02 B6 03 yields a negative remaining length.)", "quantifier": "every command data string and every key type", "why_tests_cant": "Needs all byte strings and integer underflow reasoning.", "anchors": ["src/key.c:ck_parse_openpgp", "applets/openpgp/openpgp.c:openpgp_import_key"]}
{"id": "C15", "title": "OATH credential names are unique and bounded", "statement": "At every point of every history there is at most one stored credential with a given name and at most 100 credential slots; PUT of an existing name is refused and PUT into a full store is refused without changing anything.", "quantifier": "every history of OATH commands with arbitrary names and keys", "why_tests_cant": "Unbounded histories of put/delete/rename with slot reuse.", "anchors": ["applets/oath/oath.c:oath_put", "applets/oath/oath.c:oath_delete", "applets/oath/oath.c:oath_rename"]}
{"id": "C16", "title": "OATH store behaves like a name-to-credential map", "statement": "PUT, DELETE, RENAME and lookup on the slot file behave as insert, erase, re-key and find on a finite map from names to credentials, regardless of slot reuse order.", "quantifier": "every history of commands", "why_tests_cant": "Refinement over unbounded histories.", "anchors": ["applets/oath/oath.c:oath_put", "applets/oath/oath.c:oath_delete", "applets/oath/oath.c:oath_rename", "applets/oath/oath.c:oath_calculate"]}
{"id": "C17", "title": "HOTP counters never repeat", "statement": "Every HOTP code returned for a credential is computed from a moving factor strictly greater than the moving factor of all earlier codes of the credential, the new factor is on flash before the code is returned, and a counter at its maximum refuses instead of wrapping.", "quantifier": "every history of calculate commands, every initial counter, every power cut between commands", "why_tests_cant": "Strict monotonicity over unbounded histories and crash points.", "anchors": ["applets/oath/oath.c:oath_calculate", "applets/oath/oath.c:oath_increase_counter"]}
{"id": "C18", "title": "Increase-only TOTP challenges never go back", "statement": "For a TOTP credential with the increasing property, a code is returned only if the challenge is at least the largest challenge already used, in byte order.", "quantifier": "every history of calculate commands and challenges", "why_tests_cant": "Needs all challenge sequences.", "anchors": ["applets/oath/oath.c:oath_enforce_increasing"]}
{"id": "C19", "title": "OATH access code gates every credential command", "statement": "While an access code is set and not validated in this session, every command other than SELECT and VALIDATE is refused with 6982 and changes nothing; validation succeeds only with a response equal to HMAC(access code, current challenge).", "quantifier": "every history and every command", "why_tests_cant": "All commands in all states.", "anchors": ["applets/oath/oath.c:oath_process_apdu", "applets/oath/oath.c:oath_validate", "applets/oath/oath.c:oath_select"]}
{"id": "C20", "title": "OATH listing is complete and leaks no key", "statement": "The concatenation of LIST and its SEND REMAINING pages enumerates every stored credential exactly once with its name and algorithm, whatever the page size, and depends on no key byte.", "quantifier": "every store content, every page size that fits an entry", "why_tests_cant": "All store contents and page boundaries.", "anchors": ["applets/oath/oath.c:oath_list", "applets/oath/oath.c:oath_send_remaining"]}
{"id": "C21", "title": "Deleting an OATH credential disables its touch slot", "statement": "After DELETE of a credential no touch slot refers to it. (Refuted when both slots refer to it; proved for slots that refer to different credentials.)", "quantifier": "every history of slot configuration and deletion", "why_tests_cant": "Depends on slot configuration history.", "anchors": ["applets/pass/pass.c:pass_delete_oath", "applets/oath/oath.c:oath_delete"]}
{"id": "C22", "title": "OATH digits of a code", "statement": "A typed OATH code has exactly the configured number of digits and equals the truncated HMAC modulo 10^digits.", "quantifier": "every truncated value and digit count 4..8", "why_tests_cant": "All 2^31 values.", "anchors": ["applets/oath/oath.c:oath_digits", "applets/oath/oath.c:oath_process_offset"]}
{"id": "C23", "title": "Static passwords are never read back", "statement": "The pass configuration read command never returns password bytes: two states differing only in passwords give the same answer.", "quantifier": "every slot configuration", "why_tests_cant": "Non-interference over all states.", "anchors": ["applets/pass/pass.c:pass_read_config", "applets/pass/pass.c:dump_slot"]}
{"id": "C24", "title": "Keyboard types exactly the slot's text", "statement": "For every password made of mappable ASCII characters the emitted HID reports decode to the password, with a key release between any two presses, and end with a release.", "quantifier": "every key sequence, every schedule of USB completion events", "why_tests_cant": "Schedules of endpoint completion and all strings.", "anchors": ["interfaces/USB/class/kbdhid/kbdhid.c:KBDHID_TypeKeySeq", "interfaces/USB/class/kbdhid/kbdhid.c:ascii2keycode"]}
{"id": "C25", "title": "NDEF file behaves like a bounded byte array", "statement": "Reads return the bytes last written at each offset, updates never touch bytes outside their range nor beyond 1024 bytes, and refused commands change nothing.", "quantifier": "every history of select/read/update", "why_tests_cant": "Unbounded histories.", "anchors": ["applets/ndef/ndef.c:ndef_update", "applets/ndef/ndef.c:ndef_read_binary"]}
{"id": "C26", "title": "NDEF read-only means read-only", "statement": "While the NDEF application is set read-only no NDEF command changes the capability container or message.", "quantifier": "every history of NDEF commands", "why_tests_cant": "Unbounded histories.", "anchors": ["applets/ndef/ndef.c:ndef_update", "applets/ndef/ndef.c:ndef_toggle_read_only"]}
{"id": "C27", "title": "Admin commands need the admin PIN", "statement": "Every configuration, key-writing and reset command of the admin applet except factory reset is refused with 6982 and has no effect unless the admin PIN was verified since the last power-off/PIN change.", "quantifier": "every history of admin commands", "why_tests_cant": "All commands in all states.", "anchors": ["applets/admin/admin.c:admin_process_apdu"]}
{"id": "C28", "title": "Serial number is write-once", "statement": "Once a serial number is written it never changes and is always the one reported, even across factory reset.", "quantifier": "every history of commands", "why_tests_cant": "Unbounded histories.", "anchors": ["applets/admin/admin.c:admin_write_sn", "applets/admin/admin.c:fill_sn"]}
{"id": "C29", "title": "Factory reset conditions", "statement": "Factory reset only happens with the magic data, a blocked admin PIN, over USB and with five user touches; it then resets all applets.", "quantifier": "every state and command", "why_tests_cant": "All states.", "anchors": ["applets/admin/admin.c:admin_factory_reset", "src/device.c:strong_user_presence_test"]}
{"id": "C30", "title": "PIV administrative rights need the management key", "statement": "Card-management authentication is only obtained by answering a challenge with the management key (external or mutual authentication); without it key generation, key import, object writing and management-key change are refused without effect.", "quantifier": "every history of PIV commands", "why_tests_cant": "Adversarial histories of multi-step authentication.", "anchors": ["applets/piv/piv.c:piv_general_authenticate", "applets/piv/piv.c:piv_process_apdu"]}
{"id": "C31", "title": "PIV private keys obey PIN and touch policy", "statement": "A private-key operation succeeds only if the slot's PIN policy is met (never / verified once / verified for this very operation) and the touch policy was satisfied; PIN ALWAYS consumes the verification.", "quantifier": "every history and every slot policy", "why_tests_cant": "Histories mixing verifies and signatures.", "anchors": ["applets/piv/piv.c:piv_security_status_check", "applets/piv/piv.c:piv_general_authenticate"]}
{"id": "C32", "title": "PIV data objects store what was written", "statement": "An object written by (chained) PUT DATA is returned unchanged by GET DATA, objects never exceed their capacity, and other objects are unaffected.", "quantifier": "every history of put/get with arbitrary chaining", "why_tests_cant": "Unbounded chained writes.", "anchors": ["applets/piv/piv.c:piv_put_data", "applets/piv/piv.c:piv_get_data"]}
{"id": "C33", "title": "PIV PIN unblock and reset conditions", "statement": "RESET RETRY COUNTER succeeds only with the correct PUK; RESET only when both PIN and PUK are blocked.", "quantifier": "every history", "why_tests_cant": "Histories of counters.", "anchors": ["applets/piv/piv.c:piv_reset_retry_counter", "applets/piv/piv.c:piv_reset"]}
{"id": "C34", "title": "PIV default-value flags are truthful", "statement": "Metadata reports the PIN/PUK/management key as default exactly if it was never changed. (Refuted: RESET RETRY COUNTER changes the PIN without clearing the flag.)", "quantifier": "every history", "why_tests_cant": "Histories.", "anchors": ["applets/piv/piv.c:piv_get_metadata", "applets/piv/piv.c:piv_reset_retry_counter"]}
{"id": "C35", "title": "OpenPGP signing needs PW1 (81)", "statement": "COMPUTE DIGITAL SIGNATURE succeeds only if PW1 was verified with mode 81 since the last power-off, and if the PW1 status byte is 00 each verification allows exactly one signature.", "quantifier": "every history of commands", "why_tests_cant": "Unbounded histories.", "anchors": ["applets/openpgp/openpgp.c:openpgp_sign_or_auth", "applets/openpgp/openpgp.c:openpgp_verify"]}
{"id": "C36", "title": "OpenPGP decipher and authenticate need PW1 (82)", "statement": "DECIPHER and INTERNAL AUTHENTICATE succeed only if PW1 was verified with mode 82 since the last power-off.", "quantifier": "every history of commands", "why_tests_cant": "Unbounded histories.", "anchors": ["applets/openpgp/openpgp.c:openpgp_decipher", "applets/openpgp/openpgp.c:openpgp_sign_or_auth"]}
{"id": "C37", "title": "OpenPGP data objects and keys change only under PW3", "statement": "PUT DATA (except objects explicitly allowed), key import and key generation are refused without effect unless PW3 is verified.", "quantifier": "every history of commands", "why_tests_cant": "Unbounded histories.", "anchors": ["applets/openpgp/openpgp.c:openpgp_put_data", "applets/openpgp/openpgp.c:openpgp_import_key", "applets/openpgp/openpgp.c:openpgp_generate_asymmetric_key_pair"]}
{"id": "C38", "title": "A permanent touch policy is irrevocable", "statement": "Once a key's user-interaction flag is set to permanent no PUT DATA changes it; only a reset does.", "quantifier": "every history of commands", "why_tests_cant": "Unbounded histories.", "anchors": ["applets/openpgp/openpgp.c:openpgp_put_data"]}
{"id": "C39", "title": "OpenPGP signature counter counts signatures", "statement": "The digital-signature counter equals the number of signatures made since the signature key was last imported or generated (as long as it does not saturate).", "quantifier": "every history of commands", "why_tests_cant": "Unbounded histories.", "anchors": ["applets/openpgp/openpgp.c:openpgp_sign_or_auth", "applets/openpgp/openpgp.c:reset_sig_counter"]}
{"id": "C40", "title": "OpenPGP termination and activation", "statement": "After TERMINATE only SELECT and ACTIVATE are accepted until ACTIVATE, which reinstalls the applet; TERMINATE is accepted only with PW3 verified or PW3 blocked.", "quantifier": "every history", "why_tests_cant": "Unbounded histories.", "anchors": ["applets/openpgp/openpgp.c:openpgp_terminate", "applets/openpgp/openpgp.c:openpgp_activate", "applets/openpgp/openpgp.c:openpgp_process_apdu"]}
{"id": "C41", "title": "User presence needs a touch", "statement": "A user-presence request reports success only if a touch was registered during the wait or not more than the expiry time before it, the touch is consumed, and the five-touch test needs five distinct touches.", "quantifier": "every schedule of touches, ticks, and cancel events", "why_tests_cant": "Timing schedules.", "anchors": ["src/device.c:wait_for_user_presence", "src/device.c:strong_user_presence_test"]}
{"id": "C42", "title": "CTAPHID request reassembly", "statement": "A message sent by one channel as an initialisation frame followed by its continuation frames is dispatched exactly once, with exactly the message bytes, for every message of at most 1300 bytes.", "quantifier": "every message and channel id, every idle prior state", "why_tests_cant": "All message lengths and contents.", "anchors": ["interfaces/USB/class/ctaphid/ctaphid.c:CTAPHID_Loop"]}
{"id": "C43", "title": "CTAPHID response framing", "statement": "The frames sent for a response reassemble on the host to exactly the response bytes with the request's command and channel, with sequence numbers 0,1,2,...", "quantifier": "every response up to the buffer size", "why_tests_cant": "All lengths.", "anchors": ["interfaces/USB/class/ctaphid/ctaphid.c:CTAPHID_SendResponse"]}
{"id": "C44", "title": "CTAPHID never writes outside its message buffer", "statement": "No sequence of frames makes the transport write past the 1300-byte message buffer. (Refuted: a rejected oversized INIT during a pending message raises the expected length; proved for sequences without such a frame.)", "quantifier": "every sequence of 64-byte frames and clock values", "why_tests_cant": "Adversarial frame sequences.", "anchors": ["interfaces/USB/class/ctaphid/ctaphid.c:CTAPHID_Loop"]}
{"id": "C45", "title": "CTAPHID channel isolation", "statement": "While one channel's message is being received, frames of other channels do not alter it and get CHANNEL_BUSY; responses go to the requesting channel. (The response part is refuted when frames are processed while waiting for touch.)", "quantifier": "every interleaving of frames of two or more channels", "why_tests_cant": "Interleavings.", "anchors": ["interfaces/USB/class/ctaphid/ctaphid.c:CTAPHID_Loop"]}
{"id": "C46", "title": "CCID message reassembly", "statement": "A CCID message delivered in any packetisation is handed to the command dispatcher exactly once with exactly its header and data bytes.", "quantifier": "every message within the buffer size, every split into bulk packets that keeps the 10-byte header whole", "why_tests_cant": "All packetisations.", "anchors": ["interfaces/USB/class/ccid/ccid.c:CCID_OutEvent"]}
{"id": "C47", "title": "CCID never writes outside its buffer", "statement": "No sequence of bulk packets writes past the data buffer. (Refuted: the announced length is not checked; proved for announced lengths within the buffer.)", "quantifier": "every sequence of packets", "why_tests_cant": "Adversarial packets.", "anchors": ["interfaces/USB/class/ccid/ccid.c:CCID_OutEvent"]}
{"id": "C48", "title": "NFC block chaining both ways", "statement": "An APDU sent in chained I-blocks is executed once with exactly its bytes, and a response sent in chained I-blocks reassembles to exactly the response, also when blocks are re-requested by R(NAK).", "quantifier": "every APDU, every response, every pattern of retransmission requests", "why_tests_cant": "All lengths and retransmission patterns.", "anchors": ["interfaces/NFC/nfc.c:nfc_loop", "interfaces/NFC/nfc.c:send_apdu_buffer"]}
{"id": "C49", "title": "NFC stays inside its buffer", "statement": "No sequence of received blocks makes the device write or read outside the APDU buffer. (Refuted: the copy precedes the bound check, and a reader that goes on acknowledging after the end of a response reads memory beyond the buffer.)", "quantifier": "every sequence of blocks", "why_tests_cant": "Adversarial frames.", "anchors": ["interfaces/NFC/nfc.c:nfc_loop"]}
{"id": "C50", "title": "WebUSB exchange protocol", "statement": "A WebUSB response is only handed out for a completed request, a request is executed exactly once, and the shared buffer is held throughout the exchange and released only after the idle timeout.", "quantifier": "every interleaving of setup requests, completion events and loop iterations", "why_tests_cant": "Interleavings.", "anchors": ["interfaces/USB/class/webusb/webusb.c:USBD_WEBUSB_Setup", "interfaces/USB/class/webusb/webusb.c:WebUSB_Loop"]}
{"id": "C51", "title": "CTAP PIN attempts are charged before they are compared", "statement": "In getPinToken and changePIN the retry counter on flash is already decremented when the PIN hash is compared, so a power cut at any point never gives a free guess.", "quantifier": "every crash point, every candidate", "why_tests_cant": "Crash points.", "anchors": ["applets/ctap/ctap.c:ctap_client_pin", "applets/ctap/secret.c:set_pin_retries"]}
{"id": "C52", "title": "CTAP PIN lockouts", "statement": "After three consecutive wrong PINs no further PIN is compared until power-cycle; after eight wrong PINs in total none is compared until reset, for every candidate including the right one.", "quantifier": "every history of clientPIN commands and power cycles", "why_tests_cant": "Unbounded histories.", "anchors": ["applets/ctap/ctap.c:ctap_client_pin"]}
{"id": "C53", "title": "pinUvAuthToken only by PIN", "statement": "A platform obtains a usable pinUvAuthToken only by presenting the correct PIN hash; a token carries exactly the requested permissions and relying party binding.", "quantifier": "every history of clientPIN commands", "why_tests_cant": "Unbounded histories.", "anchors": ["applets/ctap/ctap.c:ctap_client_pin", "applets/ctap/secret.c:cp_begin_using_uv_auth_token"]}
{"id": "C54", "title": "Tokens expire", "statement": "A pinUvAuthToken left unused for more than 30 s is refused.", "quantifier": "every schedule of commands and clock values (without clock wrap)", "why_tests_cant": "Timing.", "anchors": ["applets/ctap/secret.c:cp_pin_uv_auth_token_usage_timer_observer", "applets/ctap/ctap.c:ctap_process_cbor"]}
{"id": "C55", "title": "Token permissions after use", "statement": "After makeCredential/getAssertion with a token, all permissions except large-blob-write are dropped. (Refuted: the code drops only large-blob-write and keeps the rest.)", "quantifier": "every token state", "why_tests_cant": "Needs the permission algebra over all masks.", "anchors": ["applets/ctap/secret.c:cp_clear_pin_uv_auth_token_permissions_except_lbw"]}
{"id": "C56", "title": "CTAP credential store consistency", "statement": "After any history of creations, deletions and power cuts at any point followed by the start-up consistency check, each live credential belongs to exactly one live relying-party entry with the same relying party and vice versa.", "quantifier": "every history and every crash point", "why_tests_cant": "Crash points in multi-file updates.", "anchors": ["applets/ctap/ctap.c:ctap_make_credential", "applets/ctap/ctap.c:ctap_credential_management", "applets/ctap/ctap.c:ctap_consistency_check"]}
{"id": "C57", "title": "CTAP credential count", "statement": "The reported number of resident credentials equals the number of live credentials. (Refuted: overwriting a credential for the same user increments it.)", "quantifier": "every history", "why_tests_cant": "Histories.", "anchors": ["applets/ctap/ctap.c:ctap_make_credential", "applets/ctap/ctap.c:ctap_credential_management"]}
{"id": "C58", "title": "credProtect is enforced in getAssertion", "statement": "Credentials with userVerificationRequired are never used without UV, and those with userVerificationOptionalWithCredentialIDList only with UV or via allow list.", "quantifier": "every credential, request and store", "why_tests_cant": "All combinations across stores.", "anchors": ["applets/ctap/secret.c:check_credential_protect_requirements", "applets/ctap/ctap.c:ctap_get_assertion"]}
{"id": "C59", "title": "U2F cannot bypass credProtect", "statement": "A credential requiring user verification cannot be used through U2F AUTHENTICATE. (Refuted.)", "quantifier": "every credential", "why_tests_cant": "Cross-protocol interaction.", "anchors": ["applets/ctap/u2f.c:u2f_authenticate"]}
{"id": "C60", "title": "Signature counter strictly increases", "statement": "Every signature (CTAP2 or U2F, any credential) carries a counter strictly greater than all earlier ones, persisted before the signature, until 2^32 signatures.", "quantifier": "every history including power cuts", "why_tests_cant": "Unbounded histories and crash points.", "anchors": ["applets/ctap/secret.c:increase_counter"]}
{"id": "C61", "title": "getNextAssertion enumerates all matching credentials", "statement": "getAssertion without allow list followed by getNextAssertion returns every live matching credential exactly once, newest slot first.", "quantifier": "every store", "why_tests_cant": "All stores.", "anchors": ["applets/ctap/ctap.c:ctap_get_assertion"]}
{"id": "C62", "title": "Large-blob writes are atomic and verified", "statement": "The stored large-blob array changes only to a completely received array whose trailing hash matches, and otherwise keeps its previous content even on power cut; reads return fragments of the stored array.", "quantifier": "every sequence of fragment writes and crash points", "why_tests_cant": "Fragment sequences and crash points.", "anchors": ["applets/ctap/ctap.c:ctap_large_blobs"]}
{"id": "C63", "title": "CTAP parameter parsing stays within its fields", "statement": "Parsing a clientPIN request never writes outside the destination fields. (Refuted when newPinEnc precedes pinUvAuthProtocol.)", "quantifier": "every CBOR map, every key order", "why_tests_cant": "All maps.", "anchors": ["applets/ctap/ctap-parser.c:parse_client_pin"]}
{"id": "C64", "title": "Key handles are bound to relying party and policy", "statement": "A credential id is accepted only for the relying party and credProtect/resident attributes it was created with, under an ideal MAC. (The algorithm field is not bound.)", "quantifier": "every credential id byte string", "why_tests_cant": "All forgeries.", "anchors": ["applets/ctap/secret.c:verify_key_handle", "applets/ctap/secret.c:generate_key_handle"]}
{"id": "C65", "title": "CTAP reset window", "statement": "authenticatorReset succeeds only within 10 s of power-up.", "quantifier": "every time", "why_tests_cant": "Timing.", "anchors": ["applets/ctap/ctap.c:ctap_reset_data"]}
{"id": "C66", "title": "Preferred algorithm selection", "statement": "makeCredential uses the first algorithm of the relying party's list that the authenticator supports, and examines every element.", "quantifier": "every parameter list", "why_tests_cant": "All lists.", "anchors": ["applets/ctap/ctap-parser.c:parse_verify_pub_key_cred_params"]}
{"id": "C67", "title": "PIV key import is exact", "statement": "A key sent in the PIV import format is stored as exactly the numbers sent (short RSA components padded on the left) with exactly the PIN and touch policies sent, the last one winning, and the old policies where none is sent.", "quantifier": "every key type, every key material, every legal length encoding, every list of policies", "why_tests_cant": "All component lengths and all legal length encodings, including leading-zero truncation that random keys hit rarely.", "anchors": ["src/key.c:ck_parse_piv", "src/key.c:ck_parse_piv_policies"]}
{"id": "C68", "title": "OpenPGP key import is exact", "statement": "A key sent in an OpenPGP extended header list is stored, in the slot the control reference template names, as exactly the numbers sent, padded on the left, for every legal length encoding and with or without a public key.", "quantifier": "every key type, key material, length encoding", "why_tests_cant": "All component lengths and all legal length encodings.", "anchors": ["src/key.c:ck_parse_openpgp", "applets/openpgp/openpgp.c:openpgp_import_key"]}
{"id": "C69", "title": "OpenPGP results come from the key of the command", "statement": "Whatever COMPUTE DIGITAL SIGNATURE, INTERNAL AUTHENTICATE and DECIPHER give out was computed with the signature, the authentication and the decryption key respectively, which is present and allows that use, from exactly the data of the command.", "quantifier": "every command, state and storage fault", "why_tests_cant": "All key types, lengths and states of three key slots.", "anchors": ["applets/openpgp/openpgp.c:openpgp_sign_or_auth", "applets/openpgp/openpgp.c:openpgp_decipher"]}
{"id": "C70", "title": "CCID leaves a foreign buffer alone", "statement": "While another USB interface holds the shared command buffer, nothing a CCID host sends changes the contents or the owner of the buffer; a command whose first packet arrives meanwhile is not executed and is answered with an error. (Refuted for a host that sends a command before the response to the previous one is complete; proved for hosts that wait.)", "quantifier": "every interleaving of CCID packets, main-loop turns, completed transmissions and requests of other interfaces", "why_tests_cant": "the property is about all interleavings of interrupts with the main loop and other interfaces", "anchors": ["interfaces/USB/class/ccid/ccid.c:CCID_OutEvent", "interfaces/USB/class/ccid/ccid.c:CCID_InFinished", "src/apdu.c:acquire_apdu_buffer"]}
{"id": "C71", "title": "FIDO assertions carry the data of their own credential", "statement": "The credBlob and largeBlobKey that getAssertion returns belong to the credential that signs. (Refuted: with an allow list, a credential id that is not stored on the device signs while the blob and the large-blob key of a stored credential are returned.)", "quantifier": "every store, every allow list", "why_tests_cant": "All stores and allow lists.", "anchors": ["applets/ctap/ctap.c:ctap_get_assertion"]}
{"id": "C72", "title": "FIDO reset is all or nothing", "statement": "After authenticatorReset, interrupted anywhere, either everything is as before or, once the device is powered on again, all old credentials are unusable and the store is empty. (Refuted: the PIN and the credential store can be gone while old credential ids still sign.)", "quantifier": "every state and crash point", "why_tests_cant": "Crash points.", "anchors": ["applets/ctap/ctap.c:ctap_reset_data", "applets/ctap/ctap.c:ctap_install"]}
{"id": "C73", "title": "Credential management needs its token", "statement": "Nothing about stored credentials or relying parties is returned by credentialManagement unless the command, or the enumeration that it directly continues, carried a valid pinUvAuthParam. (Refuted: an unknown subcommand is accepted without any check and opens the way for the get-next subcommands.)", "quantifier": "every sequence of commands", "why_tests_cant": "All command sequences.", "anchors": ["applets/ctap/ctap.c:ctap_credential_management"]}
{"id": "C74", "title": "A FIDO PIN that is set can be tried", "statement": "When setPIN or changePIN has stored a PIN, also when interrupted, the new PIN has eight tries. (Refuted for an interruption between the two writes: the retry counter is missing or that of before.)", "quantifier": "every state and crash point", "why_tests_cant": "Crash points.", "anchors": ["applets/ctap/ctap.c:ctap_client_pin", "src/pin.c:pin_create"]}
{"id": "C75", "title": "FIDO operations need the user", "statement": "A registration succeeds, and an assertion claims user presence, only if the user was present (touched the device, or held it to an NFC reader) for that very command, or, for getNextAssertion, for the getAssertion it continues; U2F registers and signs only likewise.", "quantifier": "every history of commands", "why_tests_cant": "All histories, including tokens and flags kept between commands.", "anchors": ["applets/ctap/ctap.c:ctap_make_credential", "applets/ctap/ctap.c:ctap_get_assertion", "applets/ctap/u2f.c:u2f_authenticate"]}
{"id": "C76", "title": "A relying party id means the same everywhere", "statement": "The identifier that a platform gives for a relying party designates the same relying party when a credential is created, when it is used and when a token is bound to it; identifiers that are too long are refused by all. (Refuted for identifiers of exactly 254 bytes: getAssertion looks for the credentials of another relying party.)", "quantifier": "every identifier of any length, every request containing it", "why_tests_cant": "The property is about all lengths, and about pairs of requests handled by different functions.", "anchors": ["applets/ctap/ctap-parser.c:parse_rp", "applets/ctap/ctap-parser.c:parse_get_assertion", "applets/ctap/ctap-parser.c:parse_client_pin"]}
{"id": "C77", "title": "Requests without their mandatory parameters are refused", "statement": "A CTAP request is executed only if it has all the parameters that the subcommand needs, of the right type. (Refuted: a relying party or a user without identifier is accepted, and so is a public key that lacks a coordinate.)", "quantifier": "every CBOR item as request", "why_tests_cant": "All requests: any order, repetition and omission of parameters.", "anchors": ["applets/ctap/ctap-parser.c:parse_make_credential", "applets/ctap/ctap-parser.c:parse_get_assertion", "applets/ctap/ctap-parser.c:parse_client_pin", "applets/ctap/ctap-parser.c:parse_cose_key"]}
{"id": "C78", "title": "CTAPHID while a command waits for the user", "statement": "While a command waits for the user's touch, no other command is executed, whatever packets arrive. A packet of another channel is answered with CHANNEL_BUSY (or INVALID_CHANNEL) and disturbs nothing. A complete command on the waiting channel is answered with CHANNEL_BUSY (MSG, CBOR, INIT, PING), obeyed (WINK) or refused as unknown; only CANCEL ends the wait.", "quantifier": "all states of the transport, all packets, all sequences of packets, keep-alives and timer values during the wait", "why_tests_cant": "the wait can last arbitrarily long and any number and kind of packets can arrive at any moment of it", "anchors": ["interfaces/USB/class/ctaphid/ctaphid.c:CTAPHID_Loop", "src/device.c:wait_for_user_presence"]}
{"id": "C79", "title": "NFC: the card speaks only when spoken to", "statement": "In any stretch of time the card sends at most one frame for every frame it receives, plus one if a received frame was still unanswered at its beginning; in particular it never asks for more time while it is the reader's turn. Every frame it sends fits into the 32 bytes of the chip.", "quantifier": "all histories of frames, timer interrupts, reported errors and turns of the main loop, including interrupts in the middle of the execution of a command and while a frame is about to be sent", "why_tests_cant": "the order of interrupts and the moment at which they happen are not under the control of a test", "anchors": ["interfaces/NFC/nfc.c:nfc_send_frame", "interfaces/NFC/nfc.c:send_wtx", "interfaces/NFC/nfc.c:nfc_loop", "interfaces/NFC/nfc.c:nfc_handler"]}
{"id": "C80", "title": "USB control transfers deliver exactly what was asked for", "statement": "If the host asks endpoint 0 for n bytes of something the device has d bytes of (a descriptor, the configuration, a status, a WebUSB status or response), the host gets the first min(n, d) bytes, in full packets and a last shorter one, with an empty packet at the end exactly if the transfer would otherwise look unfinished; each packet is sent when the previous one has been taken, and afterwards the device expects the status stage. (Refuted for GET_STATUS with n = 1, where two bytes are sent.)", "quantifier": "every state of the device, every request, every length n, every packet size, every interleaving with traffic on other endpoints, suspensions and other users of the shared buffer that keep away from the data", "why_tests_cant": "the number of packets depends on length, packet size and descriptor, and anything may happen between two packets", "anchors": ["interfaces/USB/core/src/usbd_core.c:USBD_LL_DataInStage", "interfaces/USB/core/src/usbd_ioreq.c:USBD_CtlSendData", "interfaces/USB/core/src/usbd_ctlreq.c:USBD_GetDescriptor"]}
{"id": "C81", "title": "USB descriptors are those of the device", "statement": "GET_DESCRIPTOR answers every type and index with the descriptor of the device that belongs to it, cut to the length asked for, and with nothing else. (Refuted: with the keyboard disabled, 32 bytes of the buffer shared by all interfaces, which may hold the end of an APDU response, follow the configuration descriptor.)", "quantifier": "every type, index, language and length, every configuration of interfaces and endpoints, every content of the shared buffer", "why_tests_cant": "the leaked bytes are whatever was in the buffer; a test sees only the descriptor it expects", "anchors": ["interfaces/USB/device/usbd_desc.c:USBD_UsrConfigDescriptor", "interfaces/USB/core/src/usbd_ctlreq.c:USBD_GetDescriptor"]}
{"id": "C82", "title": "The configuration descriptor is well formed", "statement": "For every choice of interface numbers, endpoint numbers and sizes, with and without keyboard, the configuration descriptor is a sequence of descriptors whose lengths add up to its total length, it counts its interfaces, every interface counts its endpoints, and interfaces and endpoints are exactly the configured ones.", "quantifier": "all tables of interfaces, endpoints and endpoint sizes", "why_tests_cant": "the descriptor is composed at run time from tables that the platform fills in", "anchors": ["interfaces/USB/device/usbd_desc.c:USBD_UsrConfigDescriptor", "interfaces/USB/device/usbd_desc.c:patch_interface_descriptor"]}
{"id": "C83", "title": "The USB device is in the state the host brought it into", "statement": "No function of the device (FIDO, keyboard, smart card, WebUSB) is started or gets a packet before the host has chosen the configuration, nor after a reset until it chooses again; the device state follows SET_ADDRESS, SET_CONFIGURATION, reset, suspend and resume as in chapter 9 of the USB specification, and GET_CONFIGURATION reports it. (Refuted for a reset during a suspension and for a suspension reported twice.)", "quantifier": "every history of requests, packets, resets, suspensions and resumptions in any order", "why_tests_cant": "histories are unbounded and bus events arrive at any moment", "anchors": ["interfaces/USB/core/src/usbd_core.c:USBD_LL_Reset", "interfaces/USB/core/src/usbd_core.c:USBD_LL_Suspend", "interfaces/USB/core/src/usbd_core.c:USBD_LL_Resume", "interfaces/USB/core/src/usbd_ctlreq.c:USBD_SetConfig", "interfaces/USB/core/src/usbd_ctlreq.c:USBD_SetAddress"]}
{"id": "C84", "title": "Control requests cannot corrupt memory", "statement": "Whatever SETUP and data packets the host sends, and whatever else happens, handling them never accesses memory outside the object concerned; a data packet changes the shared buffer only if a WebUSB command was announced and the buffer belongs to the WebUSB interface, and only within the announced size.", "quantifier": "every history of arbitrary SETUP packets, data packets of any length, bus events and other activity, for every packet size", "why_tests_cant": "all SETUP packets, lengths and interleavings", "anchors": ["interfaces/USB/core/src/usbd_core.c:USBD_LL_SetupStage", "interfaces/USB/core/src/usbd_core.c:USBD_LL_DataOutStage", "interfaces/USB/class/webusb/webusb.c:USBD_WEBUSB_Setup"]}
{"id": "C85", "title": "A WebUSB command is executed as it was sent", "statement": "When the device accepts a WebUSB command, the bytes that reach the command interpreter are exactly those of the data stage, whatever happens between its packets. (Refuted for data stages with packets that are shorter than they could be: bytes of an earlier command take the place of the missing ones.)", "quantifier": "every command of 1 to 1340 bytes, every packet size, every interleaving of its packets with other traffic and turns of the main loop", "why_tests_cant": "lengths, packet sizes and interleavings multiply", "anchors": ["interfaces/USB/class/webusb/webusb.c:USBD_WEBUSB_Setup", "interfaces/USB/class/webusb/webusb.c:USBD_WEBUSB_RxReady", "interfaces/USB/core/src/usbd_core.c:USBD_LL_DataOutStage"]}
{"id": "C86", "title": "A FIDO credential works until it is ended", "statement": "A credential that was registered successfully keeps working: an assertion request for its relying party that names it, with the user present and, where the credential demands it, user verified, is answered with a signature by exactly that credential, whatever happened since (other registrations, deletions, PIN changes, power cuts, storage errors), unless the device was reset; for a resident credential, unless it was deleted or replaced by a registration for the same relying party and user. A resident credential is also found without being named.", "quantifier": "every history of commands before and after the registration, with power cuts at every point and storage errors, every request that meets the conditions, resident and non-resident credentials", "why_tests_cant": "histories are unbounded and a power cut can come at any write of any command", "anchors": ["applets/ctap/ctap.c:ctap_make_credential", "applets/ctap/ctap.c:ctap_get_assertion", "applets/ctap/ctap.c:ctap_consistency_check", "applets/ctap/secret.c:verify_key_handle"]}
{"id": "C87", "title": "A deleted FIDO credential signs no more", "statement": "After a resident credential was deleted by a command that reported success, no signature by it is ever given again, whether or not the platform still names it, and it is not in the store. (Refuted for U2F authentication, which never consults the store; proved for all assertions.)", "quantifier": "every history before the registration, between registration and deletion and after the deletion, with power cuts at every point", "why_tests_cant": "a deleted record could come back by recovery after any power cut in any later command, or stay in a list that was made before", "anchors": ["applets/ctap/ctap.c:ctap_credential_management", "applets/ctap/ctap.c:ctap_get_assertion", "applets/ctap/ctap.c:ctap_get_next_assertion", "applets/ctap/u2f.c:u2f_authenticate"]}
{"id": "C88", "title": "Exclude lists prevent second registrations", "statement": "A registration whose exclude list names a credential that this device created for the same relying party never succeeds, whatever happened between and whatever fails, except for a credential protected by user verification when the user is not verified; and it is refused as excluded only if the list names such a credential, so that the existence of protected credentials is not revealed without a token.", "quantifier": "every exclude list of full-length identifiers, every state and history, power cuts and storage errors at every point", "why_tests_cant": "all lists, histories and fault patterns", "anchors": ["applets/ctap/ctap.c:ctap_make_credential", "applets/ctap/secret.c:verify_key_handle"]}
{"id": "C89", "title": "Credential management lists exactly what is stored", "statement": "An enumeration of the credentials of a relying party reports how many are stored and then each of them once, with its identifier and user, after any history; an enumeration of relying parties reports each relying party that has credentials once and no other; an enumeration that is answered with 'no credentials' means there are none. (Refuted for relying parties: one command for the next relying party more than announced reports a relying party without credentials or reads memory that was never written.)", "quantifier": "every history of commands with power cuts at every point, every store of up to 64 credentials, storage errors and power cuts during the enumeration", "why_tests_cant": "all stores and all histories that lead to them, with bit sets per relying party that have to agree with the records", "anchors": ["applets/ctap/ctap.c:ctap_credential_management", "applets/ctap/ctap.c:get_next_slot", "applets/ctap/ctap.c:ctap_consistency_check"]}
{"id": "C90", "title": "FIDO responses are what a host can decode", "statement": "The response to a CTAP2 command that succeeds is one well-formed CBOR item with exactly the entries that CTAP 2.1 prescribes for it and the values of the command (credential, key, authenticator data with matching flags, lengths and extension outputs, signature over exactly the authenticator data that is sent and the client data hash, user, counts), and it stays inside the response buffer of its transport. (Refuted: with the largest certificate that can be installed every registration writes past the end of the buffer; the keys of SM2 credentials are missing from enumerations; SM2 identifiers that need more than five bytes give a registration without a key.)", "quantifier": "every response of every command in every state that a history of parsed requests reaches, every key, signature length, user, extension combination and certificate length", "why_tests_cant": "the sizes of user entities, certificates, signatures, keys and identifiers vary independently, and with them every offset in the message", "anchors": ["applets/ctap/ctap.c:ctap_make_credential", "applets/ctap/ctap.c:ctap_get_assertion", "applets/ctap/ctap.c:ctap_make_auth_data", "applets/ctap/ctap.c:build_ecdsa_cose_key", "applets/ctap/ctap.c:generate_credential_response", "applets/ctap/ctap.c:ctap_get_info"]}
{"id": "C91", "title": "OpenPGP PINs change only for those who know them", "statement": "PW1 is replaced only by CHANGE REFERENCE DATA with the old PW1, by RESET RETRY COUNTER with the resetting code (if one is set) or after PW3 was shown in this session, or by a new installation; PW3 only with the old PW3 or by a new installation; the resetting code only by PUT DATA after PW3 was shown in this session or by a new installation. (Refuted when reading the size of the PIN file fails: then CHANGE REFERENCE DATA stores the data as the new PIN without having compared anything.)", "quantifier": "every card and history of commands, restarts, resets, power cuts at every point and storage errors, every command and its data", "why_tests_cant": "histories, data lengths and fault points multiply; a single path that skips the comparison opens the card", "anchors": ["applets/openpgp/openpgp.c:openpgp_change_reference_data", "applets/openpgp/openpgp.c:openpgp_reset_retry_counter", "applets/openpgp/openpgp.c:openpgp_put_data", "src/pin.c:pin_verify", "src/pin.c:pin_update", "src/pin.c:pin_get_size"]}
{"id": "C92", "title": "Each applet behaves on the card as it does alone", "statement": "What an applet answers to the commands that reach it, and what it stores, is what it would answer and store if it were alone on the device and got just these commands, a deselection whenever the host selects another applet or the reader switches the power of the card, its part of an admin reset, and a restart for each restart of the device: no command to another applet, over any transport, touches its files or variables.", "quantifier": "every state of the card, every history of commands to all applets over all transports, selections, reader power, touches, restarts, power cuts and storage errors at every point", "why_tests_cant": "interactions between six applets that share a dispatcher, the flash and a chaining buffer show only in particular interleavings of histories of unbounded length", "anchors": ["src/apdu.c:process_apdu", "src/applets.c:applets_install", "src/applets.c:applets_poweroff", "applets/admin/admin.c:admin_process_apdu", "applets/ctap/ctap.c:ctap_process_apdu"]}
{"id": "C93", "title": "Keys are used only in a session in which the PIN was given to their applet", "statement": "On the whole card, OpenPGP signs only if PW1 was verified for signing by a command that the dispatcher gave to OpenPGP and since then the host has not selected anything else, the reader has not switched the power, the device was not restarted, no other applet got a command and no signature was given (unless the card allows several); OpenPGP deciphers and authenticates only under the same condition for the other reference of PW1; a PIV key is used only if its PIN and touch policies are satisfied in the same sense.", "quantifier": "every history of the whole card from an arbitrary flash, over all applets and transports, with power cuts and storage errors at every point", "why_tests_cant": "a PIN that stays verified across a selection shows only in particular interleavings of applets", "anchors": ["src/apdu.c:process_apdu", "src/applets.c:applets_poweroff", "applets/openpgp/openpgp.c:openpgp_poweroff", "applets/piv/piv.c:piv_poweroff"]}
{"id": "C94", "title": "Admin rights on the whole card", "statement": "On the whole card, an admin command other than SELECT, VERIFY, READ VERSION, READ SN, NFC ENABLE and FACTORY RESET is refused with 6982 and leaves all files of all applets as they are, unless the admin PIN was given to the admin applet and the host has not left it since; nothing but a command to the admin applet changes the admin PIN, its counter, the serial number or the configuration; a serial number that was written stays whatever is done with any applet; FACTORY RESET erases nothing of any applet unless the admin PIN is blocked, the command comes over USB and the user touches the device five times.", "quantifier": "every history of the whole card from an arbitrary flash, over all applets and transports, with power cuts at every point (and storage errors for the first two parts)", "why_tests_cant": "rights that survive a selection or a file of another applet that overlaps show only in particular interleavings", "anchors": ["applets/admin/admin.c:admin_process_apdu", "applets/admin/admin.c:admin_poweroff", "src/apdu.c:process_apdu", "src/applets.c:applets_poweroff"]}
{"id": "C95", "title": "A reset that is reported as done has erased, and only what it names", "statement": "When the admin applet answers RESET OPENPGP, RESET PIV, RESET OATH, RESET PASS, RESET NDEF or RESET CTAP with 9000, the files of this applet are those of a new card (default PINs and retry counters, no keys, certificates, credentials, accounts or access code, fresh secrets) and no file of any other applet has changed; when it answers FACTORY RESET with 9000 this holds for all applets at once, the admin PIN and the configuration are the defaults, and only the serial number is kept.", "quantifier": "every state of the whole card, every random number, power cuts and storage errors at every point", "why_tests_cant": "data that survive depend on what was stored before, on the order of dozens of writes and on which of them fails", "anchors": ["applets/admin/admin.c:admin_factory_reset", "applets/admin/admin.c:admin_process_apdu", "applets/openpgp/openpgp.c:openpgp_install", "applets/piv/piv.c:piv_install", "applets/oath/oath.c:oath_install", "applets/ctap/ctap.c:ctap_install", "applets/pass/pass.c:pass_install", "applets/ndef/ndef.c:ndef_install"]}
{"id": "C96", "title": "OpenPGP data objects are read as they were written", "statement": "After a PUT DATA answered 9000 for the name, login data, languages, sex, URL, PW status, algorithm attributes, fingerprints, CA fingerprints, generation dates or a (non-empty) user interaction flag, every later GET DATA answered 9000 of the object, or of the constructed object that contains it, decodes as BER-TLV and shows this value (algorithm attributes normalised, but of the same algorithm and among those that are offered), until the object is written again or the applet is installed anew; refused and interrupted writes, other objects, keys, restarts and deselections do not change it. The PW status bytes show the tries that are left. An active applet answers GET DATA for each of these objects whatever happened before, and GET DATA 00FA lists just the algorithms that are offered.", "quantifier": "every history from a blank device before and after the write, with storage errors and power cuts at every point, every object and every value", "why_tests_cant": "values of all lengths are embedded in constructed objects whose length bytes depend on all of them, and what other commands overwrite depends on the history", "anchors": ["applets/openpgp/openpgp.c:openpgp_get_data", "applets/openpgp/openpgp.c:openpgp_put_data", "applets/openpgp/openpgp.c:openpgp_install", "applets/openpgp/openpgp.c:fill_attr"]}
{"id": "C97", "title": "Certificates are written and read where the host says", "statement": "GET DATA and PUT DATA of 7F21 concern the certificate (0, 1 or 2) named by a SELECT DATA that was answered 9000 directly before, else the first; GET NEXT DATA goes on with the one after the certificate read last. A certificate that was written with 9000 is read back exactly until it is written again or the applet is installed anew; writing another one, refused and interrupted writes, all other commands and restarts leave it alone. (Refuted: the number survives when the applet is deselected directly after SELECT DATA, and when a write is refused; the next write, meant for the first certificate, then overwrites another one.)", "quantifier": "every history of the applet with restarts, deselections, storage errors and power cuts at every point, every certificate and number", "why_tests_cant": "which file is written depends on a state machine over the whole history of commands; the tests try the few sequences that are intended", "anchors": ["applets/openpgp/openpgp.c:openpgp_process_apdu", "applets/openpgp/openpgp.c:openpgp_select_data", "applets/openpgp/openpgp.c:openpgp_get_next_data", "applets/openpgp/openpgp.c:openpgp_put_data", "applets/openpgp/openpgp.c:openpgp_get_data", "applets/openpgp/openpgp.c:openpgp_poweroff"]}
{"id": "C98", "title": "PIV results come from the key of the slot that the host names", "statement": "Whenever GENERAL AUTHENTICATE for a slot is answered 9000, the slot holds a key of the type named by P1, the data are a template asking for a signature of a challenge or a key agreement with a point, and the answer is exactly what the key of this slot makes of the value sent; and it is given whenever the PIN was verified, touch is given and the key can compute it. GENERATE answered 9000 has put a fresh key of the named type, with the given policies, into this slot and nowhere else, and returns its public key; IMPORT puts exactly the given key there; GET METADATA describes the key in the slot. A key stays until GENERATE or IMPORT for its slot or a reset, so that the public key once returned is that of every later signature. (Refuted for Ed25519 challenges that are not 32 bytes long: only their first 32 bytes, or bytes behind them, are signed.)", "quantifier": "every state, slot, key type, template with its elements in any order and any legal length encoding, and every history with storage errors and power cuts at every point", "why_tests_cant": "templates, key types and policies combine without bound and the key a slot holds depends on the whole history; the tests use few templates and compare with fixed keys", "anchors": ["applets/piv/piv.c:piv_general_authenticate", "applets/piv/piv.c:piv_generate_asymmetric_key_pair", "applets/piv/piv.c:piv_import_asymmetric_key", "applets/piv/piv.c:piv_get_metadata", "src/key.c:ck_encode_public_key"]}
{"id": "C99", "title": "The OATH access code", "statement": "SET CODE answered 9000 in an open session has stored exactly the 16-byte code of the request, whose response is the HMAC of the request's challenge under it, and ended the session; or, without a code, has removed the code; a wrong response is refused with 6984 and changes nothing. While a code is set, VALIDATE opens a session exactly for the HMAC, under this code, of the challenge shown by the last SELECT, and is then answered with the HMAC of the host's challenge; any other response is refused with 6A80 and closes the session. The code and the challenge are at all times those that follow from the commands and their answers; nothing else changes them, and only a reset of the applet loses the code. Every session needs the answer to a challenge shown in this session. (Refuted: the challenge outlives the session, so that a recorded VALIDATE opens the next session without the code.)", "quantifier": "every history with power cuts at every point (and storage errors, for what a single operation does), every code, challenge, response and random number", "why_tests_cant": "which code and challenge count depends on the whole history, and that no other byte string opens the session cannot be sampled", "anchors": ["applets/oath/oath.c:oath_set_code", "applets/oath/oath.c:oath_validate", "applets/oath/oath.c:oath_select", "applets/oath/oath.c:oath_poweroff", "applets/oath/oath.c:oath_install", "applets/oath/oath.c:oath_process_apdu"]}
{"id": "C100", "title": "Files are written completely or not at all, and keep what was written", "statement": "The file functions that all applets use: write, append and truncate return 0 exactly when the file now holds the bytes that were asked for (with its attributes, and all other files, as before); if they return an error or power is lost at any moment, everything is as before, except that a file that did not exist may exist, empty. Reading, attributes, sizes and renaming behave in the same way. On an existing file each call can do exactly what one atomic step of the storage model can do, which all crash claims rest on. Whatever happens between (failed calls, cuts, restarts, other files), a file is read as it was last written successfully, and the one buffer that all open files share is never used by two.", "quantifier": "every contents of the flash, every history of calls with arguments in range, an error or power cut at every access to the flash", "why_tests_cant": "the combinations of failing accesses and cleanup paths with the contents are unbounded, and a lost power supply cannot be tested at each access", "anchors": ["src/fs.c:read_file", "src/fs.c:write_file", "src/fs.c:append_file", "src/fs.c:truncate_file", "src/fs.c:read_attr", "src/fs.c:write_attr", "src/fs.c:get_file_size", "src/fs.c:fs_rename"]}
{"id": "C101", "title": "The PIV PIN and PUK behave as the host expects", "statement": "From the first boot on, the PIN (123456) and the PUK (12345678) have three tries each. VERIFY with the PIN is answered 9000 and gives the tries back; any other 8 bytes cost one try and are answered 63Cx with the tries left, or 6983 when there are none; then even the right PIN is answered 6983. CHANGE REFERENCE DATA replaces the PIN or the PUK for the host that shows the old one, RESET RETRY COUNTER sets a new PIN with three tries for the host that shows the PUK, RESET works exactly when both are blocked. VERIFY without data says whether the PIN has been shown in this session, or how many tries are left. Every status word of these commands and of their malformed variants is determined; no other command and no restart changes the PIN, the PUK or the tries. Power failing in a command leaves one of the states before, after or between its two steps.", "quantifier": "every history of commands with every parameter and data, deselections, resets, restarts, and power cuts at every file operation (resets must run to their end)", "why_tests_cant": "the status word of each command depends on the whole history of attempts, changes, restarts and cuts; the tests follow a few of the sequences", "anchors": ["applets/piv/piv.c:piv_verify", "applets/piv/piv.c:piv_change_reference_data", "applets/piv/piv.c:piv_reset_retry_counter", "applets/piv/piv.c:piv_reset", "applets/piv/piv.c:piv_install", "src/pin.c:pin_verify", "src/pin.c:pin_update", "src/pin.c:pin_get_retries"]}
{"id": "C102", "title": "The OpenPGP PINs and the resetting code behave as the host expects", "statement": "From the first boot on, PW1 (123456) and PW3 (12345678) have three tries each and there is no resetting code. VERIFY with the right value is answered 9000 and gives the tries back; any other value of a possible length costs one try and is answered 6982, or 6983 when none is left; then even the right value is answered 6983; values of impossible lengths are answered 6700 and cost nothing. VERIFY without data says whether the PIN has been shown in this session, or how many tries are left, and P1 = FF ends that. CHANGE REFERENCE DATA replaces a PIN for the host that shows the old one; RESET RETRY COUNTER sets a new PW1 with three tries for the host that shows the resetting code or has shown PW3; PUT DATA D3 sets or clears the resetting code after PW3. TERMINATE needs PW3 unless it is blocked; a terminated applet answers 6285 until ACTIVATE puts everything back to the factory settings. The PW status bytes (GET DATA C4) show the tries that are left. Every status word of these commands and of their malformed variants is determined; no other command and no restart changes a PIN or its tries. Power failing in a command leaves one of the states before, after or between its steps. (Refuted: lengths are taken modulo 256, so that 262 bytes that begin with PW1 are accepted as PW1; and a CHANGE REFERENCE DATA that is too short is answered 6983 when a byte on the stack that was never written happens to be zero.)", "quantifier": "every history of commands with every parameter and data, deselections, resets, restarts, and power cuts at every file operation (resets must run to their end)", "why_tests_cant": "the status word of each command depends on the whole history of attempts, changes, restarts and cuts; the tests follow a few of the sequences", "anchors": ["applets/openpgp/openpgp.c:openpgp_verify", "applets/openpgp/openpgp.c:openpgp_change_reference_data", "applets/openpgp/openpgp.c:openpgp_reset_retry_counter", "applets/openpgp/openpgp.c:openpgp_put_data", "applets/openpgp/openpgp.c:openpgp_terminate", "applets/openpgp/openpgp.c:openpgp_activate", "applets/openpgp/openpgp.c:openpgp_get_data", "src/pin.c:pin_verify", "src/pin.c:pin_update", "src/pin.c:pin_clear", "src/pin.c:pin_get_retries"]}
{"id": "C103", "title": "A U2F registration works until a reset", "statement": "A key handle returned by U2F REGISTER is, whatever happens afterwards short of a reset (other commands, storage errors, power cuts, restarts), recognised by AUTHENTICATE for the application it was made for: check-only is answered 6985, a signature is given with the private key of the registration whenever the user touches the device, over the application and challenge of the request and with a larger counter, and without a touch it is answered 6985. For every other application parameter the handle is answered 6A80, and so is every handle that the device did not make. The same key handle also works as a CTAP2 credential of that application, with the same key.", "quantifier": "every state, application, challenge and history with storage errors and power cuts at every point", "why_tests_cant": "the history between registration and use is unbounded, and that no other application can use a handle ranges over all 32-byte parameters", "anchors": ["applets/ctap/ctap.c:ctap_process_apdu", "applets/ctap/u2f.c:u2f_register", "applets/ctap/u2f.c:u2f_authenticate", "applets/ctap/secret.c:verify_key_handle", "applets/ctap/secret.c:generate_key_handle"]}
{"id": "C104", "title": "hmac-secret outputs and large-blob keys are right and stay the same", "statement": "When getAssertion is asked for hmac-secret outputs and answers, the platform had sent one or two 32-byte salts, encrypted and authenticated under the shared secret; the user was present; and decrypting the output gives HMAC(secret of the credential, salt) for each salt in order, where the secret depends on the credential that signs and on whether user verification took place. Without the request there is no output. Asked again with the same salts, at any later time and through any shared secret or protocol, the same credential gives the same outputs until a reset. The answers to getNextAssertion carry the outputs of their own credentials for the same salts. The large-blob key of a credential is the same in every answer that gives it (makeCredential, getAssertion, getNextAssertion, credentialManagement) until a reset.", "quantifier": "every state, request, salt, protocol, shared secret and history with storage errors and power cuts at every point", "why_tests_cant": "outputs unlock users' disks: they must agree at times arbitrarily far apart in unbounded histories, for all salts and keys", "anchors": ["applets/ctap/ctap.c:ctap_get_assertion", "applets/ctap/ctap.c:ctap_make_credential", "applets/ctap/ctap.c:ctap_credential_management", "applets/ctap/secret.c:make_hmac_secret_output", "applets/ctap/secret.c:make_large_blob_key", "applets/ctap/secret.c:cp_encrypt", "applets/ctap/secret.c:cp_decrypt"]}
{"id": "C105", "title": "The admin applet behaves as a small machine", "statement": "The admin applet keeps a PIN with three tries, a serial number that is written once and the settings for LED, NDEF and WebUSB. Every command is answered as a small machine prescribes: VERIFY counts wrong values and blocks (63Cx, 6983), the right PIN restores the tries; the other commands are refused (6982) until the PIN was shown in this session; CHANGE PIN, WRITE SN, CONFIG do what they say and READ SN, READ CONFIG, FLASH USAGE report it; FACTORY RESET needs its text, a blocked PIN, USB and five touches, and then restores PIN, tries and settings but not the serial number. Nothing else - commands to any other applet, selection, restarts, power failures - changes that state; a power failure during a command leaves it undone or done, except that a new PIN may be in place with its tries not restored and a new serial number may be left empty.", "quantifier": "every history of commands to all applets, deselections, restarts and power failures at every point, after the first boot of a blank device", "why_tests_cant": "the answers depend on an unbounded history of right and wrong PINs, power cuts and commands to other applets", "anchors": ["applets/admin/admin.c:admin_process_apdu", "applets/admin/admin.c:admin_verify", "applets/admin/admin.c:admin_change_pin", "applets/admin/admin.c:admin_write_sn", "applets/admin/admin.c:admin_config", "applets/admin/admin.c:admin_factory_reset", "applets/admin/admin.c:admin_install", "src/pin.c:pin_verify"]}
{"id": "C106", "title": "CALCULATE ALL is complete and exact", "statement": "When no stored OATH credential refuses the challenge, CALCULATE ALL followed by SEND REMAINING while the answer is 61xx gives exactly one entry for each stored credential: its name with the code for the challenge (truncated or full as asked), or the HOTP mark, or the touch mark. The result does not depend on the page sizes, as long as each page has room for one entry. Afterwards the increasing-only TOTP credentials that need no touch remember the challenge, and nothing else has changed. An increasing-only TOTP credential that needs no touch refuses challenges that are not 8 bytes or that lie before the last one; then the run ends with 6982 for all credentials.", "quantifier": "every valid set of credentials, challenge of 1 to 8 bytes, truncated or full, and sequence of page sizes", "why_tests_cant": "sets of up to 100 credentials of all kinds times page boundaries cannot be enumerated; a page that ends in a wrong place loses or repeats an entry", "anchors": ["applets/oath/oath.c:oath_calculate_all", "applets/oath/oath.c:oath_send_remaining", "applets/oath/oath.c:oath_enforce_increasing", "applets/oath/oath.c:oath_process_apdu"]}
{"id": "C107", "title": "The FIDO PIN behaves as a small machine", "statement": "Without a PIN, setPIN with a correctly authenticated PIN of 4 to 63 bytes sets it with eight tries, and every command that needs one answers PIN_NOT_SET. With a PIN, setPIN is refused. A wrong PIN (changePIN, getPinToken, getPinUvAuthToken) costs one try on flash, which a power cycle does not give back, and one of three until power is cycled; the answers are PIN_INVALID, PIN_AUTH_BLOCKED for the third and PIN_BLOCKED when no try is left on flash; then the right PIN is refused as well. The right PIN gives back all tries. changePIN replaces the PIN for the host that shows the old one; a refused new PIN leaves the old one in place, but costs a try. A request with a wrong authentication costs nothing. getPINRetries and getInfo tell the truth about it. Only a reset removes the PIN; no other command and no restart changes PIN or tries. Power failing in a command leaves it undone or done, or a try used up, or the new PIN in place with the tries not yet restored.", "quantifier": "every history of CTAP, U2F and admin operations with every parameter, restarts, resets and power cuts at every file operation, from every state of an installed device", "why_tests_cant": "every answer depends on the unbounded history of right and wrong PINs, power cycles, cuts and resets", "anchors": ["applets/ctap/ctap.c:ctap_client_pin", "applets/ctap/ctap.c:ctap_install", "applets/ctap/ctap.c:ctap_reset_data", "applets/ctap/secret.c:set_pin", "applets/ctap/secret.c:verify_pin_hash", "applets/ctap/secret.c:get_pin_retries", "applets/ctap/secret.c:set_pin_retries", "applets/ctap/secret.c:has_pin", "applets/ctap/ctap-parser.c:parse_client_pin"]}
{"id": "C108", "title": "Registrations are answered as the host expects", "statement": "A makeCredential request is refused exactly for the reasons the host can foresee, each with its status and in a fixed order: an empty authentication (after a touch PIN_INVALID or PIN_NOT_SET), a missing protocol, options that the device does not have, a discoverable credential without authentication although a PIN is set (PUAT_REQUIRED), three wrong PINs since power-up (PIN_AUTH_BLOCKED), an authentication that does not fit token, permission or relying party (PIN_AUTH_INVALID), an excluded credential, no touch (or a cancelled request), a large-blob key for a credential that is not discoverable, no room for another credential (KEY_STORE_FULL). A refused request stores nothing. Otherwise the answer has a new 70-byte credential id of this device for the relying party, algorithm, kind and protection that were asked for, user present, the right verification flag, a counter one higher than before and the outputs of the extensions asked for; a discoverable credential is stored in the place of the one for the same relying party and user, else in the first free place, else behind the others, of which there can be 64, with user and blob (of up to 32 bytes), and no other credential changes. PIN, tries and device secrets stay the same. In particular other credentials can be registered without the PIN, as getInfo announces.", "quantifier": "every request, state of an installed device with a settled store, and circumstance (touch, cancel, NFC), with storage that works; exclude lists of full-length ids", "why_tests_cant": "the answer is a decision over PIN, token, options, exclude list, store and user, whose combinations cannot be enumerated", "anchors": ["applets/ctap/ctap.c:ctap_make_credential", "applets/ctap/ctap.c:ctap_make_auth_data", "applets/ctap/ctap.c:ctap_consistency_check", "applets/ctap/secret.c:cp_verify_pin_token", "applets/ctap/secret.c:cp_verify_rp_id", "applets/ctap/secret.c:generate_key_handle", "applets/ctap/secret.c:verify_key_handle"]}
{"id": "C109", "title": "Assertions are answered as the host expects", "statement": "A getAssertion request is refused exactly for the reasons the host can foresee, each with its status and in a fixed order: an empty authentication (after a touch PIN_INVALID or PIN_NOT_SET), a missing protocol, options that the device does not have, three wrong PINs since power-up, an authentication that does not fit token, permission or relying party, no credential that can be used (NO_CREDENTIALS), no touch or a cancelled request. A refused request changes nothing. Otherwise the answer is by the first credential of the allow list that is the device's own, for the relying party, usable under its protection, and stored if it is discoverable; or without a list by the newest place of the stored credentials that may be used, with their number if there are several. It has the key, algorithm and user of that credential, the request's hash, the right presence and verification flags, a counter one higher, the blob if it was asked for; the user's names only for a verified user with several credentials. A request without user presence never waits for a touch. Without verification and without ids, nothing in the answer depends on protected credentials. Every stored credential is always one that the device has made.", "quantifier": "every request without hmac-secret, state of an installed device with a settled store, and circumstance (touch, cancel, NFC), with storage that works; allow lists of full-length ids whose discoverable credentials are still stored (others: C71)", "why_tests_cant": "which credential is used depends on all stored credentials, the order of the list, protection and token; tests see a few stores", "anchors": ["applets/ctap/ctap.c:ctap_get_assertion", "applets/ctap/ctap.c:ctap_make_auth_data", "applets/ctap/secret.c:verify_key_handle", "applets/ctap/secret.c:check_credential_protect_requirements", "applets/ctap/secret.c:cp_verify_pin_token"]}
{"id": "C110", "title": "Credential management is answered as the host expects", "statement": "A credentialManagement request for metadata, for the deletion of a credential or for new user data is refused exactly for the reasons the host can foresee, each with its status and in a fixed order: parameters of more than 299 bytes (INVALID_LENGTH), three wrong PINs since power-up (PIN_AUTH_BLOCKED), a token that is not in use, lacks the permission, has not authenticated this subcommand with these parameters or is bound to another relying party (PIN_AUTH_INVALID), no credential with that id (NO_CREDENTIALS), new data for another user (INVALID_PARAMETER). A refused request changes nothing. Otherwise the metadata are the number of credentials and 64 less that number; a deletion takes away the one credential that was named, leaves the others in their order, and the number is one less; new data replace the user of the one credential that was named, and neither its id, key, blob and place nor any other credential changes. Nothing else in the storage changes, and the store is ready for the next command.", "quantifier": "every request with these subcommands and every state with a settled store whose count is right (after histories that never register twice for the same relying party and user: C57), with storage that works", "why_tests_cant": "the verdict depends on the token's history, the parameters and all stored credentials; tests delete one of a few", "anchors": ["applets/ctap/ctap.c:ctap_credential_management", "applets/ctap/ctap.c:ctap_consistency_check", "applets/ctap/secret.c:cp_verify_pin_token", "applets/ctap/secret.c:cp_has_permission", "applets/ctap/secret.c:cp_verify_rp_id"]}
{"id": "C111", "title": "Large blobs follow a small machine", "statement": "Every largeBlobs request is answered as a small machine with the stored array and one upload prescribes. A read gives the bytes of the stored array from the offset, as many as are there, and an offset beyond the end is refused. A fragment at offset 0 begins a new upload of the announced length and drops the one before, even if the fragment is then refused; another fragment must begin where the last one ended (INVALID_SEQ). If a PIN is set, a fragment needs an authentication (PUAT_REQUIRED, MISSING_PARAMETER, PIN_AUTH_BLOCKED after three wrong PINs) by a token in use with the permission for large blobs, over 32 bytes 0xFF, the command, the offset and the hash of the fragment (PIN_AUTH_INVALID). A fragment beyond the announced length is refused and adds nothing. The last fragment makes the upload the stored array if its last 16 bytes are the hash of the others, else the upload is over (INTEGRITY_FAILURE). Other commands change neither the array nor the upload; loss of power at any point drops the upload and leaves the array as it was before the command that was cut.", "quantifier": "every history of CTAP, U2F and admin operations with every parameter, restarts and power cuts at every file operation, without resets, from every powered-up state with an array", "why_tests_cant": "the answers depend on all fragments, commands and cuts since the upload began; tests send a few uploads", "anchors": ["applets/ctap/ctap.c:ctap_large_blobs", "applets/ctap/ctap-parser.c:parse_large_blobs", "applets/ctap/secret.c:cp_verify_pin_token", "applets/ctap/secret.c:cp_has_permission"]}
{"id": "C112", "title": "Touch slots follow a small machine", "statement": "The device has two touch slots, for short and long touches; each is off, types a password, or types the next HOTP code of a stored OATH credential. A configuration command with a password of at most 32 bytes or with off is answered 9000 and is what the slot is from then on; every other one is refused (6A86, 6700, 6A80) and changes nothing. SET DEFAULT with the name of a stored credential that is not TOTP assigns its codes; DELETE of the credential switches the slot off. A touch types exactly the password, or exactly the digits of the next code, with a carriage return if that was asked for; nothing if the slot is off; and it fails if there is no such credential or its counter is at its maximum. Reading the configuration shows the kinds of the slots and the names, never passwords. No other command changes a slot; the slots outlive restarts, and a power cut during a command leaves the slots as they were before or as they are after it. So an assigned password is typed after every history that does not assign the slot again or reset the slots.", "quantifier": "every history of OATH commands, configurations, touches, resets, restarts and power cuts at every file operation from the first start of a blank device on", "why_tests_cant": "what a touch types depends on the whole history of assignments, deletions, restarts and cuts", "anchors": ["applets/pass/pass.c:pass_handle_touch", "applets/pass/pass.c:pass_write_config", "applets/pass/pass.c:pass_read_config", "applets/pass/pass.c:pass_update_oath", "applets/pass/pass.c:pass_delete_oath", "applets/pass/pass.c:pass_install", "applets/oath/oath.c:oath_set_default", "applets/oath/oath.c:oath_delete", "applets/oath/oath.c:oath_calculate_by_offset"]}
{"id": "C113", "title": "OATH credential commands are answered by a fixed table", "statement": "On a device with the OATH applet installed, every PUT, DELETE, RENAME, SET DEFAULT and CALCULATE is answered with the status a fixed table gives for its parameters, its data and the credentials stored under their names, and changes the credentials exactly as the table says: refusals (locked, wrong P1 P2, wrong length, wrong data, name in use, name unknown, store full, touch missing, challenge too old, counter at its end) change nothing. A well-formed new credential with a free name is accepted while there is space, and the next CALCULATE with its name gives its code.", "quantifier": "all command data, all stores, all touches, all histories of commands, touches, resets, restarts and power cuts at any file operation", "why_tests_cant": "the data is any byte string, with five nested fields, and the table must hold in every state a history can reach", "anchors": ["applets/oath/oath.c:oath_put", "applets/oath/oath.c:oath_delete", "applets/oath/oath.c:oath_rename", "applets/oath/oath.c:oath_set_default", "applets/oath/oath.c:oath_calculate", "applets/oath/oath.c:oath_process_apdu"]}
{"id": "C114", "title": "The NDEF tag follows a small machine", "statement": "The tag is a message of 1024 bytes, a read-only flag, a selected file and power. Every SELECT, READ BINARY and UPDATE BINARY is answered with exactly the status and the bytes that these determine, for every P1, P2, length and data: reads return the bytes last written or the capability container that shows the flag; updates outside the message, on a read-only tag or without a selection are refused and change nothing. A reset brings back the factory message; a power cut during any other operation leaves message and flag as they were. The answer never depends on earlier contents of the buffer.", "quantifier": "all commands, all lengths and offsets, all histories of commands, owner commands, applet switches, restarts and power cuts at any file operation outside a reset", "why_tests_cant": "the answer depends on the whole history, and the range checks must be right for every offset and length", "anchors": ["applets/ndef/ndef.c:ndef_select", "applets/ndef/ndef.c:ndef_read_binary", "applets/ndef/ndef.c:ndef_update", "applets/ndef/ndef.c:ndef_process_apdu", "applets/ndef/ndef.c:ndef_toggle_read_only", "applets/ndef/ndef.c:ndef_install"]}
{"id": "C115", "title": "The PIV management key handshake follows a small machine", "statement": "Administration rights come from a handshake with the management key. A request for a challenge is answered with eight fresh random bytes and ends the rights held; an answer gives the rights if and only if it is the encryption, with the management key at the time of the request, of the last challenge given out. A request for a witness is answered with the encryption of eight fresh random bytes; returning them with a challenge gives the rights, and the answer is the encryption of that challenge. Every challenge and every witness can be tried once: a wrong answer is refused with 6982 and what was pending is gone, so that further answers are refused until a new one is asked for. Every other command except SELECT, RESET and other uses of GENERAL AUTHENTICATE leaves all this alone; SELECT ends both the handshake and the rights, and the selection of another applet ends the rights. This holds for every encoding of the template, and for every touch policy with a touch.", "quantifier": "all templates in all encodings, all random bytes, all ciphers, all histories of requests and other commands", "why_tests_cant": "whether an answer is accepted depends on the history and on random values, and the template has unboundedly many encodings", "anchors": ["applets/piv/piv.c:piv_general_authenticate", "applets/piv/piv.c:piv_select", "applets/piv/piv.c:piv_poweroff", "applets/piv/piv.c:piv_process_apdu"]}
{"id": "C116", "title": "U2F messages are what a relying party can decode and verify", "statement": "A U2F registration response consists of the byte 05, the uncompressed public key, the key handle behind its length, the attestation certificate, and a signature with the device key over a zero byte, the application and the challenge of the request, the key handle and the public key; a relying party that splits the message gets back exactly these. An authentication response consists of the user presence byte 01, the counter with the most significant byte first, and a signature with the key of the credential over the application of the request, the user presence byte, the counter and the challenge of the request. This holds although the response is written over the request in the same buffer, at every offset of the request, and nothing is written outside the buffer.", "quantifier": "all requests, all offsets of the request in the buffer, all keys and key handles, all certificates, all counter values, all signatures of any length", "why_tests_cant": "request and response overlap, and the position of the signature depends on the length of the certificate; a wrong order of reads and writes shows only for some offsets and lengths", "anchors": ["applets/ctap/u2f.c:u2f_register", "applets/ctap/u2f.c:u2f_authenticate", "applets/ctap/secret.c:sign_with_device_key", "interfaces/USB/class/ctaphid/ctaphid.c:CTAPHID_Execute_Msg"]}
{"id": "C117", "title": "The light follows a small machine, and touches go to the keyboard only when it is dark", "statement": "The light has a normal state, set by the owner. When a touch is wanted or the host asks the device to wink it blinks: it changes at once and then at every update after the interval, until it is stopped or its time is over; a request while it blinks changes nothing; afterwards it is in its normal state. A change of the setting ends the blinking and is seen at once. A touch is taken for the keyboard if and only if the light is not blinking, has not changed for more than a second, and the device has been on for more than 1.5 seconds.", "quantifier": "all histories of requests, updates, stops, changes of the setting and touches, at all times and with all intervals and durations", "why_tests_cant": "the light depends on the whole history and on the clock, which is a 32-bit counter that starts again after 49 days", "anchors": ["src/device.c:device_update_led", "src/device.c:start_blinking_interval", "src/device.c:stop_blinking", "src/device.c:device_allow_kbd_touch", "src/device.c:device_init", "include/device.h:start_blinking"]}
{"id": "C118", "title": "The NFC chip is read and written as asked, with a legal bus", "statement": "With the chip on the I2C bus, a read of registers, EEPROM or queue returns exactly the bytes the chip has at that address, in order, or reports that the chip refused and changes nothing; a write stores exactly the bytes given, in order, or reports the refusal, with a prefix stored. After a success the bus is released; nothing illegal ever happens on the bus, whatever bytes the chip refuses: no transaction begins while the chip holds the data line, the last byte read is not acknowledged, all others are. The checksum of the configuration tells apart any two contents that differ in one byte.", "quantifier": "all addresses, all lengths, all contents, all patterns of refused bytes, all chips that follow the bus protocol, all histories of transactions", "why_tests_cant": "a refusal can happen at any byte of any transaction, and an illegal state of the bus shows only in a later transaction", "anchors": ["interfaces/NFC/fm.c:fm11nt_read", "interfaces/NFC/fm.c:fm11nt_write", "interfaces/NFC/fm.c:fm_crc8", "interfaces/NFC/nfc.c:nfc_handler"]}
{"id": "C119", "title": "CCID responses reach the host in order, complete and unmixed", "statement": "Responses and time extensions on the CCID pipe reach the host in the order in which they were accepted, each complete and ended by a packet that is not full, whatever their length; no transmission is begun before the previous one was taken, a time extension never displaces or splits a response, and the APDU buffer is given back only when the host has received the whole response. Every response is sent.", "quantifier": "all histories of responses of any length, runs of the timer and packets taken by the host, also while the device waits", "why_tests_cant": "the timer, the host and the response race with each other, and the end of a message depends on its length", "anchors": ["interfaces/USB/class/ccid/usbd_ccid.c:CCID_Response_SendData", "interfaces/USB/class/ccid/usbd_ccid.c:USBD_CCID_DataIn", "interfaces/USB/class/ccid/ccid.c:CCID_InFinished", "interfaces/USB/class/ccid/ccid.c:CCID_TimeExtensionLoop"]}
{"id": "C120", "title": "A CTAPHID response is never received garbled", "statement": "The packets of a CTAPHID response go to the host one by one, and the device waits for the host at most 50 milliseconds for each. Whatever packets are lost because the host is slow, the host gets the others in order, and if it can put them together to a response then this is exactly the response that was sent, with its channel and command. A host that takes a packet within every 50 milliseconds gets all of them. No packet of a response is lost.", "quantifier": "all responses of up to 7609 bytes, all channels and commands, all moments at which the host takes packets, any packet already on its way", "why_tests_cant": "which packets are lost depends on the timing of the host, and the packets that remain could in principle fit together", "anchors": ["interfaces/USB/class/ctaphid/usbd_ctaphid.c:USBD_CTAPHID_SendReport", "interfaces/USB/class/ctaphid/usbd_ctaphid.c:USBD_CTAPHID_DataIn", "interfaces/USB/class/ctaphid/ctaphid.c:CTAPHID_SendResponse"]}
{"id": "C121", "title": "The reported use of the flash memory is the truth", "statement": "The administration command that asks for the use of the flash memory answers with success only with the space in use and the size of the memory, both in KiB rounded down, the former not larger than the latter; if the use cannot be determined it answers with an error. Commands with wrong parameters, or with no room for the answer, are refused without data.", "quantifier": "all block sizes and numbers of blocks, all numbers of blocks in use, all errors of the file system", "why_tests_cant": "tests run with one geometry and a file system that works", "anchors": ["applets/admin/admin.c:admin_flash_usage", "src/fs.c:get_fs_size", "src/fs.c:get_fs_usage"]}
{"id": "C122", "title": "The functions for the SPI variant of the NFC chip reach exactly what they name", "statement": "With the NFC chip that is connected by SPI, each call to read or write registers, EEPROM or queue returns and changes exactly the bytes it names, in every history of calls; the EEPROM is opened for one write only; the chip is selected and released in turn and never left selected. The configuration at the start puts the answers of the card in their places and changes nothing else, and it ends only when they were read back correctly, whatever the chip does.", "quantifier": "all histories of calls, all addresses that fit into the command, all data, all previous contents of the chip; for the last part all chips", "why_tests_cant": "the hardware is replaced in tests, and a wrong command byte affects another memory of the chip", "anchors": ["interfaces/NFC/fm.c:fm_read_regs", "interfaces/NFC/fm.c:fm_write_regs", "interfaces/NFC/fm.c:fm_read_eeprom", "interfaces/NFC/fm.c:fm_write_eeprom", "interfaces/NFC/fm.c:fm_read_fifo", "interfaces/NFC/fm.c:fm_write_fifo", "interfaces/NFC/fm.c:fm11_init"]}
{"id": "C123", "title": "The configuration of the I2C variant of the NFC chip is complete and has the right checksum", "statement": "After the start the memory of the NFC chip that is connected by I2C holds the configuration, the answers of the card to a reader, and the checksum over the serial number, ATQA and SAK that are in it; the serial number and everything else in the memory is as before, and the bus was used legally, whatever bytes the chip refuses.", "quantifier": "all previous contents of the memory, all contents of the stack, all bytes that the chip may refuse", "why_tests_cant": "the hardware is replaced in tests, and refusals come at arbitrary moments", "anchors": ["interfaces/NFC/fm.c:fm11_init", "interfaces/NFC/fm.c:fm_crc8", "interfaces/NFC/fm.c:fm11nt_read", "interfaces/NFC/fm.c:fm11nt_write"]}
