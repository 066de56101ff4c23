{
 "claims": [
  {
   "property": "C01",
   "status": "proved",
   "theorems": [
    "Verif.Pin.C01_blocked_stays_blocked"
   ],
   "note": "all histories without create/update/clear, under arbitrary storage faults and power cuts"
  },
  {
   "property": "C02",
   "status": "proved",
   "theorems": [
    "Verif.Pin.C02_guess_budget",
    "Verif.Pin.C02_refines_abstract_pin"
   ],
   "note": ""
  },
  {
   "property": "C03",
   "status": "proved",
   "theorems": [
    "Verif.Pin.C03_validated_only_by_pin",
    "Verif.Pin.C03_memcmp_assumption_needed"
   ],
   "note": "assumes memcmp_s returns 0 iff equal and never 1"
  },
  {
   "property": "C04",
   "status": "partial",
   "theorems": [
    "Verif.Pin.C04_power_cut_partial",
    "Verif.Pin.C04_uncharged_guess"
   ],
   "note": "the counter is written after the comparison: a cut in between is not charged (proved)"
  },
  {
   "property": "C05",
   "status": "proved",
   "theorems": [
    "Verif.Apdu.C05_decode_iff",
    "Verif.Apdu.C05_never_oob"
   ],
   "note": ""
  },
  {
   "property": "C06",
   "status": "proved",
   "theorems": [
    "Verif.Apdu.C06_chain_is_concatenation"
   ],
   "note": "for commands that go through chaining (not PIV GET/PUT DATA, not the eject command), when no chain with the same header is pending"
  },
  {
   "property": "C07",
   "status": "partial",
   "theorems": [
    "Verif.Apdu.C07_never_overruns",
    "Verif.Apdu.C07_refused_block_is_dropped"
   ],
   "note": "memory safety is proved; the stronger wish (a chain with a refused block is not executed) is refuted by C07_refused_block_is_dropped"
  },
  {
   "property": "C08",
   "status": "proved",
   "theorems": [
    "Verif.Apdu.C08_response_chaining",
    "Verif.Apdu.C08_answers_concat",
    "Verif.Apdu.C08_answers_sw"
   ],
   "note": ""
  },
  {
   "property": "C09",
   "status": "partial",
   "theorems": [
    "Verif.Apdu.C09_stale_response",
    "Verif.Apdu.C09_after_select_partial"
   ],
   "note": "refuted for OATH/admin/NDEF; proved after SELECT of an applet that answers through chaining"
  },
  {
   "property": "C10",
   "status": "proved",
   "theorems": [
    "Verif.Apdu.C10_only_current_applet",
    "Verif.Apdu.C10_history_isolated",
    "Verif.Apdu.C10_select",
    "Verif.Apdu.C10_before_select"
   ],
   "note": "FIDO is not powered off by a switch (code behaviour, visible in C10_select)"
  },
  {
   "property": "C11",
   "status": "proved",
   "theorems": [
    "Verif.Apdu.C11_mutual_exclusion",
    "Verif.Apdu.C11_acquire_release"
   ],
   "note": ""
  },
  {
   "property": "C12",
   "status": "proved",
   "theorems": [
    "Verif.Key.C12_tlv_iff",
    "Verif.Key.C12_never_oob",
    "Verif.Key.C12_error_iff"
   ],
   "note": ""
  },
  {
   "property": "C13",
   "status": "partial",
   "theorems": [
    "Verif.Key.C13_key_in_bounds_partial",
    "Verif.Key.C13_policies_oob_iff",
    "Verif.Key.C13_import_in_bounds_partial",
    "Verif.Key.C13_import_oob_witness"
   ],
   "note": "the code reads past the command for truncated policies: exact characterisation and witness proved; everything else proved in bounds"
  },
  {
   "property": "C14",
   "status": "partial",
   "theorems": [
    "Verif.Key.C14_template_in_bounds_partial",
    "Verif.Key.C14_import_oob_iff"
   ],
   "note": "the code reads out of bounds for a truncated control reference template: exact characterisation proved"
  },
  {
   "property": "C15",
   "status": "proved",
   "theorems": [
    "Verif.Oath.C15_names_unique",
    "Verif.Oath.C15_names_unique_from",
    "Verif.Oath.C15_put_refused"
   ],
   "note": "under arbitrary storage faults and power cuts"
  },
  {
   "property": "C16",
   "status": "proved",
   "theorems": [
    "Verif.Oath.C16_step_refines",
    "Verif.Oath.C16_history_refines",
    "Verif.Oath.C16_put_answers",
    "Verif.Oath.C16_delete_answers",
    "Verif.Oath.C16_rename_answers",
    "Verif.Oath.C16_calculate_answers"
   ],
   "note": "a boot whose size query fails re-creates an empty store (visible in StoreStep, install)"
  },
  {
   "property": "C17",
   "status": "proved",
   "theorems": [
    "Verif.Oath.C17_code_uses_next_counter",
    "Verif.Oath.C17_factors_strictly_increase",
    "Verif.Oath.C17_maximum_refuses",
    "Verif.Oath.C17_write_error_repeats_code"
   ],
   "note": "for power cuts anywhere; with a file system that reports write errors the code can repeat (C17_write_error_repeats_code)"
  },
  {
   "property": "C18",
   "status": "proved",
   "theorems": [
    "Verif.Oath.C18_calculate",
    "Verif.Oath.C18_calculate_all",
    "Verif.Oath.C18_never_goes_back",
    "Verif.Oath.C18_stored_never_decreases"
   ],
   "note": "for power cuts anywhere, no file-system errors"
  },
  {
   "property": "C19",
   "status": "proved",
   "theorems": [
    "Verif.Oath.C19_gate",
    "Verif.Oath.C19_locked_step",
    "Verif.Oath.C19_only_validate_unlocks",
    "Verif.Oath.C19_select_announces_challenge",
    "Verif.Oath.C19_select_keeps_session"
   ],
   "note": ""
  },
  {
   "property": "C20",
   "status": "proved",
   "theorems": [
    "Verif.Oath.C20_list_complete",
    "Verif.Oath.C20_list_leaks_no_key"
   ],
   "note": "pages of at least 67 bytes; no faults during the listing"
  },
  {
   "property": "C21",
   "status": "partial",
   "theorems": [
    "Verif.Oath.C21_delete_clears_slot_partial",
    "Verif.Oath.C21_refuted_two_slots"
   ],
   "note": "false when both slots refer to the credential (C21_refuted_two_slots); proved otherwise"
  },
  {
   "property": "C22",
   "status": "proved",
   "theorems": [
    "Verif.Oath.C22_typed_code"
   ],
   "note": ""
  },
  {
   "property": "C23",
   "status": "proved",
   "theorems": [
    "Verif.Oath.C23_passwords_not_read_back"
   ],
   "note": ""
  },
  {
   "property": "C24",
   "status": "proved",
   "theorems": [
    "Verif.Kbd.C24_safe",
    "Verif.Kbd.C24_types_exactly",
    "Verif.Kbd.C24_types_typeable",
    "Verif.Kbd.C24_touch_starts",
    "Verif.Kbd.C24_finishes",
    "Verif.Kbd.C24_eject_leaves_key_down"
   ],
   "note": "without the eject command and USB resets in the middle of typing; the eject command can leave a key down (C24_eject_leaves_key_down)"
  },
  {
   "property": "C25",
   "status": "proved",
   "theorems": [
    "Verif.Ndef.C25_reads_last_written",
    "Verif.Ndef.C25_message_is_last_written",
    "Verif.Ndef.C25_refused_changes_nothing",
    "Verif.Ndef.C25_in_range_accepted",
    "Verif.Ndef.C25_reset_cut_reads_stale"
   ],
   "note": "a power cut inside the reset of the applet leaves a short file (C25_reset_cut_reads_stale)"
  },
  {
   "property": "C26",
   "status": "proved",
   "theorems": [
    "Verif.Ndef.C26_read_only_unchanged",
    "Verif.Ndef.C26_toggle_sets_read_only",
    "Verif.Ndef.C26_boot_read_error_unlocks"
   ],
   "note": "without read errors of the capability container at boot (C26_boot_read_error_unlocks)"
  },
  {
   "property": "C27",
   "status": "proved",
   "theorems": [
    "Verif.Admin.C27_gate",
    "Verif.Admin.C27_verified_may_configure",
    "Verif.Admin.C27_long_candidate_accepted"
   ],
   "note": "under arbitrary faults and arbitrary behaviour of the other applets"
  },
  {
   "property": "C28",
   "status": "proved",
   "theorems": [
    "Verif.Admin.C28_serial_is_final",
    "Verif.Admin.C28_blank_serial_is_final",
    "Verif.Admin.C28_cut_leaves_blank_serial",
    "Verif.Admin.C28_read_error_allows_overwrite"
   ],
   "note": "with power cuts anywhere; a storage error while the file size is queried allows overwriting (C28_read_error_allows_overwrite)"
  },
  {
   "property": "C29",
   "status": "proved",
   "theorems": [
    "Verif.Admin.C29_only_if",
    "Verif.Admin.C29_if",
    "Verif.Admin.C29_resets_everything",
    "Verif.Admin.C29_read_error_skips_blocked_check"
   ],
   "note": "with power cuts anywhere; a storage error while the retry counter is read skips the blocked check (C29_read_error_skips_blocked_check)"
  },
  {
   "property": "C30",
   "status": "proved",
   "theorems": [
    "Verif.Piv.C30_admin_needs_key",
    "Verif.Piv.C30_nothing_managed",
    "Verif.Piv.C30_key_suffices",
    "Verif.Piv.Ex.C30_storage_error"
   ],
   "note": "with power cuts anywhere; a storage error while a challenge is prepared lets eight zero bytes pass (C30_storage_error)"
  },
  {
   "property": "C31",
   "status": "proved",
   "theorems": [
    "Verif.Piv.C31_policies_obeyed"
   ],
   "note": "under arbitrary faults"
  },
  {
   "property": "C32",
   "status": "proved",
   "theorems": [
    "Verif.Piv.C32_capacity",
    "Verif.Piv.C32_protected",
    "Verif.Piv.C32_only_put_writes",
    "Verif.Piv.C32_chained_put",
    "Verif.Piv.C32_read_back"
   ],
   "note": "capacity, protection and isolation under arbitrary faults; chaining and reading back without faults during the transfer"
  },
  {
   "property": "C33",
   "status": "proved",
   "theorems": [
    "Verif.Piv.C33_unblock_needs_puk",
    "Verif.Piv.C33_secrets_change",
    "Verif.Piv.C33_reset_needs_blocked",
    "Verif.Piv.C33_reset_available",
    "Verif.Piv.Ex.C33_storage_error"
   ],
   "note": "RESET with power cuts anywhere; if the tries cannot be read, RESET takes them for zero (C33_storage_error)"
  },
  {
   "property": "C34",
   "status": "partial",
   "theorems": [
    "Verif.Piv.C34_puk_and_mgmt",
    "Verif.Piv.C34_pin_partial",
    "Verif.Piv.Ex.C34_refuted",
    "Verif.Piv.Ex.C34_refuted'"
   ],
   "note": "PUK and management key: proved. PIN: proved except after RESET RETRY COUNTER, where the code violates it (C34_refuted)"
  },
  {
   "property": "C35",
   "status": "proved",
   "theorems": [
    "Verif.Pgp.C35_sign_needs_pw1",
    "Verif.Pgp.C35_exactly_one",
    "Verif.Pgp.C35_verify_ok",
    "Verif.Pgp.C35_signature_given",
    "Verif.Pgp.C35_signature_refused"
   ],
   "note": "only-if under arbitrary faults; exactly-one without faults"
  },
  {
   "property": "C36",
   "status": "proved",
   "theorems": [
    "Verif.Pgp.C36_use_needs_pw1"
   ],
   "note": "under arbitrary faults"
  },
  {
   "property": "C37",
   "status": "partial",
   "theorems": [
    "Verif.Pgp.C37_put_and_import_partial",
    "Verif.Pgp.Ex.C37_generate_refuted"
   ],
   "note": "PUT DATA and import: proved under arbitrary faults. Generation of keys does not ask for PW3 (C37_generate_refuted)"
  },
  {
   "property": "C38",
   "status": "proved",
   "theorems": [
    "Verif.Pgp.C38_permanent_stays",
    "Verif.Pgp.C38_touch_needed",
    "Verif.Pgp.Ex.C38_boot_error_witness"
   ],
   "note": "without storage errors while the device starts (C38_boot_error_witness)"
  },
  {
   "property": "C39",
   "status": "proved",
   "theorems": [
    "Verif.Pgp.C39_counter_counts",
    "Verif.Pgp.C39_counter_reported"
   ],
   "note": "modulo 2^24; an interrupted import or generation may leave the new key with the old counter"
  },
  {
   "property": "C40",
   "status": "proved",
   "theorems": [
    "Verif.Pgp.C40_terminated_is_closed",
    "Verif.Pgp.C40_activate_installs",
    "Verif.Pgp.C40_terminate_needs_pw3",
    "Verif.Pgp.C40_terminate_effect",
    "Verif.Pgp.Ex.C40_first_start_witness"
   ],
   "note": "a power cut during the very first start leaves an applet that answers everything with 6900 (C40_first_start_witness)"
  },
  {
   "property": "C41",
   "status": "proved",
   "theorems": [
    "Verif.Device.C41_every_grant_fits",
    "Verif.Device.C41_touch_used_once",
    "Verif.Device.C41_five_touches",
    "Verif.Device.C41_touch_is_recent",
    "Verif.Device.C41_touch_is_accepted",
    "Verif.Device.C41_wait_ends"
   ],
   "note": "the expiry of a touch is platform code: hypothesis Prompt of C41_touch_is_recent"
  },
  {
   "property": "C42",
   "status": "proved",
   "theorems": [
    "Verif.Hid.C42_dispatched_once",
    "Verif.Hid.C42_broadcast_init",
    "Verif.Hid.C42_timeout_swallows"
   ],
   "note": "every message whose packets are processed within the timeout of 800 ms"
  },
  {
   "property": "C43",
   "status": "partial",
   "theorems": [
    "Verif.Hid.C43_response_reassembles_partial",
    "Verif.Hid.C43_refuted"
   ],
   "note": "proved when no packet arrives during the transmission; false otherwise (C43_refuted)"
  },
  {
   "property": "C44",
   "status": "partial",
   "theorems": [
    "Verif.Hid.C44_buffer_safe_partial",
    "Verif.Hid.C44_refuted",
    "Verif.Hid.C44_refuted_msg"
   ],
   "note": "proved without oversized INIT commands and without oversized messages arriving during processing; false otherwise (C44_refuted)"
  },
  {
   "property": "C45",
   "status": "partial",
   "theorems": [
    "Verif.Hid.C45_interleaved_partial",
    "Verif.Hid.C45_refuted"
   ],
   "note": "proved while a message is being received; false while waiting for the user (C45_refuted)"
  },
  {
   "property": "C46",
   "status": "proved",
   "theorems": [
    "Verif.Ccid.C46_xfrblock",
    "Verif.Ccid.C46_other_commands",
    "Verif.Ccid.C46_stale_response"
   ],
   "note": "every packetisation, with turns of the main loop and other interfaces in between; a command for a slot that does not exist is answered with stale data (C46_stale_response)"
  },
  {
   "property": "C47",
   "status": "partial",
   "theorems": [
    "Verif.Ccid.C47_buffer_safe_partial",
    "Verif.Ccid.C47_refuted",
    "Verif.Ccid.C47_refuted_race"
   ],
   "note": "proved when no XfrBlock announces more than 1342 bytes and no packet arrives between two reads of the header; false otherwise"
  },
  {
   "property": "C48",
   "status": "partial",
   "theorems": [
    "Verif.Nfc.C48_exchange_partial",
    "Verif.Nfc.C48_refuted",
    "Verif.Nfc.C48_refuted_error"
   ],
   "note": "proved for lost command blocks and any losses while the response is received; false if the acknowledgement of a command block is lost (C48_refuted) or the chip reports an error during execution (C48_refuted_error)"
  },
  {
   "property": "C49",
   "status": "partial",
   "theorems": [
    "Verif.Nfc.C49_buffer_safe_partial",
    "Verif.Nfc.C49_refuted",
    "Verif.Nfc.C49_refuted_short",
    "Verif.Nfc.C49_refuted_read",
    "Verif.Nfc.C49_stale"
   ],
   "note": "proved for blocks of at least three bytes, chains of at most 1342 bytes and no R-block after an error; each condition is necessary"
  },
  {
   "property": "C50",
   "status": "partial",
   "theorems": [
    "Verif.WebUsb.C50_exchange_partial",
    "Verif.WebUsb.C50_held_partial",
    "Verif.WebUsb.C50_refuted",
    "Verif.WebUsb.C50_refuted_race",
    "Verif.WebUsb.C50_refuted_reset",
    "Verif.WebUsb.C50_never_released"
   ],
   "note": "every interleaving without descriptor requests, without a request at the very moment of the timeout, and without configuration during execution; each is necessary"
  },
  {
   "property": "C51",
   "status": "proved",
   "theorems": [
    "Verif.Ctap.C51_charged_at_most_once",
    "Verif.Ctap.C51_no_free_guess"
   ],
   "note": "under arbitrary faults and power cuts"
  },
  {
   "property": "C52",
   "status": "proved",
   "theorems": [
    "Verif.Ctap.C52_blocked_until_reset",
    "Verif.Ctap.C52_locked_until_power_cycle",
    "Verif.Ctap.C52_three_per_session",
    "Verif.Ctap.C52_total",
    "Verif.Ctap.C52_reachable"
   ],
   "note": "boots without storage errors"
  },
  {
   "property": "C53",
   "status": "proved",
   "theorems": [
    "Verif.Ctap.C53_token_needs_pin",
    "Verif.Ctap.C53_no_gain",
    "Verif.Ctap.C53_token_as_requested",
    "Verif.Ctap.C53_registration",
    "Verif.Ctap.C53_assertion",
    "Verif.Ctap.C53_next_assertion",
    "Verif.Ctap.C53_management",
    "Verif.Ctap.C53_large_blobs"
   ],
   "note": "under arbitrary faults and power cuts; enumerations in progress are continued without a token (see C73)"
  },
  {
   "property": "C54",
   "status": "proved",
   "theorems": [
    "Verif.Ctap.C54_expired"
   ],
   "note": "without wrap of the clock; a failed authentication counts as use"
  },
  {
   "property": "C55",
   "status": "partial",
   "theorems": [
    "Verif.Ctap.C55_refuted",
    "Verif.Ctap.C55_after_registration_partial",
    "Verif.Ctap.C55_after_assertion_partial"
   ],
   "note": "false (C55_refuted); what holds: the token is then good for credential management only"
  },
  {
   "property": "C56",
   "status": "proved",
   "theorems": [
    "Verif.Ctap.C56_between_updates",
    "Verif.Ctap.C56_check",
    "Verif.Ctap.C56_answered",
    "Verif.Ctap.C56_storage_error_in_recovery",
    "Verif.Ctap.C56_interrupted_reset"
   ],
   "note": "power cuts anywhere, also in recoveries; storage errors anywhere but in a boot or a recovery (C56_storage_error_in_recovery: there it fails); between resets (C56_interrupted_reset)"
  },
  {
   "property": "C57",
   "status": "partial",
   "theorems": [
    "Verif.Ctap.C57_refuted",
    "Verif.Ctap.C57_reported_partial"
   ],
   "note": "false (C57_refuted: a replaced credential is counted twice); proved for histories that replace none, with power cuts anywhere"
  },
  {
   "property": "C58",
   "status": "proved",
   "theorems": [
    "Verif.Ctap.C58_assertion",
    "Verif.Ctap.C58_next_assertion"
   ],
   "note": "under arbitrary faults and power cuts"
  },
  {
   "property": "C59",
   "status": "partial",
   "theorems": [
    "Verif.Ctap.C59_refuted",
    "Verif.Ctap.C59_any_credential",
    "Verif.Ctap.C59_own_credential_partial"
   ],
   "note": "false for every credential (C59_any_credential); what holds: U2F signs only with credentials this device made for the relying party named, after a touch"
  },
  {
   "property": "C60",
   "status": "proved",
   "theorems": [
    "Verif.Ctap.C60_step",
    "Verif.Ctap.C60_persisted",
    "Verif.Ctap.C60_strictly_increasing"
   ],
   "note": "under arbitrary faults and power cuts, between resets, until 2^32 signatures"
  },
  {
   "property": "C61",
   "status": "proved",
   "theorems": [
    "Verif.Ctap.C61_order",
    "Verif.Ctap.C61_all",
    "Verif.Ctap.mem_matching",
    "Verif.Ctap.matching_sorted"
   ],
   "note": "C61_order under arbitrary faults; C61_all without faults, for commands within 30 s and usable credentials"
  },
  {
   "property": "C62",
   "status": "proved",
   "theorems": [
    "Verif.Ctap.C62_changes",
    "Verif.Ctap.C62_incomplete",
    "Verif.Ctap.C62_read",
    "Verif.Ctap.C62_stored"
   ],
   "note": "under arbitrary faults and power cuts; between resets, boots without read errors; C62_stored without faults"
  },
  {
   "property": "C63",
   "status": "partial",
   "theorems": [
    "Verif.Ctap.Parse.C63_new_pin_enc_refuted",
    "Verif.Ctap.Parse.C63_pin_hash_enc_refuted",
    "Verif.Ctap.Parse.C63_client_pin_partial",
    "Verif.Ctap.Parse.C63_other_commands"
   ],
   "note": "false for every clientPIN request that begins with a long newPinEnc or pinHashEnc; proved for all other commands and for clientPIN with the protocol before them"
  },
  {
   "property": "C64",
   "status": "proved",
   "theorems": [
    "Verif.Ctap.C64_created",
    "Verif.Ctap.C64_accepted",
    "Verif.Ctap.C64_bound",
    "Verif.Ctap.C64_algorithm_not_bound"
   ],
   "note": "under arbitrary faults and power cuts, between resets, for identifiers of full length, up to collisions of the MAC; the algorithm is not bound (C64_algorithm_not_bound)"
  },
  {
   "property": "C65",
   "status": "proved",
   "theorems": [
    "Verif.Ctap.C65_window",
    "Verif.Ctap.C65_refused",
    "Verif.Ctap.C65_wrap"
   ],
   "note": "until the 32-bit millisecond clock wraps (C65_wrap: the window opens again after 49.7 days)"
  },
  {
   "property": "C66",
   "status": "proved",
   "theorems": [
    "Verif.Ctap.Parse.C66_first_supported"
   ],
   "note": ""
  },
  {
   "property": "C67",
   "status": "proved",
   "theorems": [
    "Verif.Key.C67_piv_ec",
    "Verif.Key.C67_piv_rsa"
   ],
   "note": "X25519 goes through an external byte swap and is excluded from C67_piv_ec"
  },
  {
   "property": "C68",
   "status": "proved",
   "theorems": [
    "Verif.Key.C68_openpgp_ec",
    "Verif.Key.C68_openpgp_rsa"
   ],
   "note": ""
  },
  {
   "property": "C69",
   "status": "proved",
   "theorems": [
    "Verif.Pgp.C69_right_key"
   ],
   "note": "under arbitrary faults"
  },
  {
   "property": "C70",
   "status": "partial",
   "theorems": [
    "Verif.Ccid.C70_buffer_respected_partial",
    "Verif.Ccid.C70_refused",
    "Verif.Ccid.C70_refuted"
   ],
   "note": "proved for hosts that wait for responses; false otherwise (C70_refuted)"
  },
  {
   "property": "C71",
   "status": "partial",
   "theorems": [
    "Verif.Ctap.C71_refuted",
    "Verif.Ctap.C71_partial"
   ],
   "note": "false (C71_refuted: the credBlob of another relying party is returned); proved without allow list and for resident credentials"
  },
  {
   "property": "C72",
   "status": "partial",
   "theorems": [
    "Verif.Ctap.C72_refuted",
    "Verif.Ctap.C72_partial",
    "Verif.Ctap.C72_admin_partial",
    "Verif.Ctap.C72_only_new_credentials"
   ],
   "note": "false when interrupted (C72_refuted: the PIN is gone, a credential it protected still signs); what holds: at every point nothing is changed or all resident credentials are gone, and a reset that succeeds leaves nothing"
  },
  {
   "property": "C73",
   "status": "partial",
   "theorems": [
    "Verif.Ctap.C73_refuted",
    "Verif.Ctap.C73_uninit",
    "Verif.Ctap.C73_partial",
    "Verif.Ctap.C53_management"
   ],
   "note": "false (C73_refuted); what holds: the get-next subcommands return something only if an enumeration was begun with a valid token since power-on"
  },
  {
   "property": "C74",
   "status": "partial",
   "theorems": [
    "Verif.Ctap.C74_refuted",
    "Verif.Ctap.C74_partial",
    "Verif.Ctap.C74_right_pin_gives_token"
   ],
   "note": "false when interrupted (C74_refuted); proved when the command is answered"
  },
  {
   "property": "C75",
   "status": "proved",
   "theorems": [
    "Verif.Ctap.C75_registration",
    "Verif.Ctap.C75_assertion",
    "Verif.Ctap.C75_next_assertion",
    "Verif.Ctap.C75_u2f"
   ],
   "note": ""
  },
  {
   "property": "C76",
   "status": "partial",
   "theorems": [
    "Verif.Ctap.Parse.C76_registration",
    "Verif.Ctap.Parse.C76_assertion_partial",
    "Verif.Ctap.Parse.C76_token",
    "Verif.Ctap.Parse.C76_same_party",
    "Verif.Ctap.Parse.C76_longest_id_refuted"
   ],
   "note": "false for identifiers of exactly 254 bytes; proved for all others"
  },
  {
   "property": "C77",
   "status": "partial",
   "theorems": [
    "Verif.Ctap.Parse.C77_registration_partial",
    "Verif.Ctap.Parse.C77_assertion",
    "Verif.Ctap.Parse.C77_client_pin",
    "Verif.Ctap.Parse.C77_registration_refuted",
    "Verif.Ctap.Parse.C77_key_agreement_refuted"
   ],
   "note": "false for identifiers in rp and user and for the coordinates of keys; the parameters themselves are present"
  },
  {
   "property": "C78",
   "status": "proved",
   "theorems": [
    "Verif.Hid.C78_nothing_executed",
    "Verif.Hid.C78_only_cancel",
    "Verif.Hid.C78_other_channel",
    "Verif.Hid.C78_own_channel"
   ],
   "note": "the answers are proved for commands of one packet (57 bytes); that nothing is executed and only CANCEL cancels is proved for all sequences of packets"
  },
  {
   "property": "C79",
   "status": "proved",
   "theorems": [
    "Verif.Nfc.C79_only_in_reply",
    "Verif.Nfc.C79_short_frames"
   ],
   "note": ""
  },
  {
   "property": "C80",
   "status": "partial",
   "theorems": [
    "Verif.Usb.Ex.C80_refuted",
    "Verif.Usb.C80_transfer_partial"
   ],
   "note": "false for GET_STATUS with length 1 (C80_refuted); proved for everything else, for all lengths, packet sizes and interleavings"
  },
  {
   "property": "C81",
   "status": "partial",
   "theorems": [
    "Verif.Usb.Ex.C81_refuted",
    "Verif.Usb.C81_leak",
    "Verif.Usb.C81_descriptors_partial"
   ],
   "note": "false for the configuration descriptor without keyboard (C81_leak says exactly what is sent); proved for all other descriptors"
  },
  {
   "property": "C82",
   "status": "proved",
   "theorems": [
    "Verif.Usb.C82_configuration_descriptor"
   ],
   "note": ""
  },
  {
   "property": "C83",
   "status": "partial",
   "theorems": [
    "Verif.Usb.C83_nothing_before_configuration",
    "Verif.Usb.C83_state_partial",
    "Verif.Usb.C83_get_configuration_partial",
    "Verif.Usb.Ex.C83_reset_refuted",
    "Verif.Usb.Ex.C83_suspend_refuted",
    "Verif.Usb.Ex.C83_type_refuted"
   ],
   "note": "the first part holds for all histories; the state is as expected if suspensions and resumptions alternate and the bus is silent in between"
  },
  {
   "property": "C84",
   "status": "proved",
   "theorems": [
    "Verif.Usb.C84_memory_safe",
    "Verif.Usb.C84_out_region"
   ],
   "note": ""
  },
  {
   "property": "C85",
   "status": "partial",
   "theorems": [
    "Verif.Usb.C85_command_partial",
    "Verif.Usb.Ex.C85_refuted",
    "Verif.Usb.Ex.C85_empty_command"
   ],
   "note": "proved for data sent in full packets; false otherwise (C85_refuted); a command without data blocks the interface (C85_empty_command)"
  },
  {
   "property": "C86",
   "status": "proved",
   "theorems": [
    "Verif.Ctap.C86_works",
    "Verif.Ctap.C86_found"
   ],
   "note": "power cuts anywhere; storage errors anywhere but in a boot or a recovery, and not during the assertion itself; no reset; the random generator does not repeat the nonce of a resident credential; C86_found: the relying party, with every credential in the list usable"
  },
  {
   "property": "C87",
   "status": "partial",
   "theorems": [
    "Verif.Ctap.C87_deleted_partial",
    "Verif.Ctap.C87_refuted"
   ],
   "note": "false for U2F (C87_refuted); proved for getAssertion and getNextAssertion"
  },
  {
   "property": "C88",
   "status": "proved",
   "theorems": [
    "Verif.Ctap.C88_not_twice",
    "Verif.Ctap.C88_refusal",
    "Verif.Ctap.C88_history"
   ],
   "note": "for identifiers of full length (70 bytes); credentials that were deleted count as created"
  },
  {
   "property": "C89",
   "status": "partial",
   "theorems": [
    "Verif.Ctap.C89_order",
    "Verif.Ctap.C89_all",
    "Verif.Ctap.C89_none",
    "Verif.Ctap.C89_rps_partial",
    "Verif.Ctap.C89_refuted"
   ],
   "note": "credentials: proved; relying parties: proved for as many commands as announced, false for one more (C89_refuted); C89_none for histories in which no registration replaced a credential (the counter is wrong after that, C57)"
  },
  {
   "property": "C90",
   "status": "partial",
   "theorems": [
    "Verif.Ctap.Enc.C90_messages_partial",
    "Verif.Ctap.Enc.C90_fits",
    "Verif.Ctap.C90_history_partial",
    "Verif.Ctap.Enc.C90_refuted_cert",
    "Verif.Ctap.Enc.C90_refuted_sm2",
    "Verif.Ctap.Enc.C90_refuted_listing"
   ],
   "note": "false for certificates of 1152 bytes, for SM2 keys in enumerations and for long SM2 identifiers; proved otherwise for certificates of up to 900 bytes; for larger ones C90_fits says that a registration is answered rightly exactly if the answer fits into the buffer"
  },
  {
   "property": "C91",
   "status": "partial",
   "theorems": [
    "Verif.Pgp.C91_pins_change_partial",
    "Verif.Pgp.Ex.C91_read_error_refuted"
   ],
   "note": "false if a read fails in CHANGE REFERENCE DATA or RESET RETRY COUNTER (C91_read_error_refuted, stated for a read error of the size of the PIN file); proved with power cuts anywhere and storage errors everywhere else, except while the device starts"
  },
  {
   "property": "C92",
   "status": "proved",
   "theorems": [
    "Verif.Card.C92_openpgp",
    "Verif.Card.C92_piv",
    "Verif.Card.C92_ndef",
    "Verif.Card.C92_oath",
    "Verif.Card.C92_fido"
   ],
   "note": "the admin applet, which resets the others, is the subject of C94"
  },
  {
   "property": "C93",
   "status": "proved",
   "theorems": [
    "Verif.Card.C93_openpgp_sign",
    "Verif.Card.C93_openpgp_decipher",
    "Verif.Card.C93_piv_key"
   ],
   "note": ""
  },
  {
   "property": "C94",
   "status": "proved",
   "theorems": [
    "Verif.Card.C94_admin_gate",
    "Verif.Card.C94_only_admin",
    "Verif.Card.C94_serial_is_final",
    "Verif.Card.C94_factory_conditions"
   ],
   "note": ""
  },
  {
   "property": "C95",
   "status": "partial",
   "theorems": [
    "Verif.Card.C95_reset_erases_partial",
    "Verif.Card.C95_factory_erases_partial",
    "Verif.Card.Ex.C95_refuted"
   ],
   "note": "FIDO data are erased only if no storage operation fails without loss of power: otherwise 9000 is answered although nothing was erased (C95_refuted)"
  },
  {
   "property": "C96",
   "status": "proved",
   "theorems": [
    "Verif.Pgp.C96_put_then_get",
    "Verif.Pgp.C96_kept",
    "Verif.Pgp.C96_tries_shown",
    "Verif.Pgp.C96_get_answers",
    "Verif.Pgp.C96_offers"
   ],
   "note": "certificates are the subject of C97"
  },
  {
   "property": "C97",
   "status": "partial",
   "theorems": [
    "Verif.Pgp.C97_read_back_partial",
    "Verif.Pgp.C97_next_partial",
    "Verif.Pgp.C97_only_put_partial",
    "Verif.Pgp.C97_get_answers_partial",
    "Verif.Pgp.Ex.C97_refuted",
    "Verif.Pgp.Ex.C97_refuted_refused"
   ],
   "note": "holds for histories in which the applet is not left directly after SELECT DATA or GET DATA 7F21, no write of a selected certificate is refused and SELECT DATA meets no storage error; false otherwise (witnesses C97_refuted, C97_refuted_refused)"
  },
  {
   "property": "C98",
   "status": "partial",
   "theorems": [
    "Verif.Piv.C98_right_key_partial",
    "Verif.Piv.C98_answers",
    "Verif.Piv.C98_answers_freely",
    "Verif.Piv.C98_answer_layout",
    "Verif.Piv.C98_generated",
    "Verif.Piv.C98_generate_answers",
    "Verif.Piv.C98_metadata",
    "Verif.Piv.C98_metadata_answers",
    "Verif.Piv.C98_import_ec",
    "Verif.Piv.C98_import_curve",
    "Verif.Piv.C98_import_rsa",
    "Verif.Piv.C98_kept",
    "Verif.Piv.C98_public_key_partial",
    "Verif.Piv.Ex.Keys.C98_refuted",
    "Verif.Piv.Ex.Keys.C98_refuted'"
   ],
   "note": "false for Ed25519 challenges that are not as long as the private key (C98_refuted); a failed read of the algorithm configuration while switching on erases everything, so C98_kept excludes it"
  },
  {
   "property": "C99",
   "status": "partial",
   "theorems": [
    "Verif.Oath.C99_session",
    "Verif.Oath.C99_session_faults",
    "Verif.Oath.C99_known_to_host",
    "Verif.Oath.C99_validate_partial",
    "Verif.Oath.C99_stranger",
    "Verif.Oath.C99_set_answers",
    "Verif.Oath.C99_clear_answers",
    "Verif.Oath.C99_set_refused",
    "Verif.Oath.ExCode.C99_refuted",
    "Verif.Card.Ex.C99_refuted_card"
   ],
   "note": "all but the last sentence: that a session needs an answer to a challenge of this session is false (C99_refuted, C99_refuted_card)"
  },
  {
   "property": "C100",
   "status": "proved",
   "theorems": [
    "Verif.Fs.C100_all_or_nothing",
    "Verif.Fs.C100_kept",
    "Verif.Fs.C100_one_buffer",
    "Verif.Fs.C100_write_is_atomic",
    "Verif.Fs.C100_append_is_atomic",
    "Verif.Fs.C100_truncate_is_atomic",
    "Verif.Fs.C100_write_attr_is_atomic",
    "Verif.Fs.C100_rename_is_atomic",
    "Verif.Fs.C100_read_is_atomic",
    "Verif.Fs.C100_read_answers",
    "Verif.Fs.C100_write_answers"
   ],
   "note": "littlefs itself (an empty submodule) is modelled from its documentation; writes that empty the file must be in range (witness C100_range_witness)"
  },
  {
   "property": "C101",
   "status": "proved",
   "theorems": [
    "Verif.Piv.C101_secrets",
    "Verif.Piv.C101_secrets_from"
   ],
   "note": "resets interrupted by a power cut are excluded: they leave the PIN files in the middle of their creation"
  },
  {
   "property": "C102",
   "status": "partial",
   "theorems": [
    "Verif.Pgp.C102_pins_partial",
    "Verif.Pgp.C102_pins_from_partial",
    "Verif.Pgp.Ex.Secret.C102_refuted_length",
    "Verif.Pgp.Ex.Secret.C102_refuted_stack"
   ],
   "note": "holds for PIN commands with at most 255 bytes and a non-zero byte on the stack; false otherwise (witnesses C102_refuted_length, C102_refuted_stack); resets interrupted by a power cut are excluded"
  },
  {
   "property": "C103",
   "status": "proved",
   "theorems": [
    "Verif.Ctap.C103_answers",
    "Verif.Ctap.C103_lasts",
    "Verif.Ctap.C103_ctap2"
   ],
   "note": "the signature and the derivation of the key pair are parameters: the claim is about which private key signs what"
  },
  {
   "property": "C104",
   "status": "proved",
   "theorems": [
    "Verif.Ctap.C104_output",
    "Verif.Ctap.C104_unasked",
    "Verif.Ctap.C104_stable",
    "Verif.Ctap.C104_uv",
    "Verif.Ctap.C104_next",
    "Verif.Ctap.C104_blobKey"
   ],
   "note": "AES-CBC and HMAC are parameters; decryption is assumed to invert encryption (Ext.Lawful)"
  },
  {
   "property": "C105",
   "status": "partial",
   "theorems": [
    "Verif.Admin.C105_machine_partial",
    "Verif.Admin.C105_machine_from_partial",
    "Verif.Admin.C105_refuted"
   ],
   "note": "holds for commands with at most 255 bytes of data; false for longer ones (witness C105_refuted: 262 bytes that begin with the PIN are accepted); a factory reset cut by a power failure is excluded; what the other applets do is abstract"
  },
  {
   "property": "C106",
   "status": "proved",
   "theorems": [
    "Verif.Oath.C106_all_complete",
    "Verif.Oath.C106_one_refuses_all"
   ],
   "note": "the HMAC is a parameter; no storage errors during the run (C18 says what a page shows under power cuts)"
  },
  {
   "property": "C107",
   "status": "proved",
   "theorems": [
    "Verif.Props.C107_pin_machine",
    "Verif.Props.C107_first_boot",
    "Verif.Props.C107_parsed_whole",
    "Verif.Props.C107_unacceptable_costs"
   ],
   "note": "the cryptography is a parameter (SHA-256 has 32 bytes, decryption keeps lengths); the file system does not fail with power on"
  },
  {
   "property": "C108",
   "status": "proved",
   "theorems": [
    "Verif.Props.C108_registration",
    "Verif.Props.C108_reached",
    "Verif.Props.C108_without_pin",
    "Verif.Props.C108_with_pin"
   ],
   "note": "storage works and no update is pending; exclude lists of full-length ids (others: C88); the cryptography is a parameter"
  },
  {
   "property": "C109",
   "status": "proved",
   "theorems": [
    "Verif.Props.C109_assertion",
    "Verif.Props.C109_reached",
    "Verif.Props.C109_silent",
    "Verif.Props.C109_hidden"
   ],
   "note": "storage works and no update is pending; hmac-secret is the subject of C104; lists with ids of deleted discoverable credentials show a flaw (C71); the algorithms of the credentials must still be configured"
  },
  {
   "property": "C110",
   "status": "partial",
   "theorems": [
    "Verif.Props.C110_manage",
    "Verif.Props.C110_reached_partial",
    "Verif.Props.C110_again",
    "Verif.Props.C110_deleted",
    "Verif.Props.C110_updated"
   ],
   "note": "storage works, no update is pending and the number that the device keeps is right: it can be wrong after a registration that replaced a credential (C57_refuted), and then metadata are wrong and deletions may be refused"
  },
  {
   "property": "C111",
   "status": "proved",
   "theorems": [
    "Verif.Props.C111_machine",
    "Verif.Props.C111_only",
    "Verif.Props.C111_parsed",
    "Verif.Props.C111_array",
    "Verif.Props.C111_upload"
   ],
   "note": "the cryptography is a parameter; the file system does not fail with power on; the array is hashed with one read"
  },
  {
   "property": "C112",
   "status": "proved",
   "theorems": [
    "Verif.Oath.C112_machine",
    "Verif.Oath.C112_password"
   ],
   "note": "the HMAC is a parameter (20 to 64 bytes); the file system does not fail with power on; that DELETE switches off only one of two slots of the same credential is part of the machine (C21 says why that is a flaw)"
  },
  {
   "property": "C113",
   "status": "proved",
   "theorems": [
    "Verif.Oath.C113_table",
    "Verif.Oath.C113_history",
    "Verif.Oath.C113_wire",
    "Verif.Oath.C113_works"
   ],
   "note": "the HMAC is a parameter (20 to 64 bytes); the file system does not fail with power on; LIST, CALCULATE ALL and the access code have their own claims"
  },
  {
   "property": "C114",
   "status": "proved",
   "theorems": [
    "Verif.Ndef.C114_step",
    "Verif.Ndef.C114_history",
    "Verif.Ndef.C114_life",
    "Verif.Ndef.C114_exact",
    "Verif.Ndef.C114_new",
    "Verif.Ndef.C114_failed_toggle"
   ],
   "note": "the file system does not fail with power on (C114_failed_toggle shows that the claim needs this); a reset is not interrupted (see C25_reset_cut_reads_stale)"
  },
  {
   "property": "C115",
   "status": "proved",
   "theorems": [
    "Verif.Piv.C115_request",
    "Verif.Piv.C115_quiet",
    "Verif.Piv.C115_rekey",
    "Verif.Piv.C115_end",
    "Verif.Piv.C115_history",
    "Verif.Piv.C115_one_try",
    "Verif.Piv.C115_boot"
   ],
   "note": "3DES is a parameter that does not fail; storage errors excluded (C30_storage_error shows why); a history is one session with one management key"
  },
  {
   "property": "C116",
   "status": "partial",
   "theorems": [
    "Verif.U2fMsg.C116_register_partial",
    "Verif.U2fMsg.C116_authenticate",
    "Verif.U2fMsg.C116_no_device_key",
    "Verif.U2fMsg.C116_refuted_cert"
   ],
   "note": "authentication is proved in full; registration for certificates that leave room for signature and status: C116_refuted_cert shows that larger ones, up to the permitted 1152 bytes, make the code write past the buffer; without the device key the response has no signature (C116_no_device_key)"
  },
  {
   "property": "C117",
   "status": "partial",
   "theorems": [
    "Verif.Led.C117_history_partial",
    "Verif.Led.C117_ends",
    "Verif.Led.C117_interrupt_start",
    "Verif.Led.C117_interrupt_stop",
    "Verif.Led.C117_refuted_wrap",
    "Verif.Led.C117_refuted_keyboard"
   ],
   "note": "holds for 49 days minus 255 seconds of operation; when the 32-bit clock starts again the light may stand still for 49 days (C117_refuted_wrap) and touches may be refused for the keyboard until the light blinks again (C117_refuted_keyboard); interrupts between the statements of the other functions change nothing (C117_interrupt_start, C117_interrupt_stop)"
  },
  {
   "property": "C118",
   "status": "partial",
   "theorems": [
    "Verif.Fm.C118_read_partial",
    "Verif.Fm.C118_write",
    "Verif.Fm.C118_legal_partial",
    "Verif.Fm.C118_checksum",
    "Verif.Fm.C118_refuted_empty",
    "Verif.Fm.C118_refuted_stop"
   ],
   "note": "writes and reads of at least one byte: proved for every pattern of refusals; a read of no bytes leaves the chip holding the data line (C118_refuted_empty); after a refusal the bus is not released (C118_refuted_stop), but the next transaction is legal"
  },
  {
   "property": "C119",
   "status": "partial",
   "theorems": [
    "Verif.CcidPipe.C119_in_order",
    "Verif.CcidPipe.C119_release",
    "Verif.CcidPipe.C119_extension_keeps",
    "Verif.CcidPipe.C119_accepted_partial",
    "Verif.CcidPipe.C119_refuted_lost"
   ],
   "note": "order, completeness and the release of the buffer hold in all histories; that every response is sent holds if the host takes what is on its way within 50 ms (C119_accepted_partial) and is false otherwise (C119_refuted_lost)"
  },
  {
   "property": "C120",
   "status": "partial",
   "theorems": [
    "Verif.HidPipe.C120_never_garbled",
    "Verif.HidPipe.C120_complete",
    "Verif.HidPipe.C120_refuted_lost",
    "Verif.HidPipe.Ex.C120_two_responses_mix"
   ],
   "note": "all but the last sentence: packets are lost, without notice, if the host does not take one for 50 ms (C120_refuted_lost); that the packets sent are those of the response is C43; two responses on one channel can be mixed if the host does not wait for the first (C120_two_responses_mix)"
  },
  {
   "property": "C121",
   "status": "partial",
   "theorems": [
    "Verif.FlashUse.C121_usage_partial",
    "Verif.FlashUse.C121_parameters",
    "Verif.FlashUse.C121_applet",
    "Verif.FlashUse.C121_refuted_large",
    "Verif.FlashUse.C121_refuted_error"
   ],
   "note": "holds for memories of less than 256 KiB whose use can be determined; the numbers are reported modulo 256 (C121_refuted_large), and an error of the file system is reported as a use, with success (C121_refuted_error)"
  },
  {
   "property": "C122",
   "status": "proved",
   "theorems": [
    "Verif.FmSpi.C122_refines",
    "Verif.FmSpi.C122_init",
    "Verif.FmSpi.C122_store_any",
    "Verif.FmSpi.C122_address_needed"
   ],
   "note": "the chip is a machine in Spec/FmSpi.lean whose command format is an assumption; the pauses are not modelled"
  },
  {
   "property": "C123",
   "status": "partial",
   "theorems": [
    "Verif.FmNt.C123_configured_partial",
    "Verif.FmNt.C123_others",
    "Verif.FmNt.C123_refuted_stack"
   ],
   "note": "the rest of the memory and the bus are safe whatever the chip refuses (C123_others); that the configuration is complete holds if the chip refuses no byte, and is false otherwise: the results of the functions are ignored, and the checksum is then computed over uninitialised memory (C123_refuted_stack)"
  }
 ]
}