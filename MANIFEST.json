{
 "claims": [
  {
   "property": "C01",
   "status": "proved",
   "theorems": [
    "Verif.Props.Tlv.C01_roundtrip"
   ],
   "note": "Non-empty byte strings; the buffer must stay below 2^31 bytes because the code truncates lengths to int32."
  },
  {
   "property": "C02",
   "status": "partial",
   "theorems": [
    "Verif.Props.Tlv.C02_empty_not_consumed_violated",
    "Verif.Props.Tlv.C02_roundtrip_violated",
    "Verif.Props.Tlv.C02_last_position_partial"
   ],
   "note": "False of the code: an empty byte-string record is never consumed. The violated theorems show it for every continuation; the partial theorem gives the one position where it is harmless."
  },
  {
   "property": "C03",
   "status": "proved",
   "theorems": [
    "Verif.Props.Tlv.C03_unambiguous",
    "Verif.Props.Tlv.C03_injective"
   ],
   "note": "Unique decodability, empty byte strings included."
  },
  {
   "property": "C04",
   "status": "proved",
   "theorems": [
    "Verif.Props.Tlv.C04_error_no_effect"
   ],
   "note": ""
  },
  {
   "property": "C05",
   "status": "partial",
   "theorems": [
    "Verif.Props.Tlv.C05_panics_violated",
    "Verif.Props.Tlv.C05_panic_iff_partial",
    "Verif.Props.Tlv.C05_no_panic_partial"
   ],
   "note": "False of the code: witness for every target type; exact panic condition and a sufficient condition for no panic are proved."
  },
  {
   "property": "C06",
   "status": "partial",
   "theorems": [
    "Verif.Props.Tlv.C06_overread_violated",
    "Verif.Props.Tlv.C06_inside_record_partial",
    "Verif.Props.Tlv.C06_consumes_declared_partial"
   ],
   "note": "False of the code (declared length of integers is not checked against the type). Proved for canonical lengths."
  },
  {
   "property": "C07",
   "status": "proved",
   "theorems": [
    "Verif.Props.Tlv.C07_length",
    "Verif.Props.Tlv.C07_zero"
   ],
   "note": "At value level and at the level of slices and arrays, for every growth policy of append."
  },
  {
   "property": "C08",
   "status": "proved",
   "theorems": [
    "Verif.Props.Secret.C08_rand_all_or_nothing"
   ],
   "note": ""
  },
  {
   "property": "C09",
   "status": "proved",
   "theorems": [
    "Verif.Props.Secret.C09_zero"
   ],
   "note": ""
  },
  {
   "property": "C10",
   "status": "proved",
   "theorems": [
    "Verif.Props.Secret.C10_roundtrip"
   ],
   "note": "For every cipher with the functional law that open inverts seal; the strength of the cipher is not modelled."
  },
  {
   "property": "C11",
   "status": "proved",
   "theorems": [
    "Verif.Props.Secret.C11_decrypt_exact",
    "Verif.Props.Secret.C11_unique_plaintext"
   ],
   "note": "Acceptance is exact relative to the box primitive."
  },
  {
   "property": "C12",
   "status": "proved",
   "theorems": [
    "Verif.Props.Secret.C12_file_roundtrip",
    "Verif.Props.Secret.C12_succeeds"
   ],
   "note": ""
  },
  {
   "property": "C13",
   "status": "partial",
   "theorems": [
    "Verif.Props.Secret.C13_panics_violated",
    "Verif.Props.Secret.C13_no_panic_partial",
    "Verif.Props.Secret.C13_data_or_error_partial"
   ],
   "note": "False of the code: exact panic condition proved (nil key), and absence of panics otherwise."
  },
  {
   "property": "C14",
   "status": "partial",
   "theorems": [
    "Verif.Props.Secret.C14_not_atomic_violated",
    "Verif.Props.Secret.C14_crash_prefix_partial"
   ],
   "note": "False of the code: the write is not atomic. The crash-prefix theorem bounds what can be left behind."
  },
  {
   "property": "C15",
   "status": "proved",
   "theorems": [
    "Verif.Props.Secret.C15_modes",
    "Verif.Props.Secret.C15_no_key_no_crypto"
   ],
   "note": ""
  },
  {
   "property": "C16",
   "status": "proved",
   "theorems": [
    "Verif.Props.Public.C16_private_roundtrip",
    "Verif.Props.Public.C16_public_roundtrip"
   ],
   "note": ""
  },
  {
   "property": "C17",
   "status": "partial",
   "theorems": [
    "Verif.Props.Public.C17_zero_key_violated",
    "Verif.Props.Public.C17_trailing_violated",
    "Verif.Props.Public.C17_panic_violated",
    "Verif.Props.Public.C17_accepted_partial"
   ],
   "note": "False of the code: an empty record yields the all-zero key, trailing data is accepted, hostile lengths panic. The partial theorem characterises acceptance exactly below 2 GiB."
  },
  {
   "property": "C18",
   "status": "partial",
   "theorems": [
    "Verif.Props.Public.C18_exact_partial",
    "Verif.Props.Public.C18_roundtrip_partial",
    "Verif.Props.Public.C18_long_message_violated",
    "Verif.Props.Public.C18_empty_message_violated"
   ],
   "note": "False for the empty message, which is refused, and for messages of 2 GiB or more, on which Decrypt crashes, for every key pair. Proved exactly for the others."
  },
  {
   "property": "C19",
   "status": "partial",
   "theorems": [
    "Verif.Props.Public.C19_roundtrip_partial",
    "Verif.Props.Public.C19_exact_partial",
    "Verif.Props.Public.C19_long_message_violated",
    "Verif.Props.Public.C19_empty_message_violated"
   ],
   "note": "False for the empty message and for messages of 2 GiB or more, on which DecryptAndVerify crashes, for every key pair. Proved exactly for the others."
  },
  {
   "property": "C20",
   "status": "proved",
   "theorems": [
    "Verif.Props.Public.C20_only_verified"
   ],
   "note": "Relative to the primitives: what was checked, not that forgery is hard."
  },
  {
   "property": "C21",
   "status": "proved",
   "theorems": [
    "Verif.Props.Public.C21_signed_not_unsigned",
    "Verif.Props.Public.C21_unsigned_not_signed"
   ],
   "note": ""
  },
  {
   "property": "C22",
   "status": "partial",
   "theorems": [
    "Verif.Props.Public.C22_hostile_ciphertext_violated",
    "Verif.Props.Public.C22_decrypt_panics_partial",
    "Verif.Props.Public.C22_verify_panics_partial",
    "Verif.Props.Public.C22_unopened_partial"
   ],
   "note": "False of the code: a ciphertext anyone can make crashes the recipient. Exact panic conditions for both (for DecryptAndVerify below 2 GiB); unopened boxes never panic."
  },
  {
   "property": "C23",
   "status": "partial",
   "theorems": [
    "Verif.Props.Public.C23_generate_violated",
    "Verif.Props.Public.C23_short_rng_partial"
   ],
   "note": "False of the code: GenerateKey always panics when the PRNG works, because it copies into nil array pointers."
  },
  {
   "property": "C24",
   "status": "proved",
   "theorems": [
    "Verif.Props.Public.C24_lock_roundtrip",
    "Verif.Props.Public.C24_unlock_only",
    "Verif.Props.Public.C24_export_roundtrip",
    "Verif.Props.Public.C24_import_type"
   ],
   "note": ""
  },
  {
   "property": "C25",
   "status": "proved",
   "theorems": [
    "Verif.Props.Public.C25_incomplete_rejected",
    "Verif.Props.Public.C25_valid_iff"
   ],
   "note": ""
  },
  {
   "property": "C26",
   "status": "partial",
   "theorems": [
    "Verif.Props.Public.C26_panic_violated",
    "Verif.Props.Public.C26_fails_closed_partial"
   ],
   "note": "False of the code: the nonce is dereferenced without a nil check. Everything else proved."
  },
  {
   "property": "C27",
   "status": "proved",
   "theorems": [
    "Verif.Props.Public.C27_sign_verify",
    "Verif.Props.Public.C27_verify_exact"
   ],
   "note": ""
  },
  {
   "property": "C28",
   "status": "partial",
   "theorems": [
    "Verif.Props.Totp.C28_roundtrip_partial",
    "Verif.Props.Totp.C28_empty_key_violated",
    "Verif.Props.Totp.C28_exact_partial",
    "Verif.Props.Totp.C28_hash_violated",
    "Verif.Props.Totp.C28_size_violated"
   ],
   "note": "False of the code: an empty key, a size outside int32 or a hash number above 127 does not survive. Which survive is proved exactly, below 2 GiB."
  },
  {
   "property": "C29",
   "status": "proved",
   "theorems": [
    "Verif.Props.Totp.C29_code",
    "Verif.Props.Totp.C29_other_hash"
   ],
   "note": ""
  },
  {
   "property": "C30",
   "status": "proved",
   "theorems": [
    "Verif.Props.Totp.C30_acceptance",
    "Verif.Props.Totp.C30_unusable"
   ],
   "note": "For supported configurations (step not 0, 1 to 10 digits, SHA-1), and nothing is accepted for unparsable ones or other hashes; C32 says when it panics."
  },
  {
   "property": "C31",
   "status": "partial",
   "theorems": [
    "Verif.Props.Totp.C31_replay_violated",
    "Verif.Props.Totp.C31_history_partial",
    "Verif.Props.Totp.C31_immediate_partial"
   ],
   "note": "False of the code: previous, current, previous are all accepted. In any history some other code is accepted between two acceptances of one code."
  },
  {
   "property": "C32",
   "status": "partial",
   "theorems": [
    "Verif.Props.Totp.C32_panics_partial",
    "Verif.Props.Totp.C32_empty_key_violated",
    "Verif.Props.Totp.C32_imported_partial"
   ],
   "note": "False of the code: an empty key makes validation divide by zero. Exact panic condition proved."
  },
  {
   "property": "C33",
   "status": "partial",
   "theorems": [
    "Verif.Props.Totp.C33_import_partial",
    "Verif.Props.Totp.C33_new",
    "Verif.Props.Totp.C33_empty_key_violated"
   ],
   "note": "Proved for non-empty keys and for every NewGoogleTOTP; false for the empty key."
  },
  {
   "property": "C34",
   "status": "proved",
   "theorems": [
    "Verif.Props.Auth.C34_roundtrip",
    "Verif.Props.Auth.C34_parsed_key"
   ],
   "note": "Serialised size below 2 GiB."
  },
  {
   "property": "C35",
   "status": "proved",
   "theorems": [
    "Verif.Props.Auth.C35_acceptance",
    "Verif.Props.Auth.C35_unparsable",
    "Verif.Props.Auth.C35_crash"
   ],
   "note": "The token counter is the 15-bit insertion counter; see C88."
  },
  {
   "property": "C36",
   "status": "proved",
   "theorems": [
    "Verif.Props.Auth.C36_monotone",
    "Verif.Props.Auth.C36_order"
   ],
   "note": ""
  },
  {
   "property": "C37",
   "status": "partial",
   "theorems": [
    "Verif.Props.Auth.C37_replay_violated",
    "Verif.Props.Auth.C37_history_partial",
    "Verif.Props.Auth.C37_insertion_partial"
   ],
   "note": "False of the code: two OTPs of one insertion can be replayed alternately. In any history some other OTP of the same insertion is accepted between two acceptances of one OTP, and nothing else is."
  },
  {
   "property": "C38",
   "status": "partial",
   "theorems": [
    "Verif.Props.Auth.C38_rounds_partial",
    "Verif.Props.Auth.C38_shared_key_partial",
    "Verif.Props.Auth.C38_no_session_violated"
   ],
   "note": "Violated: NewSession never returns an authenticator (C41). Proved for any number of rounds from the authenticator it is written to return."
  },
  {
   "property": "C39",
   "status": "proved",
   "theorems": [
    "Verif.Props.Auth.C39_acceptance"
   ],
   "note": ""
  },
  {
   "property": "C40",
   "status": "proved",
   "theorems": [
    "Verif.Props.Auth.C40_single_use"
   ],
   "note": "Non-repetition is stated for the 32-byte blocks of the PRNG stream and the first challenge."
  },
  {
   "property": "C41",
   "status": "partial",
   "theorems": [
    "Verif.Props.Auth.C41_setup_violated",
    "Verif.Props.Auth.C41_prng_partial"
   ],
   "note": "False of the code: NewSession crashes in GenerateKey whenever the PRNG works."
  },
  {
   "property": "C42",
   "status": "proved",
   "theorems": [
    "Verif.Props.Auth.C42_password",
    "Verif.Props.Auth.C42_refused"
   ],
   "note": "Relative to the law that bcrypt matches its own hashes."
  },
  {
   "property": "C43",
   "status": "partial",
   "theorems": [
    "Verif.Props.Auth.C43_cost_partial",
    "Verif.Props.Auth.C43_low_cost_violated"
   ],
   "note": "False of the code: 4 to 7 are used although the documentation says 8 to 31."
  },
  {
   "property": "C44",
   "status": "proved",
   "theorems": [
    "Verif.Props.Auth.C44_unknown",
    "Verif.Props.Auth.C44_dispatch",
    "Verif.Props.Auth.C44_update"
   ],
   "note": ""
  },
  {
   "property": "C45",
   "status": "partial",
   "theorems": [
    "Verif.Props.SecretStore.C45_roundtrip_partial",
    "Verif.Props.SecretStore.C45_any_labels_partial",
    "Verif.Props.SecretStore.C45_saves",
    "Verif.Props.SecretStore.C45_violated",
    "Verif.Props.SecretStore.C45_collision_violated"
   ],
   "note": "False of the code when a label or metadata key is not UTF-8 (JSON replaces the bytes). Proved exactly for UTF-8 strings, and up to that replacement whenever no two labels collide."
  },
  {
   "property": "C46",
   "status": "proved",
   "theorems": [
    "Verif.Props.SecretStore.C46_wipes"
   ],
   "note": ""
  },
  {
   "property": "C47",
   "status": "partial",
   "theorems": [
    "Verif.Props.SecretStore.C47_violated",
    "Verif.Props.SecretStore.C47_reopened_partial"
   ],
   "note": "False of the code: a save wipes the store but leaves it valid, so a second save writes zeroed secrets under a passphrase of zero bytes. A store reopened from its file can be saved again."
  },
  {
   "property": "C48",
   "status": "proved",
   "theorems": [
    "Verif.Props.SecretStore.C48_addRecord"
   ],
   "note": ""
  },
  {
   "property": "C49",
   "status": "partial",
   "theorems": [
    "Verif.Props.SecretStore.C49_updateSecret_partial",
    "Verif.Props.SecretStore.C49_violated"
   ],
   "note": "False of the code for a record that is null in the file: the call panics. Exact for stores without nil records."
  },
  {
   "property": "C50",
   "status": "proved",
   "theorems": [
    "Verif.Props.SecretStore.C50_map"
   ],
   "note": "Refinement to a finite map over arbitrary sequences of operations on a new store."
  },
  {
   "property": "C51",
   "status": "partial",
   "theorems": [
    "Verif.Props.SecretStore.C51_newest_partial",
    "Verif.Props.SecretStore.C51_order",
    "Verif.Props.SecretStore.C51_list_violated",
    "Verif.Props.SecretStore.C51_null_violated"
   ],
   "note": "False of the code in two respects: the list names the label inside the record rather than the one it is stored under, and a nil record makes Merge panic. Everything else proved."
  },
  {
   "property": "C52",
   "status": "proved",
   "theorems": [
    "Verif.Props.SecretStore.C52_idempotent",
    "Verif.Props.SecretStore.C52_associative",
    "Verif.Props.SecretStore.C52_commutative",
    "Verif.Props.SecretStore.C52_ties_needed",
    "Verif.Props.SecretStore.C52_converge"
   ],
   "note": "For stores without nil records (see C51)."
  },
  {
   "property": "C53",
   "status": "partial",
   "theorems": [
    "Verif.Props.SecretHeap.C53_refines",
    "Verif.Props.SecretHeap.C53_merge_violated",
    "Verif.Props.SecretHeap.C53_add_violated",
    "Verif.Props.SecretHeap.C53_update_violated",
    "Verif.Props.SecretHeap.C53_kept_partial",
    "Verif.Props.SecretHeap.C53_passphrase_partial"
   ],
   "note": "False of the code: Merge shares records and AddRecord keeps the caller's slice and map. Proved: records not taken from the other store and the passphrase are not shared."
  },
  {
   "property": "C54",
   "status": "proved",
   "theorems": [
    "Verif.Props.SecretStore.C54_new_opens",
    "Verif.Props.SecretStore.C54_old_only_if",
    "Verif.Props.SecretStore.C54_same_key"
   ],
   "note": ""
  },
  {
   "property": "C55",
   "status": "partial",
   "theorems": [
    "Verif.Props.SecretStore.C55_violated",
    "Verif.Props.SecretStore.C55_opening_exact",
    "Verif.Props.SecretStore.C55_own_files_partial"
   ],
   "note": "False of the code: Valid is not checked on opening. Files written by MarshalSecretStore do open as valid stores."
  },
  {
   "property": "C56",
   "status": "partial",
   "theorems": [
    "Verif.Props.KeyTrust.C56_trust_partial",
    "Verif.Props.KeyTrust.C56_passphrase_partial",
    "Verif.Props.KeyTrustNeeds.C56_assumption_needed"
   ],
   "note": "Proved for every history in which the store is unlocked only with the passphrase it was locked with, wrong ones that fail included; and for every history at all assuming that a passphrase that opens the locked key opens it to the store's own (the laws of secretbox alone do not exclude a second key pair under another passphrase: C56_assumption_needed shows, with primitives that obey all laws of the model, that the assumption cannot be dropped)."
  },
  {
   "property": "C57",
   "status": "partial",
   "theorems": [
    "Verif.Props.KeyTrust.C57_chain_sound_partial",
    "Verif.Props.KeyTrust.C57_self_record_violated"
   ],
   "note": "False of the code: a loaded file with a record under self makes unchained keys verify. Proved for every store without such a record."
  },
  {
   "property": "C58",
   "status": "partial",
   "theorems": [
    "Verif.Props.KeyImport.C58_terminates_partial",
    "Verif.Props.KeyImport.C58_self_signed_violated",
    "Verif.Props.KeyImport.C58_duplicate_key_violated"
   ],
   "note": "False of the code: a self-signed record in a file, or a key stored twice, makes the walk endless. Proved for built stores with distinct keys, for every map order."
  },
  {
   "property": "C59",
   "status": "partial",
   "theorems": [
    "Verif.Props.KeyImport.C59_import_checked_partial",
    "Verif.Props.KeyImport.C59_import_exact_partial",
    "Verif.Props.KeyImport.C59_armour",
    "Verif.Props.KeyImport.C59_wrong_label_violated"
   ],
   "note": "False of the code when a file stores a record under a label that is not its own. Exact otherwise; sufficiency also needs no empty label."
  },
  {
   "property": "C60",
   "status": "partial",
   "theorems": [
    "Verif.Props.KeyImport.C60_added_usable_partial",
    "Verif.Props.KeyImport.C60_imported_junk_violated"
   ],
   "note": "False of the code: ImportVerified does not parse the key. Proved for AddKey."
  },
  {
   "property": "C61",
   "status": "partial",
   "theorems": [
    "Verif.Props.KeyImport.C61_unambiguous_partial",
    "Verif.Props.KeyImport.C61_shifted_violated"
   ],
   "note": "False of the code in general: the fields are concatenated without lengths. Proved for 64-byte signers, the only ones accepted."
  },
  {
   "property": "C62",
   "status": "proved",
   "theorems": [
    "Verif.Props.KeyStore.C62_locked_refuses",
    "Verif.Props.KeyStore.C62_public_operations",
    "Verif.Props.KeyStore.C62_key_gone"
   ],
   "note": "Keys being absent from the structure; memory contents are the subject of C87."
  },
  {
   "property": "C63",
   "status": "proved",
   "theorems": [
    "Verif.Props.KeyStore.C63_roundtrip",
    "Verif.Props.KeyStore.C63_wrong_passphrase"
   ],
   "note": ""
  },
  {
   "property": "C64",
   "status": "partial",
   "theorems": [
    "Verif.Props.KeyStore.C64_lock_loses_violated",
    "Verif.Props.KeyStore.C64_failed_lockWith_violated",
    "Verif.Props.KeyStore.C64_dump_loses_violated",
    "Verif.Props.KeyStore.C64_lock_keeps_partial"
   ],
   "note": "False of the code: Lock on a never-locked store, a failed LockWith, and DumpKeyStore on a new store all lose the key. Proved when a passphrase opens the locked key."
  },
  {
   "property": "C65",
   "status": "partial",
   "theorems": [
    "Verif.Props.KeyStore.C65_encrypt_partial",
    "Verif.Props.KeyStore.C65_long_message_violated",
    "Verif.Props.KeyStore.C65_signed_partial",
    "Verif.Props.KeyStore.C65_long_signed_violated"
   ],
   "note": "Violated by messages of 2 GiB or more: the length field is read as a signed number and the recipient crashes. Proved for all shorter ones."
  },
  {
   "property": "C66",
   "status": "partial",
   "theorems": [
    "Verif.Props.KeyStore.C66_null_record_violated",
    "Verif.Props.KeyStore.C66_no_private_key_violated",
    "Verif.Props.KeyStore.C66_missing_label_violated",
    "Verif.Props.KeyStore.C66_no_panic_partial"
   ],
   "note": "False of the code: null records, files without private key, missing labels panic. Proved for other files for all calls but Unlock and direct calls of VerifyKeySignature with a missing label."
  },
  {
   "property": "C67",
   "status": "partial",
   "theorems": [
    "Verif.Props.KeyImport.C67_export_import_partial",
    "Verif.Props.KeyImport.C67_self_export_partial",
    "Verif.Props.KeyImport.C67_empty_label_violated"
   ],
   "note": "False of the code when the importer holds the exporter's key under the empty label. Proved otherwise."
  },
  {
   "property": "C68",
   "status": "partial",
   "theorems": [
    "Verif.Props.Secrets.C68_store_keeps_partial",
    "Verif.Props.Secrets.C68_multi_keeps_partial",
    "Verif.Props.Secrets.C68_meta_keeps_partial",
    "Verif.Props.Secrets.C68_read_only",
    "Verif.Props.Secrets.C68_passwd",
    "Verif.Props.Secrets.C68_failed_unchanged",
    "Verif.Props.Secrets.C68_alias_violated"
   ],
   "note": "False of the code: a label that is not UTF-8 replaces the entry whose label it becomes in JSON. Proved for every other label, for all commands; a failing run changes no file."
  },
  {
   "property": "C69",
   "status": "partial",
   "theorems": [
    "Verif.Props.Secretscli.C69_partial",
    "Verif.Props.Secretscli.C69_no_write_partial",
    "Verif.Props.Secretscli.C69_wiped_violated",
    "Verif.Props.Secretscli.C69_violated"
   ],
   "note": "Violated: the write command zeroes the secrets and the passphrase of the running session, so that whatever is stored after it is written together with zeros, under a passphrase of zeros (C69_wiped_violated for every such session, C69_violated as witness). Proved for sessions that do not write before they end, for every interleaving, in terms of rules for what each command line does. Writes succeed, the clock is not at 0, answers are UTF-8."
  },
  {
   "property": "C70",
   "status": "partial",
   "theorems": [
    "Verif.Props.Secretscli.C70_unsaved_violated",
    "Verif.Props.Secretscli.C70_violated",
    "Verif.Props.Secretscli.C70_partial"
   ],
   "note": "Violated: passwd does not mark the store as changed; a session without store or wmeta leaves the file as it was. Proved for sessions that change something else too."
  },
  {
   "property": "C71",
   "status": "partial",
   "theorems": [
    "Verif.Props.SecretscliRun.C71_progress",
    "Verif.Props.SecretscliRun.C71_terminates",
    "Verif.Props.SecretscliRun.C71_completes",
    "Verif.Props.SecretscliRun.C71_order",
    "Verif.Props.SecretscliRun.C71_processed",
    "Verif.Props.SecretscliRun.C71_alone",
    "Verif.Props.SecretscliRun.C71_deterministic",
    "Verif.Props.SecretscliRun.C71_timeout",
    "Verif.Props.SecretscliRun.C71_written_partial",
    "Verif.Props.SecretscliRun.C71_written_violated"
   ],
   "note": "Violated: after passwd alone the store is not written. Proved: no deadlock, termination, order, at most once, the outcome does not depend on the interleaving, and the store is written on every exit if marked as changed."
  },
  {
   "property": "C72",
   "status": "partial",
   "theorems": [
    "Verif.Props.Journal.C72_kept_partial",
    "Verif.Props.Journal.C72_retitle_violated"
   ],
   "note": "Violated: the title entered instead of one that is taken is not itself checked. Proved for all other titles (UTF-8)."
  },
  {
   "property": "C73",
   "status": "partial",
   "theorems": [
    "Verif.Props.Journal.C73_list_partial",
    "Verif.Props.Journal.C73_lines_partial",
    "Verif.Props.Journal.C73_iff_partial",
    "Verif.Props.Journal.C73_same_second_violated"
   ],
   "note": "Violated: the titles are kept in a map indexed by the timestamps, so of two entries written in the same second one is listed twice and the other not at all. Proved if and only if all timestamps differ; in general the number of lines is right, each line is an entry, and of two entries of one second at most one is listed."
  },
  {
   "property": "C74",
   "status": "partial",
   "theorems": [
    "Verif.Props.Otpc.C74_totp_never",
    "Verif.Props.Otpc.C74_label_never",
    "Verif.Props.Otpc.C74_totp_violated",
    "Verif.Props.Otpc.C74_label_violated",
    "Verif.Props.Otpc.C74_google_partial",
    "Verif.Props.Otpc.C74_hotp_partial"
   ],
   "note": "Violated: a token stored with -t totp is recorded with type TOTP-SHA1, which parseOTPKind does not know, and never displays (C74_totp_never for every such run, C74_totp_violated as witness); neither does one whose label is not UTF-8. Proved for Google and HOTP tokens under labels of letters and digits (the twofactor package is a parameter that round-trips URLs with such labels)."
  },
  {
   "property": "C75",
   "status": "proved",
   "theorems": [
    "Verif.Props.OtpcText.C75_shape",
    "Verif.Props.OtpcText.C75_idempotent",
    "Verif.Props.OtpcText.C75_ascii",
    "Verif.Props.OtpcText.C75_key",
    "Verif.Props.OtpcText.C75_padded"
   ],
   "note": "Assumes of unicode.ToUpper that it is idempotent, keeps runes runes and acts on ASCII as usual."
  },
  {
   "property": "C76",
   "status": "partial",
   "theorems": [
    "Verif.Props.Passcrypt.C76_directories_partial",
    "Verif.Props.Passcrypt.C76_directories_violated"
   ],
   "note": "False of the code for every file with an execute bit, unless the umask takes both write and search permission from some class. Proved for all other modes and every umask."
  },
  {
   "property": "C77",
   "status": "partial",
   "theorems": [
    "Verif.Props.Passcrypt.C77_below_partial",
    "Verif.Props.Passcrypt.C77_escapes_violated"
   ],
   "note": "False of the code: an entry ../x is written beside the output directory. Proved for archives without .. components."
  },
  {
   "property": "C78",
   "status": "partial",
   "theorems": [
    "Verif.Props.Passcrypt.C78_restores_partial",
    "Verif.Props.Passcrypt.C78_stale_violated"
   ],
   "note": "False of the code: files are not truncated. Proved where no longer file was before."
  },
  {
   "property": "C79",
   "status": "proved",
   "theorems": [
    "Verif.Props.Migrate.C79_legacy_exact",
    "Verif.Props.Migrate.C79_current_exact",
    "Verif.Props.Migrate.C79_migrates",
    "Verif.Props.Migrate.C79_refuses",
    "Verif.Props.Migrate.C79_program"
   ],
   "note": "For files of at least 32 bytes and a disk that does not fail during a write; the other cases are C101."
  },
  {
   "property": "C80",
   "status": "proved",
   "theorems": [
    "Verif.Props.Secrets.C80_roundtrip",
    "Verif.Props.Secrets.C80_import_other",
    "Verif.Props.Secrets.C80_export_only"
   ],
   "note": "For non-empty store files."
  },
  {
   "property": "C81",
   "status": "partial",
   "theorems": [
    "Verif.Props.Keysrv.C81_chain_partial",
    "Verif.Props.Keysrv.C81_kept",
    "Verif.Props.Keysrv.C81_upload_partial",
    "Verif.Props.Keysrv.C81_self_record_violated"
   ],
   "note": "Violated by a file with a record called self, with which the server comes up and publishes keys that nobody trusted signed (C81_self_record_violated). Proved for files without such a record and in which records are stored under their own labels, for every execution of the transition system of handlers, dispatcher and auditor; that no key is ever replaced, for all files."
  },
  {
   "property": "C82",
   "status": "partial",
   "theorems": [
    "Verif.Props.KeysrvDisk.C82_quiet_partial",
    "Verif.Props.KeysrvDisk.C82_busy_violated"
   ],
   "note": "Violated: every command, also a mere query, restarts the ten minutes, so that a server that is asked something every five minutes never writes; shown for every length of time. Proved: ten minutes after the last command the file holds the store, if writes succeed, on a machine fast enough for time to pass only when there is nothing to do."
  },
  {
   "property": "C83",
   "status": "proved",
   "theorems": [
    "Verif.Props.Fcrypt.C83_released",
    "Verif.Props.Fcrypt.C83_relabelled",
    "Verif.Props.Fcrypt.C83_unsigned_relabelled",
    "Verif.Props.Fcrypt.C83_other_type"
   ],
   "note": "What is released is decrypted with the owner's key and verified under the key the label stands for, whatever the key store file is; armour with the wrong label fails for messages made by the package."
  },
  {
   "property": "C84",
   "status": "proved",
   "theorems": [
    "Verif.Props.Tlv.C84_fixed_encoder_wipes_all"
   ],
   "note": ""
  },
  {
   "property": "C85",
   "status": "partial",
   "theorems": [
    "Verif.Props.Tlv.C85_zero_misses_copies_violated",
    "Verif.Props.Tlv.C85_last_array_partial"
   ],
   "note": "False of the code: arrays abandoned by append keep the data, whatever the growth policy and the first value. Proved: the array in use last is wiped from end to end (C84: it is the only one if the announced sizes hold)."
  },
  {
   "property": "C86",
   "status": "proved",
   "theorems": [
    "Verif.Props.Public.C86_key_exchange"
   ],
   "note": ""
  },
  {
   "property": "C87",
   "status": "partial",
   "theorems": [
    "Verif.Props.Public.C87_zero_effect_partial",
    "Verif.Props.Public.C87_exact_partial",
    "Verif.Props.Public.C87_zero_twice_violated"
   ],
   "note": "False of the code: Zero panics on a key that lacks a secret, and only then."
  },
  {
   "property": "C88",
   "status": "partial",
   "theorems": [
    "Verif.Props.Auth.C88_insertions_partial",
    "Verif.Props.Auth.C88_use_counter_violated"
   ],
   "note": "False of the code: the shift of the 8-bit use counter is always zero. Proved: tokens of earlier insertions are rejected."
  },
  {
   "property": "C89",
   "status": "partial",
   "theorems": [
    "Verif.Props.Auth.C89_otp_memory_partial",
    "Verif.Props.Auth.C89_otp_memory_violated"
   ],
   "note": "False of the code: append writes into spare capacity behind the argument. Exact otherwise."
  },
  {
   "property": "C90",
   "status": "partial",
   "theorems": [
    "Verif.Props.KeyStore.C90_lockWith_violated",
    "Verif.Props.KeyStore.C90_lockWith_partial"
   ],
   "note": "False of the code: the locked key is dropped. Everything else is kept."
  },
  {
   "property": "C91",
   "status": "partial",
   "theorems": [
    "Verif.Props.KeyImport.C91_sign_forges_violated",
    "Verif.Props.KeyImport.C91_other_messages_partial"
   ],
   "note": "False of the code: messages and key statements are signed without domain separation. Proved for messages of any other form."
  },
  {
   "property": "C92",
   "status": "partial",
   "theorems": [
    "Verif.Props.KeyImport.C92_find_exact_partial",
    "Verif.Props.KeyImport.C92_find_violated"
   ],
   "note": "False of the code for loaded stores with a nil record or a record under a foreign label. Exact otherwise."
  },
  {
   "property": "C93",
   "status": "partial",
   "theorems": [
    "Verif.Props.KeyStore.C93_file_roundtrip_partial",
    "Verif.Props.KeyStore.C93_save_and_open_partial",
    "Verif.Props.KeyStore.C93_not_utf8_violated"
   ],
   "note": "False of the code for labels that are not UTF-8. Proved for UTF-8 strings and stores that keep an export key."
  },
  {
   "property": "C94",
   "status": "proved",
   "theorems": [
    "Verif.Props.KeyTrust.C94_records_kept",
    "Verif.Props.KeyTrust.C94_sequence"
   ],
   "note": ""
  },
  {
   "property": "C95",
   "status": "proved",
   "theorems": [
    "Verif.Props.Secrets.C95_store",
    "Verif.Props.Secrets.C95_remove",
    "Verif.Props.Secrets.C95_merge"
   ],
   "note": "For UTF-8 labels with -s (see C68)."
  },
  {
   "property": "C96",
   "status": "partial",
   "theorems": [
    "Verif.Props.Secrets.C96_init_violated",
    "Verif.Props.Secrets.C96_init_partial"
   ],
   "note": "False of the code: -init overwrites an existing store. The rest is proved."
  },
  {
   "property": "C97",
   "status": "partial",
   "theorems": [
    "Verif.Props.Secrets.C97_ends_partial",
    "Verif.Props.Secrets.C97_eof_violated"
   ],
   "note": "False of the code: -r -m does not notice the end of input and runs for ever. Every other run ends."
  },
  {
   "property": "C98",
   "status": "partial",
   "theorems": [
    "Verif.Props.Secrets.C98_multi_saved_partial",
    "Verif.Props.Secrets.C98_eof_violated"
   ],
   "note": "False of the code: if the input ends instead of an empty line, nothing is saved. Proved when an empty line ends the list."
  },
  {
   "property": "C99",
   "status": "partial",
   "theorems": [
    "Verif.Props.Secrets.C99_null_violated",
    "Verif.Props.Secrets.C99_nil_map_violated",
    "Verif.Props.Secrets.C99_no_panic_partial"
   ],
   "note": "False of the code for files with null records or a null map. Proved for every other file."
  },
  {
   "property": "C100",
   "status": "partial",
   "theorems": [
    "Verif.Props.ReadLine.C100_lines_partial",
    "Verif.Props.ReadLine.C100_pipe_violated",
    "Verif.Props.ReadLine.C100_dropped_violated"
   ],
   "note": "False of the code: every call uses a new buffered reader, so what was read beyond the line is lost. Proved when no read returns more than a line (terminals)."
  },
  {
   "property": "C101",
   "status": "partial",
   "theorems": [
    "Verif.Props.Migrate.C101_disk_full_violated",
    "Verif.Props.Migrate.C101_short_violated",
    "Verif.Props.Migrate.C101_unchanged_partial",
    "Verif.Props.Migrate.C101_reported"
   ],
   "note": "False of the code: a disk that fills up destroys the store, and a file of fewer than 32 bytes causes a panic. Proved when a write fails, if at all, at opening the file."
  },
  {
   "property": "C102",
   "status": "proved",
   "theorems": [
    "Verif.Props.Passcrypt.C102_roundtrip",
    "Verif.Props.PasscryptTree.C102_tree"
   ],
   "note": "For every umask, and arguments without .., none of which is inside another, all directories of which can be read; the archive is armoured or does not parse as PEM. The walk is modelled."
  },
  {
   "property": "C103",
   "status": "proved",
   "theorems": [
    "Verif.Props.Passcrypt.C103_refuses",
    "Verif.Props.Passcrypt.C103_opens"
   ],
   "note": ""
  },
  {
   "property": "C104",
   "status": "partial",
   "theorems": [
    "Verif.Props.Passcrypt.C104_complete_partial",
    "Verif.Props.Passcrypt.C104_errors_ignored_violated",
    "Verif.Props.PasscryptTree.C104_tree_partial",
    "Verif.Props.PasscryptTree.C104_unreadable_violated"
   ],
   "note": "False of the code: the walk function ignores the error it is given, so a directory that cannot be read is packed as an empty one. Proved: everything visited is in the archive, and, if all directories can be read, everything below the arguments."
  },
  {
   "property": "C105",
   "status": "proved",
   "theorems": [
    "Verif.Props.KeyMessages.C105_verify",
    "Verif.Props.KeyMessages.C105_released",
    "Verif.Props.KeyMessages.C105_signed"
   ],
   "note": "For stores as the package builds them (C66 shows that loaded files can panic)."
  },
  {
   "property": "C106",
   "status": "proved",
   "theorems": [
    "Verif.Props.SecretsMeta.C106_store",
    "Verif.Props.SecretsMeta.C106_remove"
   ],
   "note": "For metadata keys in UTF-8."
  },
  {
   "property": "C107",
   "status": "partial",
   "theorems": [
    "Verif.Props.Otpc.C107_kept_partial",
    "Verif.Props.Otpc.C107_alias_violated"
   ],
   "note": "Violated by an ill-formed label that becomes the label of another token in the JSON file; proved otherwise."
  },
  {
   "property": "C108",
   "status": "partial",
   "theorems": [
    "Verif.Props.Otpc.C108_counters_partial",
    "Verif.Props.Otpc.C108_repeat_violated"
   ],
   "note": "Violated when saving fails: the code is printed before the counter is saved. Proved for all sequences of runs ending with status 0, for labels of letters and digits."
  },
  {
   "property": "C109",
   "status": "partial",
   "theorems": [
    "Verif.Props.Otpc.C109_init_violated",
    "Verif.Props.Otpc.C109_init_partial"
   ],
   "note": "Violated: an existing store is overwritten, and the empty passphrase accepted."
  },
  {
   "property": "C110",
   "status": "proved",
   "theorems": [
    "Verif.Props.Otpc.C110_failed_unchanged",
    "Verif.Props.Otpc.C110_qr"
   ],
   "note": "The QR encoder is a parameter."
  },
  {
   "property": "C111",
   "status": "partial",
   "theorems": [
    "Verif.Props.OtpcDisplay.C111_exact_partial",
    "Verif.Props.OtpcDisplay.C111_late_violated"
   ],
   "note": "Violated if one timer is a millisecond late: the program waits for second 0 or 30 and can miss both. Proved for exact timers."
  },
  {
   "property": "C112",
   "status": "proved",
   "theorems": [
    "Verif.Props.OtpcDisplay.C112_current"
   ],
   "note": "Only waiting takes time in the model."
  },
  {
   "property": "C113",
   "status": "partial",
   "theorems": [
    "Verif.Props.JournalEntries.C113_shown_partial",
    "Verif.Props.JournalEntries.C113_spaces_violated",
    "Verif.Props.JournalEntries.C113_utf8_violated",
    "Verif.Props.JournalEntries.C113_yes_violated"
   ],
   "note": "Violated: -w removes white space around the title and the other commands do not; titles that are not UTF-8 are not found either. Proved for the others."
  },
  {
   "property": "C114",
   "status": "proved",
   "theorems": [
    "Verif.Props.JournalEntries.C114_edit"
   ],
   "note": "The editor is a function from the contents it finds to those it leaves."
  },
  {
   "property": "C115",
   "status": "partial",
   "theorems": [
    "Verif.Props.JournalEntries.C115_unedited_partial",
    "Verif.Props.JournalEntries.C115_full_disk_violated"
   ],
   "note": "Violated: errors writing the temporary file are ignored, so with a full disk the editor finds the beginning of the text or nothing, and that becomes the entry. Proved if the file was written."
  },
  {
   "property": "C116",
   "status": "proved",
   "theorems": [
    "Verif.Props.JournalEntries.C116_no_traces"
   ],
   "note": "For runs that end; the signals that kill the program are not modelled."
  },
  {
   "property": "C117",
   "status": "partial",
   "theorems": [
    "Verif.Props.JournalEntries.C117_init_violated",
    "Verif.Props.JournalEntries.C117_init_partial"
   ],
   "note": "Violated: an existing journal is overwritten, and the empty passphrase accepted."
  },
  {
   "property": "C118",
   "status": "proved",
   "theorems": [
    "Verif.Props.JournalEntries.C118_unchanged"
   ],
   "note": ""
  },
  {
   "property": "C119",
   "status": "partial",
   "theorems": [
    "Verif.Props.SecretscliMore.C119_partial",
    "Verif.Props.SecretscliMore.C119_violated"
   ],
   "note": "Violated: marshalling zeroes the secrets and the passphrase before the file is opened, so the second write saves zeros (C119_violated). Proved in its stead: the file is as it was, the session stays marked as changed, and what exactly is left of it."
  },
  {
   "property": "C120",
   "status": "partial",
   "theorems": [
    "Verif.Props.SecretscliMore.C120_partial",
    "Verif.Props.SecretscliMore.C120_session_partial",
    "Verif.Props.SecretscliMore.C120_violated"
   ],
   "note": "Violated: store with a new label makes a record without a label. Proved: no entry disappears and no label changes."
  },
  {
   "property": "C121",
   "status": "partial",
   "theorems": [
    "Verif.Props.SecretscliMore.C121_partial",
    "Verif.Props.SecretscliMore.C121_violated"
   ],
   "note": "Violated: labels as long as a column run together. Proved: number, order and which labels, for every terminal; and that they can be told apart if they contain no white space and all are shorter than a column."
  },
  {
   "property": "C122",
   "status": "proved",
   "theorems": [
    "Verif.Props.SecretscliMore.C122_only_prints",
    "Verif.Props.SecretscliMore.C122_show",
    "Verif.Props.SecretscliMore.C122_showhex",
    "Verif.Props.SecretscliMore.C122_show_many",
    "Verif.Props.SecretscliMore.C122_not_found",
    "Verif.Props.SecretscliMore.C122_rmeta"
   ],
   "note": "The layout of the date is a parameter."
  },
  {
   "property": "C123",
   "status": "partial",
   "theorems": [
    "Verif.Props.SecretscliMore.C123_partial",
    "Verif.Props.SecretscliMore.C123_dash_violated",
    "Verif.Props.SecretscliMore.C123_violated"
   ],
   "note": "Violated by -f -, which reads a file called - and writes to the terminal. Proved that no other file changes."
  },
  {
   "property": "C124",
   "status": "partial",
   "theorems": [
    "Verif.Props.Fcrypt.C124_first_run_violated",
    "Verif.Props.Fcrypt.C124_no_store_partial"
   ],
   "note": "Violated: every command panics when there is no key store, since generating a key always does. Proved: nothing is written."
  },
  {
   "property": "C125",
   "status": "partial",
   "theorems": [
    "Verif.Props.Fcrypt.C125_roundtrip_partial",
    "Verif.Props.Fcrypt.C125_notice_violated",
    "Verif.Props.Fcrypt.C125_empty_file_violated",
    "Verif.Props.Fcrypt.C125_long_file_violated",
    "Verif.Props.Fcrypt.C125_unlucky_violated"
   ],
   "note": "Violated for the empty file, which is encrypted but cannot be decrypted, for raw output that happens to begin like armour, on standard output when the key store has no export key, where a notice precedes the plaintext, and for files of 2 GiB or more, on which decrypting crashes. Proved for all others."
  },
  {
   "property": "C126",
   "status": "partial",
   "theorems": [
    "Verif.Props.Fcrypt.C126_roundtrip_partial",
    "Verif.Props.Fcrypt.C126_stdout_violated",
    "Verif.Props.Fcrypt.C126_empty_file_violated",
    "Verif.Props.Fcrypt.C126_long_file_violated"
   ],
   "note": "Violated on standard output, where \"Valid signature.\" precedes the plaintext, for the empty file and for files of 2 GiB or more. Proved for all other files and destinations."
  },
  {
   "property": "C127",
   "status": "partial",
   "theorems": [
    "Verif.Props.Fcrypt.C127_verify_partial",
    "Verif.Props.Fcrypt.C127_status_violated",
    "Verif.Props.Fcrypt.C127_roundtrip_partial"
   ],
   "note": "Violated: the exit status is 0 for invalid signatures too. Proved: what is printed, and the round trip."
  },
  {
   "property": "C128",
   "status": "partial",
   "theorems": [
    "Verif.Props.FcryptFiles.C128_reported_partial",
    "Verif.Props.FcryptFiles.C128_signed_violated"
   ],
   "note": "Violated by -s -e, which ignores the error. Proved for all other commands."
  },
  {
   "property": "C129",
   "status": "partial",
   "theorems": [
    "Verif.Props.FcryptFiles.C129_files",
    "Verif.Props.FcryptFiles.C129_failure_partial",
    "Verif.Props.FcryptFiles.C129_kept",
    "Verif.Props.FcryptKeys.C129_torn_violated"
   ],
   "note": "Violated by writes that fail half way, which leave a part of the file. Proved: which files change, that none is removed, and that failing runs change nothing when writes fail only on opening."
  },
  {
   "property": "C130",
   "status": "partial",
   "theorems": [
    "Verif.Props.FcryptKeys.C130_import_partial",
    "Verif.Props.FcryptKeys.C130_accepted_partial",
    "Verif.Props.FcryptKeys.C130_not_utf8_violated",
    "Verif.Props.FcryptKeys.C130_untrusted_partial",
    "Verif.Props.FcryptKeys.C130_untrusted_accepted",
    "Verif.Props.FcryptKeys.C130_unread_violated"
   ],
   "note": "Violated by -u when the answer cannot be read: nothing is imported but the status is 0; and by labels that are not UTF-8, which are lost when the file is read again. Proved otherwise, for writes that do not fail half way and a clock that is not at 0."
  },
  {
   "property": "C131",
   "status": "partial",
   "theorems": [
    "Verif.Props.FcryptKeys.C131_remove_partial",
    "Verif.Props.FcryptKeys.C131_removed",
    "Verif.Props.FcryptKeys.C131_dangling_violated"
   ],
   "note": "Violated for keys that others depend on, which fcrypt -check then no longer accepts. Proved: exactly that record is removed, and the store is as good as before if no other key depends on it."
  },
  {
   "property": "C132",
   "status": "partial",
   "theorems": [
    "Verif.Props.FcryptExport.C132_exchange_partial",
    "Verif.Props.FcryptExport.C132_checked_partial",
    "Verif.Props.FcryptExport.C132_own_partial",
    "Verif.Props.FcryptExport.C132_unexported_violated",
    "Verif.Props.FcryptKeys.C132_export_partial"
   ],
   "note": "Violated: a key store holds no key to export until -check has been run. Proved after that, and for -l if no key is on record twice."
  },
  {
   "property": "C133",
   "status": "partial",
   "theorems": [
    "Verif.Props.FcryptKeys.C133_check_partial",
    "Verif.Props.FcryptKeys.C133_accepts_partial",
    "Verif.Props.FcryptKeys.C133_self_record_violated",
    "Verif.Props.FcryptKeys.C133_hang_violated"
   ],
   "note": "Violated by files with a record under self, whose key is accepted as the owner's, and by a key signed by itself, for which the check does not end. Proved: what is accepted has chains if there is no record under self; whatever fcrypt writes is accepted, and the check ends, if no key is on record twice."
  },
  {
   "property": "C134",
   "status": "proved",
   "theorems": [
    "Verif.Props.FcryptExport.C134_list",
    "Verif.Props.FcryptExport.C134_unknown"
   ],
   "note": "Dates and SHA-256 are parameters. For key stores as fcrypt writes them."
  },
  {
   "property": "C135",
   "status": "partial",
   "theorems": [
    "Verif.Props.Keysrv.C135_published_partial",
    "Verif.Props.Keysrv.C135_accepted_partial",
    "Verif.Props.KeysrvLabels.C135_labels_violated"
   ],
   "note": "Violated by a file that keeps a record under another's label: the published statement then names another signer than the uploaded one. Proved for states in which records are stored under their own labels and labels are not empty; that it is accepted, in sound stores."
  },
  {
   "property": "C136",
   "status": "partial",
   "theorems": [
    "Verif.Props.Keysrv.C136_read_only",
    "Verif.Props.Keysrv.C136_genuine_partial",
    "Verif.Props.Keysrv.C136_fingerprint_partial",
    "Verif.Props.Keysrv.C136_reachable_partial",
    "Verif.Props.KeysrvLabels.C136_labels_violated"
   ],
   "note": "Violated by a file that keeps a record under another's label: the server then publishes a statement whose signature does not verify. Proved of every reachable state of a server whose file has no record called self and no misplaced one; that asking changes nothing, in all states. SHA-256 is a parameter."
  },
  {
   "property": "C137",
   "status": "partial",
   "theorems": [
    "Verif.Props.Keysrv.C137_own_key_partial",
    "Verif.Props.Keysrv.C137_own_key_verifies_partial",
    "Verif.Props.Keysrv.C137_foreign_export_violated"
   ],
   "note": "Violated by a file that carries somebody else's export key, which the server hands out as its own. Proved for files without an export key, the signature verifying if the key pair is a proper one."
  },
  {
   "property": "C138",
   "status": "partial",
   "theorems": [
    "Verif.Props.KeysrvLive.C138_stays_up_partial",
    "Verif.Props.KeysrvLive.C138_mislabelled_violated"
   ],
   "note": "Violated by a file with a record stored under a label other than its own: the server comes up, and one upload by the holder of that key makes it panic. Proved for files without such a record and without one called self, for every execution."
  },
  {
   "property": "C139",
   "status": "partial",
   "theorems": [
    "Verif.Props.KeysrvLive.C139_order",
    "Verif.Props.KeysrvLive.C139_once_partial",
    "Verif.Props.KeysrvLive.C139_answered_partial",
    "Verif.Props.KeysrvLive.C139_drained_partial",
    "Verif.Props.KeysrvLive.C139_circle_violated"
   ],
   "note": "Violated: two uploads that put a key on record twice can make the next audit endless, after which nothing is answered or written. Proved: order, for all executions; nothing lost and nothing answered twice, for orderly files; that all are answered, as long as no key is on record twice."
  },
  {
   "property": "C140",
   "status": "partial",
   "theorems": [
    "Verif.Props.KeysrvDisk.C140_restart_partial",
    "Verif.Props.KeysrvDisk.C140_not_utf8_violated"
   ],
   "note": "Violated for labels that are not UTF-8, which the server accepts. Proved for all others."
  },
  {
   "property": "C141",
   "status": "partial",
   "theorems": [
    "Verif.Props.KeysrvDisk.C141_other_files",
    "Verif.Props.KeysrvDisk.C141_complete_partial",
    "Verif.Props.KeysrvDisk.C141_torn_violated"
   ],
   "note": "Violated by a write that fails half way. Proved when writes do not; that no other file changes, always."
  },
  {
   "property": "C142",
   "status": "partial",
   "theorems": [
    "Verif.Props.KeysrvDisk.C142_first_start_violated",
    "Verif.Props.KeysrvDisk.C142_nothing_written_partial"
   ],
   "note": "Violated: it panics while generating its key. Proved: nothing is written."
  },
  {
   "property": "C143",
   "status": "partial",
   "theorems": [
    "Verif.Props.Login.C143_password_partial",
    "Verif.Props.Login.C143_totp_partial",
    "Verif.Props.Login.C143_reported_partial",
    "Verif.Props.Login.C143_blank_name_violated",
    "Verif.Props.Login.C143_not_utf8_violated",
    "Verif.Props.Login.C143_spaces_violated",
    "Verif.Props.Login.C143_unknown_partial"
   ],
   "note": "Violated by blank names and by names that are not UTF-8: both are registered, but cannot log in; and by passwords with white space at the ends, which the login prompt drops, if package readpass, which reads the password at registration, keeps it. Proved for all others. encoding/json, bcrypt and QR codes are parameters."
  },
  {
   "property": "C144",
   "status": "partial",
   "theorems": [
    "Verif.Props.Login.C144_takeover_violated",
    "Verif.Props.Login.C144_not_utf8_violated",
    "Verif.Props.Login.C144_registration_partial",
    "Verif.Props.Login.C144_login_partial"
   ],
   "note": "Violated: registering a name that exists replaces that user, no password asked; and a name that is not UTF-8 replaces the user called by the replacement character. Proved: no other user changes, for names that are UTF-8 and YubiKey codes that are."
  },
  {
   "property": "C145",
   "status": "partial",
   "theorems": [
    "Verif.Props.Login.C145_restart_partial",
    "Verif.Props.Login.C145_code_violated"
   ],
   "note": "Violated if the YubiKey library takes a code that is not UTF-8: typed twice it is refused by one process and accepted by two. Proved for lines that are UTF-8 or are no YubiKey codes."
  },
  {
   "property": "C146",
   "status": "partial",
   "theorems": [
    "Verif.Props.Login.C146_next_partial",
    "Verif.Props.Login.C146_older_violated"
   ],
   "note": "Violated: only the latest code is remembered, so that the codes of two steps can be used in turn. Proved: the code accepted last is refused, whenever the program is started again."
  },
  {
   "property": "C147",
   "status": "partial",
   "theorems": [
    "Verif.Props.Login.C147_listed_violated",
    "Verif.Props.Login.C147_type_partial"
   ],
   "note": "Violated: yubikey is listed, but answering it is ignored, since regYubiKey is not in the table. Proved for password and TOTP."
  },
  {
   "property": "C148",
   "status": "partial",
   "theorems": [
    "Verif.Props.Login.C148_null_violated",
    "Verif.Props.Login.C148_nobody_violated",
    "Verif.Props.Login.C148_own_files_partial"
   ],
   "note": "Violated by the file null, with which registering assigns to a nil map, and by a user that is null. Proved for every file that runs of the program, with failing writes, can leave."
  },
  {
   "property": "C149",
   "status": "partial",
   "theorems": [
    "Verif.Props.Login.C149_only_partial",
    "Verif.Props.Login.C149_refused_partial",
    "Verif.Props.Login.C149_torn_violated"
   ],
   "note": "Violated by a write that breaks off, which loses all users. Proved: the rest."
  },
  {
   "property": "C150",
   "status": "proved",
   "theorems": [
    "Verif.Props.Login.C150_ends",
    "Verif.Props.Login.C150_status",
    "Verif.Props.Login.C150_error"
   ],
   "note": "A run is given its input as a list of lines."
  },
  {
   "property": "C151",
   "status": "partial",
   "theorems": [
    "Verif.Props.TotpUrl.C151_qr_partial",
    "Verif.Props.TotpUrl.C151_slash_violated",
    "Verif.Props.TotpUrl.C151_empty_label_violated"
   ],
   "note": "Violated by labels that begin with a slash, which is dropped, and by the empty label. Proved for all others. Drawing the text (rsc.io/qr) is a parameter; the escaping of net/url is modelled."
  },
  {
   "property": "C152",
   "status": "partial",
   "theorems": [
    "Verif.Props.TotpUrl.C152_app_partial",
    "Verif.Props.TotpUrl.C152_new",
    "Verif.Props.TotpUrl.C152_lost_violated",
    "Verif.Props.TotpUrl.C152_step_violated"
   ],
   "note": "Violated by tokens with another start, step or hash, which are not in the text. Proved for all with those of Google's tokens, in particular those that NewGoogleTOTP makes. The reader follows the Key Uri Format."
  },
  {
   "property": "C153",
   "status": "partial",
   "theorems": [
    "Verif.Props.TotpUrl.C153_named_partial",
    "Verif.Props.TotpUrl.C153_issuer_violated"
   ],
   "note": "Violated for every token with a provider: the text names it under provider, not issuer."
  },
  {
   "property": "C154",
   "status": "proved",
   "theorems": [
    "Verif.Props.SecretscliHelp.C154_listed",
    "Verif.Props.SecretscliHelp.C154_explained"
   ],
   "note": ""
  },
  {
   "property": "C155",
   "status": "partial",
   "theorems": [
    "Verif.Props.SecretscliTwo.C155_partial",
    "Verif.Props.SecretscliTwo.C155_violated"
   ],
   "note": "Violated when something is stored in both: the session that saves last replaces the file with its own view, and what was stored in the other is gone. Proved in general: the file is as one of the two sessions would have left it alone, no other file changes, and neither session is affected otherwise."
  },
  {
   "property": "C156",
   "status": "partial",
   "theorems": [
    "Verif.Props.KeysrvHttp.C156_label_partial",
    "Verif.Props.KeysrvHttp.C156_exact",
    "Verif.Props.KeysrvHttp.C156_served_partial",
    "Verif.Props.KeysrvHttp.C156_violated"
   ],
   "note": "Violated by labels that are empty, contain a slash, or are a dot or two: no URL leads to them. Proved for all other labels, in every encoding. The routing of gorilla/mux 1.8.1 and the parsing of net/http are modelled."
  },
  {
   "property": "C157",
   "status": "partial",
   "theorems": [
    "Verif.Props.KeysrvHttp.C157_partial",
    "Verif.Props.KeysrvHttp.C157_unreadable",
    "Verif.Props.KeysrvHttp.C157_violated"
   ],
   "note": "Violated: the routes are not limited to methods, so a GET with a body under /upload/ adds a key. Proved for all URLs that are not under /upload/ and for bodies that cannot be read."
  },
  {
   "property": "C158",
   "status": "proved",
   "theorems": [
    "Verif.Props.KeysrvHttp.C158_redirects"
   ],
   "note": ""
  },
  {
   "property": "C159",
   "status": "partial",
   "theorems": [
    "Verif.Props.KeysrvHttp.C159_self_partial",
    "Verif.Props.KeysrvHttp.C159_violated"
   ],
   "note": "Violated: /fingerprint/ is not found, since no route matches the empty label that the handler provides for. Proved for /fingerprint/self and for /public/."
  },
  {
   "property": "C160",
   "status": "partial",
   "theorems": [
    "Verif.Props.PasscryptTree.C160_partial",
    "Verif.Props.PasscryptTree.C160_violated"
   ],
   "note": "Violated by an absolute and a relative argument with the same names: passcrypt /x x restores one file, which can be a mixture of the two. Proved for arguments without .. that are all absolute or all relative."
  },
  {
   "property": "C161",
   "status": "partial",
   "theorems": [
    "Verif.Props.CommandLine.C161_default",
    "Verif.Props.SecretscliTime.C161_partial",
    "Verif.Props.SecretscliTime.C161_time",
    "Verif.Props.SecretscliTime.C161_wiped",
    "Verif.Props.SecretscliTime.C161_limit",
    "Verif.Props.SecretscliTime.C161_waiting",
    "Verif.Props.SecretscliTime.C161_violated"
   ],
   "note": "Violated: while a command waits for an answer at a prompt, no timer runs; after passwd the secrets stay in memory for as long as nothing is typed. Proved for all moments at which no command is being carried out. The program takes no time by itself; zeroing is of the store, not of copies made by the garbage collector."
  },
  {
   "property": "C162",
   "status": "partial",
   "theorems": [
    "Verif.Props.SecretscliTime.C162_partial",
    "Verif.Props.SecretscliTime.C162_violated"
   ],
   "note": "Violated: empty lines do not count, so a user who presses the enter key all the time is locked out. Proved for lines that are not empty, except one typed at the very moment at which the timer fires."
  },
  {
   "property": "C163",
   "status": "proved",
   "theorems": [
    "Verif.Props.CommandLine.C163_secrets",
    "Verif.Props.CommandLine.C163_secretscli",
    "Verif.Props.CommandLine.C163_journal",
    "Verif.Props.CommandLine.C163_otpc",
    "Verif.Props.CommandLine.C163_passcrypt",
    "Verif.Props.CommandLine.C163_fcrypt",
    "Verif.Props.CommandLine.C163_others",
    "Verif.Props.CommandLine.C163_spelling"
   ],
   "note": "What -V and the messages about usage print is left out. The values of durations are those that time.ParseDuration, which is a parameter, reads."
  },
  {
   "property": "C164",
   "status": "partial",
   "theorems": [
    "Verif.Props.CommandLine.C164_secrets_partial",
    "Verif.Props.CommandLine.C164_others_partial",
    "Verif.Props.CommandLine.C164_unpack_violated",
    "Verif.Props.CommandLine.C164_remove_violated"
   ],
   "note": "Violated: the example for unpacking in the README of passcrypt (passcrypt -o tmp passcrypt.enc) lacks -u; it packs the archive into itself and so replaces it. The README of fcrypt says that -r asks for a label; it refuses without an argument. Proved: the other examples start the action that is described, with these arguments and files; what the actions do is the subject of the other properties."
  },
  {
   "property": "C165",
   "status": "partial",
   "theorems": [
    "Verif.Props.CommandLine.C165_partial",
    "Verif.Props.CommandLine.C165_after_violated",
    "Verif.Props.CommandLine.C165_value_violated",
    "Verif.Props.CommandLine.C165_ignored_violated"
   ],
   "note": "Violated: options after the first argument are taken for arguments, so that secrets -f f -r a -f g removes a from f; secrets -i false switches -i on; secretscli ignores its arguments. Proved for words before the first argument."
  },
  {
   "property": "C166",
   "status": "partial",
   "theorems": [
    "Verif.Props.CommandLine.C166_partial",
    "Verif.Props.CommandLine.C166_secrets_violated",
    "Verif.Props.CommandLine.C166_fcrypt_violated"
   ],
   "note": "Violated: secrets -r -s b is secrets -s b, and fcrypt -d -e is fcrypt -e. Proved: order and repetition make no difference."
  },
  {
   "property": "C167",
   "status": "proved",
   "theorems": [
    "Verif.Props.CommandLine.C167_unreadable",
    "Verif.Props.CommandLine.C167_version"
   ],
   "note": "The exit status of -h and -help differs between versions of Go. The directories and files that are not modelled are not opened before either."
  },
  {
   "property": "C168",
   "status": "partial",
   "theorems": [
    "Verif.Props.CommandLine.C168_partial",
    "Verif.Props.CommandLine.C168_violated"
   ],
   "note": "Violated: two blanks in a row, or one at the end, give the editor an empty argument. Proved for words with single spaces between them. What the editor does is a parameter."
  },
  {
   "property": "C169",
   "status": "proved",
   "theorems": [
    "Verif.Props.SecretsOutput.C169_shown",
    "Verif.Props.SecretsOutput.C169_silent"
   ],
   "note": "For a store path other than -. The order of the metadata is any order; the format of the date is a parameter."
  },
  {
   "property": "C170",
   "status": "proved",
   "theorems": [
    "Verif.Props.SecretsOutput.C170_quiet",
    "Verif.Props.SecretsOutput.C170_passphrase",
    "Verif.Props.SecretsOutput.C170_show"
   ],
   "note": "The two runs iterate over maps with the same keys in the same order. Standard error, and the prompts of package readpass, are left out; what util.WriteFile writes to - is left out. For showing, both passphrases are right."
  },
  {
   "property": "C171",
   "status": "partial",
   "theorems": [
    "Verif.Props.SecretsOutput.C171_list_partial",
    "Verif.Props.SecretsOutput.C171_apart_partial",
    "Verif.Props.SecretsOutput.C171_violated"
   ],
   "note": "Violated: a label may contain a newline; the labels a and b\\n\\tc are listed as a\\n\\tb and c. Proved: number, order and completeness for every store, and that different sets are printed differently if no label contains a newline."
  },
  {
   "property": "C172",
   "status": "partial",
   "theorems": [
    "Verif.Props.SecretsOutput.C172_merge_partial",
    "Verif.Props.SecretsOutput.C172_violated"
   ],
   "note": "Violated: the merge reports the label within the record, which secretscli leaves empty: it prints Merged ''. Proved if every record of the other store carries its label."
  },
  {
   "property": "C173",
   "status": "partial",
   "theorems": [
    "Verif.Props.SecretsOutput.C173_removed_partial",
    "Verif.Props.SecretsOutput.C173_absent_partial",
    "Verif.Props.SecretsOutput.C173_violated",
    "Verif.Props.SecretsOutput.C173_key_violated"
   ],
   "note": "Violated: Removed is printed before the file is written; Deleted key is printed for keys that are not there. Proved for entries when the exit status is 0, and that nothing is printed for a label that is not there."
  },
  {
   "property": "C174",
   "status": "partial",
   "theorems": [
    "Verif.Props.SecretsOutput.C174_apart_partial",
    "Verif.Props.SecretsOutput.C174_violated"
   ],
   "note": "Violated: the name a: b with the value c is shown as the name a with the value b: c. Proved if there are no newlines and the names of metadata have no colon."
  },
  {
   "property": "C175",
   "status": "partial",
   "theorems": [
    "Verif.Props.PasscryptOutput.C175_lists",
    "Verif.Props.PasscryptOutput.C175_refuses",
    "Verif.Props.PasscryptOutput.C175_packed",
    "Verif.Props.PasscryptOutput.C175_apart_partial",
    "Verif.Props.PasscryptOutput.C175_packed_slash",
    "Verif.Props.PasscryptOutput.C175_newline_violated",
    "Verif.Props.PasscryptOutput.C175_slash_violated"
   ],
   "note": "Violated: the list of one file whose name contains an end of line and a tab looks like that of two files; in archives not made by passcrypt a file whose name ends in a slash looks like a directory. Proved otherwise; passcrypt itself stores no such names but /."
  },
  {
   "property": "C176",
   "status": "proved",
   "theorems": [
    "Verif.Props.PasscryptOutput.C176_pack",
    "Verif.Props.PasscryptOutput.C176_pack_stops",
    "Verif.Props.PasscryptOutput.C176_unpack",
    "Verif.Props.PasscryptOutput.C176_unpack_stops"
   ],
   "note": "That a regular file found by the walk still is one when it is opened is assumed, in that its mode has no directory bit."
  },
  {
   "property": "C177",
   "status": "partial",
   "theorems": [
    "Verif.Props.PasscryptOutput.C177_quiet_partial",
    "Verif.Props.PasscryptOutput.C177_directories_violated"
   ],
   "note": "Violated: directories are named while unpacking even without -v. Proved while packing, and for archives without directories."
  },
  {
   "property": "C178",
   "status": "proved",
   "theorems": [
    "Verif.Props.PasscryptOutput.C178_open",
    "Verif.Props.PasscryptOutput.C178_pack"
   ],
   "note": "Both passwords are right, and the gzip streams of both archives are sound or unsound alike; a bad stream ends the run. The prompt of package readpass and standard error are left out."
  },
  {
   "property": "C179",
   "status": "partial",
   "theorems": [
    "Verif.Props.OtpcOutput.C179_text_partial",
    "Verif.Props.OtpcOutput.C179_typed_partial",
    "Verif.Props.OtpcOutput.C179_mistyped",
    "Verif.Props.OtpcOutput.C179_mistyped_violated",
    "Verif.Props.OtpcOutput.C179_stored"
   ],
   "note": "Violated: when the key typed for an HOTP token is not base 32, otpc prints it, in upper case, though the prompt did not echo it. Proved otherwise, for runs that end or start displaying. Prompts of package readpass and standard error are left out."
  },
  {
   "property": "C180",
   "status": "partial",
   "theorems": [
    "Verif.Props.OtpcOutput.C180_left_partial",
    "Verif.Props.OtpcOutput.C180_boundary_violated"
   ],
   "note": "Violated when the period ends between the two readings of the clock: the code is the new one, and said to expire in a second. Proved when both readings fall into one period; minutes of local time begin at whole minutes of UTC."
  },
  {
   "property": "C181",
   "status": "proved",
   "theorems": [
    "Verif.Props.JournalOutput.C181_shown",
    "Verif.Props.JournalOutput.C181_quiet",
    "Verif.Props.JournalOutput.C181_passphrase"
   ],
   "note": "The editors of the two runs succeed or fail alike whatever text they are given; what editors print themselves, prompts of package readpass and standard error are left out. The runs iterate over maps with the same keys in the same order."
  },
  {
   "property": "C182",
   "status": "partial",
   "theorems": [
    "Verif.Props.JournalOutput.C182_list_partial",
    "Verif.Props.JournalOutput.C182_read_partial",
    "Verif.Props.JournalOutput.C182_lines_violated"
   ],
   "note": "Violated: a title may contain an end of line, and then one entry is listed like two; and see C73 for entries of the same second. Proved for entries with different timestamps: complete and newest first; and, for titles without ends of lines, different titles or dates are listed differently."
  },
  {
   "property": "C183",
   "status": "partial",
   "theorems": [
    "Verif.Props.JournalOutput.C183_left",
    "Verif.Props.JournalOutput.C183_quiet_partial",
    "Verif.Props.JournalOutput.C183_write_partial",
    "Verif.Props.JournalOutput.C183_example",
    "Verif.Props.JournalOutput.C183_gone_violated"
   ],
   "note": "Violated: if the editor removes the file itself, the warning names a file that is not there. Proved: a file that is left is always named, also when the run fails; and nothing is printed if the editor leaves a file and it is removed, when an entry is edited or a new title is written."
  },
  {
   "property": "C184",
   "status": "partial",
   "theorems": [
    "Verif.Props.TlvDecMem.C184_unread_partial",
    "Verif.Props.TlvDecMem.C184_all_unread",
    "Verif.Props.TlvDecMem.C184_read_violated"
   ],
   "note": "Violated: what has been decoded is no longer part of the decoder's slice and stays in the buffer; after the last value Zero wipes nothing. Proved: what was not decoded is wiped, values decoded before are unchanged, other memory is untouched, and the decoder is empty."
  },
  {
   "property": "C185",
   "status": "proved",
   "theorems": [
    "Verif.Props.SecretscliOutput.C185_quiet",
    "Verif.Props.SecretscliOutput.C185_secrets",
    "Verif.Props.SecretscliOutput.C185_named"
   ],
   "note": "Answers typed in the two sessions agree in whether they are absent, empty, or a yes. Prompts of package readpass, standard error, and the data that a save to the path - writes to standard output are left out. The sessions iterate over maps with the same keys in the same order."
  },
  {
   "property": "C186",
   "status": "partial",
   "theorems": [
    "Verif.Props.SecretscliOutput.C186_asked_partial",
    "Verif.Props.SecretscliOutput.C186_prompt_partial",
    "Verif.Props.SecretscliOutput.C186_violated",
    "Verif.Props.SecretscliOutput.C186_percent_violated"
   ],
   "note": "Violated: label and file name are used as format strings, so a percent sign in them comes out as an error message of package fmt, or disappears. Proved for names without percent signs. Package fmt is a parameter with three laws."
  },
  {
   "property": "C187",
   "status": "proved",
   "theorems": [
    "Verif.Props.SecretscliOutput.C187_noted",
    "Verif.Props.SecretscliOutput.C187_only"
   ],
   "note": "The record is there before the command, as wmeta requires; standard error is left out."
  },
  {
   "property": "C188",
   "status": "proved",
   "theorems": [
    "Verif.Props.MigrateOutput.C188_lines",
    "Verif.Props.MigrateOutput.C188_all"
   ],
   "note": "Standard error and the prompts of package readpass are left out."
  },
  {
   "property": "C189",
   "status": "partial",
   "theorems": [
    "Verif.Props.LoginOutput.C189_users_partial",
    "Verif.Props.LoginOutput.C189_unknown_violated"
   ],
   "note": "Violated: an unknown name is answered with another message, so that anybody can find out who is registered. Proved: all registered users with authenticators that can be read are refused with one message. Timing is left out."
  },
  {
   "property": "C190",
   "status": "proved",
   "theorems": [
    "Verif.Props.LoginOutput.C190_run",
    "Verif.Props.LoginOutput.C190_password",
    "Verif.Props.LoginOutput.C190_totp"
   ],
   "note": "Errors of the operating system, terminal, bcrypt and json have one text in the model. Log lines are without their date; the prompts of package readpass are left out. A user of type session, which the program cannot register, would have a character of what they typed quoted by encoding/hex."
  },
  {
   "property": "C191",
   "status": "partial",
   "theorems": [
    "Verif.Props.FcryptOutput.C191_failure_partial",
    "Verif.Props.FcryptOutput.C191_success_partial",
    "Verif.Props.FcryptOutput.C191_nothing_violated",
    "Verif.Props.FcryptOutput.C191_signed_violated"
   ],
   "note": "Violated: without a command fcrypt prints an error and exits with status 0, and so does -s -e when the file cannot be written. Proved: status 1 comes with an error message as the last text, and status 0 with nothing on standard error if there was a command and all files were written. Go's own panic messages and the prompts of package readpass are left out."
  },
  {
   "property": "C192",
   "status": "partial",
   "theorems": [
    "Verif.Props.FcryptOutput.C192_shown_partial",
    "Verif.Props.FcryptOutput.C192_no",
    "Verif.Props.FcryptOutput.C192_yes",
    "Verif.Props.FcryptOutput.C192_wished",
    "Verif.Props.FcryptOutput.C192_imported_partial",
    "Verif.Props.FcryptOutput.C192_known_violated"
   ],
   "note": "Violated: keys signed by the owner or by someone on record are announced as having an unrecognised signature. Proved: warning, fingerprint, whether the key signs itself, the questions, and what follows yes and no. After no the disk must not fail half way through a write, as in C129."
  },
  {
   "property": "C193",
   "status": "partial",
   "theorems": [
    "Verif.Props.FcryptOutput.C193_fixed_partial",
    "Verif.Props.FcryptOutput.C193_invalid_violated"
   ],
   "note": "Violated for a key store file of another version or without a time, which is printed in full on standard error, the locked private key included. Proved for all others. Errors of the operating system and the terminal have one text in the model, which may contain the names of the files. The prompts of package readpass are left out."
  },
  {
   "property": "C194",
   "status": "partial",
   "theorems": [
    "Verif.Props.KeyAudit.C194_answer_partial",
    "Verif.Props.KeyAudit.C194_named_partial",
    "Verif.Props.KeyAudit.C194_twice_violated"
   ],
   "note": "Violated by files that hold a key twice: the walk may take the copy whose own signature is bad, and a key that the owner trusts is named as untrusted. Proved when no key is on record twice; if there is no record under self either, VerifyChain answers exactly this whenever it returns. That it may not return is the subject of C58 and C133."
  },
  {
   "property": "C195",
   "status": "partial",
   "theorems": [
    "Verif.Props.SessionMem.C195_wiped_partial",
    "Verif.Props.SessionMem.C195_answers_violated"
   ],
   "note": "Violated: a wiped session goes on answering, under a key of 32 zeros that everybody knows. Proved: the key is overwritten and nothing else is, and a server with the key refuses the answers unless HMAC gives the same for both keys."
  },
  {
   "property": "C196",
   "status": "proved",
   "theorems": [
    "Verif.Props.KeysrvLog.C196_stamped"
   ],
   "note": "The date has slashes and a label in a URL has none. The reason why the file could not be written, which contains its name, is taken to have no newline. What net/http logs, the trace of a panic, and what is logged before the server listens are left out."
  },
  {
   "property": "C197",
   "status": "partial",
   "theorems": [
    "Verif.Props.KeysrvLog.C197_lines_partial",
    "Verif.Props.KeysrvLog.C197_violated"
   ],
   "note": "Violated: the label of a key that is not on record is logged as it is, so that a URL with %0A adds a line (without a date, see C196). Proved for labels without newlines."
  },
  {
   "property": "C198",
   "status": "partial",
   "theorems": [
    "Verif.Props.KeysrvLog.C198_operations_partial",
    "Verif.Props.KeysrvLog.C198_unknown_partial",
    "Verif.Props.KeysrvLog.C198_lookup_partial",
    "Verif.Props.KeysrvLog.C198_upload_violated"
   ],
   "note": "Violated: of an upload the log has neither label nor result. Proved: the operations are all there, in order, and a server that started with a file in the order of the chain logs, for each label looked up, that it was, and either nothing more (it is on record, status 200) or that the label is not on record and that the lookup failed (status 400)."
  },
  {
   "property": "C199",
   "status": "partial",
   "theorems": [
    "Verif.Props.Perms.C199_modes_partial",
    "Verif.Props.Perms.C199_umask_violated",
    "Verif.Props.Perms.C199_existing_violated"
   ],
   "note": "Violated: the umask takes bits away, and a file that exists keeps its old mode. Proved for new files: no permission is added, and the mode is restored exactly when it has no bit of the umask."
  },
  {
   "property": "C200",
   "status": "partial",
   "theorems": [
    "Verif.Props.Perms.C200_fcrypt_violated",
    "Verif.Props.Perms.C200_login_violated",
    "Verif.Props.Perms.C200_otpc_partial",
    "Verif.Props.Perms.C200_existing_violated",
    "Verif.Props.Perms.C200_journal_partial"
   ],
   "note": "Violated by fcrypt -d and by qr.png of the login example, which are created with mode 0644, and by otpc -qr over an existing file, which keeps its mode. Proved for every umask: otpc -qr into a new file and the temporary file of the journal, up to the start of the editor. Only the nine permission bits are modelled."
  },
  {
   "property": "C201",
   "status": "partial",
   "theorems": [
    "Verif.Props.Perms.C201_encryptFile_partial",
    "Verif.Props.Perms.C201_init_violated"
   ],
   "note": "Violated: secrets -init creates the store with mode 0644. Proved for secret.EncryptFile for every umask, also when the write fails; existing files keep their mode. Only the nine permission bits are modelled."
  },
  {
   "property": "C202",
   "status": "partial",
   "theorems": [
    "Verif.Props.SecretsErrors.C202_failed",
    "Verif.Props.SecretsErrors.C202_quiet_partial",
    "Verif.Props.SecretsErrors.C202_violated",
    "Verif.Props.SecretsErrors.C202_missing"
   ],
   "note": "Violated: -export with two arguments exports to the first, with status 0, but complains that no output file was given (-import likewise). Proved for all failures, and for all successes if -export and -import get one argument. A run that ends in a panic has no status in the model; what the runtime prints is left out. The usage text of package flag is the subject of C163-C168."
  },
  {
   "property": "C203",
   "status": "partial",
   "theorems": [
    "Verif.Props.SecretsErrors.C203_warned_partial",
    "Verif.Props.SecretsErrors.C203_alias_violated"
   ],
   "note": "Violated by labels that are not UTF-8: encoding/json replaces their bad bytes, and they take the place of another entry without -w and without a warning. Proved for all entries whose label is not the result of such a replacement."
  },
  {
   "property": "C204",
   "status": "proved",
   "theorems": [
    "Verif.Props.SecretsErrors.C204_unopened"
   ],
   "note": "The path is not -. The prompt for the passphrase, which package readpass prints, is left out. Timing is left out."
  },
  {
   "property": "C205",
   "status": "proved",
   "theorems": [
    "Verif.Props.SecretsErrors.C205_vocabulary"
   ],
   "note": "The error texts of the operating system and of package readpass are parameters, the first of them functions of the path alone; percent signs do not matter, as no format comes from a user. What the runtime prints when a run panics is left out."
  },
  {
   "property": "C206",
   "status": "partial",
   "theorems": [
    "Verif.Props.SecretscliErrors.C206_failed",
    "Verif.Props.SecretscliErrors.C206_ok",
    "Verif.Props.SecretscliErrors.C206_saved_partial",
    "Verif.Props.SecretscliErrors.C206_warning",
    "Verif.Props.SecretscliErrors.C206_write_arguments",
    "Verif.Props.SecretscliErrors.C206_panic",
    "Verif.Props.SecretscliErrors.C206_violated"
   ],
   "note": "Violated: store with several labels, of which a later one gets no password, tries to save the earlier ones; if there is no randomness for that, nothing says that they were not saved, only that no password was entered. Proved for all commands that fail, succeed or panic, and for the save at the end of a session. The path is not -."
  },
  {
   "property": "C207",
   "status": "partial",
   "theorems": [
    "Verif.Props.SecretscliErrors.C207_partial",
    "Verif.Props.SecretscliErrors.C207_no_write_partial",
    "Verif.Props.SecretscliErrors.C207_violated",
    "Verif.Props.SecretscliErrors.C207_passwd_violated"
   ],
   "note": "Violated by sessions that change something after the store was written, which then saves zeros in silence, and by passwd without other changes (as C69-C71 say of the files). Proved for sessions on a disk that may fail at any write, without changes after a write within the session; labels and what is typed are valid UTF-8, the clock does not show zero, and the PRNG has at least 56 bytes."
  },
  {
   "property": "C208",
   "status": "proved",
   "theorems": [
    "Verif.Props.SecretscliErrors.C208_vocabulary"
   ],
   "note": "The texts of errors of the terminal and of the operating system are parameters, the latter functions of the path alone. The date and the time which package log puts before a line are left out, and so is what the runtime prints if readCommands panics, which it does not."
  },
  {
   "property": "C209",
   "status": "proved",
   "theorems": [
    "Verif.Props.SecretscliErrors.C209_begins",
    "Verif.Props.SecretscliErrors.C209_locked",
    "Verif.Props.SecretscliErrors.C209_no_file",
    "Verif.Props.SecretscliErrors.C209_no_passphrase"
   ],
   "note": "Timing and the prompt of package readpass are left out; the timeout flag is the subject of C161-C168."
  },
  {
   "property": "C210",
   "status": "proved",
   "theorems": [
    "Verif.Props.JournalErrors.C210_failed",
    "Verif.Props.JournalErrors.C210_quiet"
   ],
   "note": "What the editor writes to the standard error it shares with journal is left out. Runs that panic (a nil record in the file) have no status; see C113-C118."
  },
  {
   "property": "C211",
   "status": "proved",
   "theorems": [
    "Verif.Props.JournalErrors.C211_absent",
    "Verif.Props.JournalErrors.C211_shown",
    "Verif.Props.JournalErrors.C211_aborted"
   ],
   "note": "The path is not -. Records that are nil in the file count as being there."
  },
  {
   "property": "C212",
   "status": "partial",
   "theorems": [
    "Verif.Props.JournalErrors.C212_partial",
    "Verif.Props.JournalErrors.C212_dialogue_partial",
    "Verif.Props.JournalErrors.C212_violated"
   ],
   "note": "Violated: if the temporary file is created but cannot be filled, the error is dropped; editing an entry then replaces it by what was in the editor, with status 0 and not a word on standard output or standard error. Proved for the other failures: for a new title, for one that is taken and edited, and for one typed after declining to edit."
  },
  {
   "property": "C213",
   "status": "proved",
   "theorems": [
    "Verif.Props.JournalErrors.C213_vocabulary"
   ],
   "note": "The texts of errors of the terminal, the file system and the editor are parameters, those of the file system functions of the path alone. What the editor itself writes is left out."
  },
  {
   "property": "C214",
   "status": "proved",
   "theorems": [
    "Verif.Props.JournalErrors.C214_unopened"
   ],
   "note": "The path is not -. Timing and the prompt of package readpass are left out."
  },
  {
   "property": "C215",
   "status": "proved",
   "theorems": [
    "Verif.Props.OtpcErrors.C215_failed",
    "Verif.Props.OtpcErrors.C215_quiet"
   ],
   "note": "Runs that panic have no status; see C107-C112."
  },
  {
   "property": "C216",
   "status": "proved",
   "theorems": [
    "Verif.Props.OtpcErrors.C216_taken",
    "Verif.Props.OtpcErrors.C216_absent",
    "Verif.Props.OtpcErrors.C216_type"
   ],
   "note": "The path is not -."
  },
  {
   "property": "C217",
   "status": "proved",
   "theorems": [
    "Verif.Props.OtpcErrors.C217_vocabulary"
   ],
   "note": "The texts of errors are parameters; those of strconv, time, base32 and twofactor are functions of what they are given. Package twofactor is not in the repository, so whether its errors quote a key or a URL is not known here. The warning about overwriting a token (otpc.go:153) is never printed, since no flag sets Overwrite."
  },
  {
   "property": "C218",
   "status": "proved",
   "theorems": [
    "Verif.Props.OtpcErrors.C218_unopened"
   ],
   "note": "The path is not -. Timing and the prompt of package readpass are left out."
  },
  {
   "property": "C219",
   "status": "proved",
   "theorems": [
    "Verif.Props.PasscryptErrors.C219_failed",
    "Verif.Props.PasscryptErrors.C219_quiet"
   ],
   "note": "Package flag's own messages are the subject of C163-C168. A walk that never ends is left out."
  },
  {
   "property": "C220",
   "status": "proved",
   "theorems": [
    "Verif.Props.PasscryptErrors.C220_same",
    "Verif.Props.PasscryptErrors.C220_before"
   ],
   "note": "Timing and the prompt of package readpass are left out."
  },
  {
   "property": "C221",
   "status": "proved",
   "theorems": [
    "Verif.Props.PasscryptErrors.C221_pack_names",
    "Verif.Props.PasscryptErrors.C221_unpack_names",
    "Verif.Props.PasscryptErrors.C221_pack_content",
    "Verif.Props.PasscryptErrors.C221_open_content"
   ],
   "note": "The texts of errors are parameters; those of the file system are functions of the path alone, those of compress/gzip and encoding/asn1 of what they read, which is why the entries are sound in the comparison. The calls made by filepath.Walk are a parameter here; Model/PasscryptWalk computes them from the tree."
  },
  {
   "property": "C222",
   "status": "proved",
   "theorems": [
    "Verif.Props.MigrateErrors.C222_failed",
    "Verif.Props.MigrateErrors.C222_quiet"
   ],
   "note": "A file shorter than 32 bytes makes the program panic (C101); that run has no line of its own."
  },
  {
   "property": "C223",
   "status": "proved",
   "theorems": [
    "Verif.Props.MigrateErrors.C223_no_password",
    "Verif.Props.MigrateErrors.C223_missing",
    "Verif.Props.MigrateErrors.C223_shut",
    "Verif.Props.MigrateErrors.C223_opened"
   ],
   "note": "Files shorter than 32 bytes are the subject of C101. The texts of errors of the file system are functions of the path."
  },
  {
   "property": "C224",
   "status": "proved",
   "theorems": [
    "Verif.Props.SecretsRefusals.C224_absent",
    "Verif.Props.SecretsRefusals.C224_exists",
    "Verif.Props.SecretsRefusals.C224_no_secret",
    "Verif.Props.SecretsRefusals.C224_no_passphrase",
    "Verif.Props.SecretsRefusals.C224_merge",
    "Verif.Props.SecretsRefusals.C224_list"
   ],
   "note": "The path is not -. The texts of errors of the terminal and the file system are parameters."
  },
  {
   "property": "C225",
   "status": "proved",
   "theorems": [
    "Verif.Props.SecretsRefusals.C225_unfinished"
   ],
   "note": "Runs that panic (a nil record in the file) have no status. The path is not -."
  },
  {
   "property": "C226",
   "status": "partial",
   "theorems": [
    "Verif.Props.OtpcNumbers.C226_numbers_partial",
    "Verif.Props.OtpcNumbers.C226_refused",
    "Verif.Props.OtpcNumbers.C226_refused_digits",
    "Verif.Props.OtpcNumbers.C226_negative_violated"
   ],
   "note": "Violated: a negative number, or one with a plus sign, is taken as well; -1 as a counter stands for 2^64 - 1. Proved: nothing, or an integer that fits into 64 bits, and the code is the one for it, the counter modulo 2^64; what is no integer is refused as a counter and as a number of digits."
  },
  {
   "property": "C227",
   "status": "partial",
   "theorems": [
    "Verif.Props.Together.C227_shown_partial",
    "Verif.Props.Together.C227_back_partial",
    "Verif.Props.Together.C227_spaces_violated"
   ],
   "note": "Violated: a label with white space is never one word, so that an entry stored under it with secrets cannot be shown in secretscli whatever is typed. Proved for labels that are one word, and in the reverse for the label as secretscli split it."
  },
  {
   "property": "C228",
   "status": "partial",
   "theorems": [
    "Verif.Props.Together.C228_converge_partial",
    "Verif.Props.Together.C228_removed_violated"
   ],
   "note": "Violated: an entry that is removed from one copy comes back when the other is merged. Proved for stores without null records and without two different records of one label and one time: both copies hold the same entries, the last changed under each label."
  },
  {
   "property": "C229",
   "status": "partial",
   "theorems": [
    "Verif.Props.TogetherKeys.C229_published_partial",
    "Verif.Props.TogetherKeys.C229_imported_partial",
    "Verif.Props.TogetherKeys.C229_own_violated"
   ],
   "note": "Violated: the user's own key, which -export without -l writes, is refused by every server that has not got it already and is not the user's own. Proved for the keys on record (-export -l) of a store in which no key is on record twice, and for servers with a sound store."
  },
  {
   "property": "C230",
   "status": "proved",
   "theorems": [
    "Verif.Props.Together.C230_usable"
   ],
   "note": "Files that are named twice are the subject of C101. Writes either succeed or leave the file as it was."
  },
  {
   "property": "C231",
   "status": "proved",
   "theorems": [
    "Verif.Props.TogetherStores.C231_viewed",
    "Verif.Props.TogetherStores.C231_removed"
   ],
   "note": "The URL is a parameter (package twofactor is not in the repository). The key is not empty and is typed in base 32, in either case, with or without spaces and padding. The items come in the order in which the runtime iterates over the metadata."
  },
  {
   "property": "C232",
   "status": "proved",
   "theorems": [
    "Verif.Props.TogetherStores.C232_written",
    "Verif.Props.TogetherStores.C232_edited",
    "Verif.Props.TogetherStores.C232_stored",
    "Verif.Props.TogetherStores.C232_removed",
    "Verif.Props.TogetherStores.C232_moved"
   ],
   "note": "What the title of C113 says of titles with white space around them and of titles that are not UTF-8 holds here as well, and they are left out. The path is not -."
  },
  {
   "property": "C233",
   "status": "partial",
   "theorems": [
    "Verif.Props.TogetherStores.C233_written_partial",
    "Verif.Props.TogetherStores.C233_edited_violated"
   ],
   "note": "Violated: journal -e does not set the time of the entry (journal.go:291), and merging takes over only what is newer; the change never reaches the other copy. Proved for new entries under titles in UTF-8 without white space around them, in journals without null records."
  },
  {
   "property": "C234",
   "status": "proved",
   "theorems": [
    "Verif.Props.TogetherMessages.C234_exchanged",
    "Verif.Props.TogetherMessages.C234_encrypted",
    "Verif.Props.TogetherMessages.C234_signed",
    "Verif.Props.TogetherMessages.C234_signed_and_encrypted"
   ],
   "note": "Writes succeed, clocks are not 0, and 56 bytes of randomness can be had. What fcrypt does with files that are larger or empty, without armour, or with stores that lack the key for export, is in C125 to C127."
  },
  {
   "property": "C235",
   "status": "partial",
   "theorems": [
    "Verif.Props.TogetherMessages.C235_encrypt",
    "Verif.Props.TogetherMessages.C235_signcrypt",
    "Verif.Props.TogetherMessages.C235_decrypt",
    "Verif.Props.TogetherMessages.C235_export",
    "Verif.Props.TogetherMessages.C235_remove",
    "Verif.Props.TogetherMessages.C235_verify_violated"
   ],
   "note": "Violated: fcrypt -v with a label that stands for no key says that the signature is invalid, and ends with status 0. Proved for the other commands."
  },
  {
   "property": "C236",
   "status": "partial",
   "theorems": [
    "Verif.Props.TogetherTokens.C236_followed_partial",
    "Verif.Props.TogetherTokens.C236_both_violated",
    "Verif.Props.TogetherTokens.C236_both_partial"
   ],
   "note": "Violated when both copies were used: the copy that was used last is kept, whatever its counter, and displays codes again that the other has displayed. Proved when one copy was used, with a clock later than the time in the record, and was merged into the other: the codes are those of successive counters. Proved also when both were used and the copy used last was used at least as often."
  },
  {
   "property": "C237",
   "status": "partial",
   "theorems": [
    "Verif.Props.Meanwhile.C237_secrets_unnoticed",
    "Verif.Props.Meanwhile.C237_secrets_kept_partial",
    "Verif.Props.Meanwhile.C237_secrets_apart_partial",
    "Verif.Props.Meanwhile.C237_secrets_lost",
    "Verif.Props.Meanwhile.C237_secrets_violated",
    "Verif.Props.Meanwhile.C237_otpc_unnoticed",
    "Verif.Props.Meanwhile.C237_otpc_kept_partial",
    "Verif.Props.Meanwhile.C237_otpc_apart_partial",
    "Verif.Props.Meanwhile.C237_otpc_lost",
    "Verif.Props.Meanwhile.C237_otpc_violated",
    "Verif.Props.Meanwhile.C237_journal_unnoticed",
    "Verif.Props.Meanwhile.C237_journal_kept_partial",
    "Verif.Props.Meanwhile.C237_journal_apart_partial",
    "Verif.Props.Meanwhile.C237_journal_lost",
    "Verif.Props.Meanwhile.C237_journal_violated"
   ],
   "note": "Violated by all three programs: the store is read once, at the beginning, and written as a whole at the end, without a lock. Proved for every change made meanwhile: a run ends with status 0 if and only if it would have if the store had not been touched, and then with the same files, so that every change of the store made meanwhile is lost (`_unnoticed`, `_lost`); the witnesses are a password stored with secrets -s while secrets -s, otpc -s or journal -e waits for its input. Proved in the positive: what was saved meanwhile stays when the run fails (other than half-way through the write) or only reads, and a run during which the store is not changed does what it does after the others."
  },
  {
   "property": "C238",
   "status": "partial",
   "theorems": [
    "Verif.Props.Meanwhile.C238_same_violated",
    "Verif.Props.Meanwhile.C238_apart_partial"
   ],
   "note": "Violated: both runs display the code of the same counter, and the counter is advanced by one only. Proved when the second run reads the store after the first has written it."
  },
  {
   "property": "C239",
   "status": "partial",
   "theorems": [
    "Verif.Props.OtpcEntries.C239_stored",
    "Verif.Props.OtpcEntries.C239_shown_partial",
    "Verif.Props.OtpcEntries.C239_url_violated"
   ],
   "note": "Violated by displaying a code: otpc takes the label under which it saves the token from the URL in the entry, so that a token whose URL carries another label also replaces that other entry, be it a password. Proved for otpc -s, and for displaying a code of a token whose URL carries its own label, as those stored by otpc -s do."
  },
  {
   "property": "C240",
   "status": "proved",
   "theorems": [
    "Verif.Props.Randomness.C240_apart",
    "Verif.Props.Randomness.C240_distinct"
   ],
   "note": ""
  },
  {
   "property": "C241",
   "status": "proved",
   "theorems": [
    "Verif.Props.RandomnessStores.C241_secrets",
    "Verif.Props.RandomnessStores.C241_otpc",
    "Verif.Props.RandomnessStores.C241_journal",
    "Verif.Props.RandomnessStores.C241_secretscli",
    "Verif.Props.RandomnessStores.C241_distinct"
   ],
   "note": ""
  },
  {
   "property": "C242",
   "status": "partial",
   "theorems": [
    "Verif.Props.MeanwhileKeys.C242_reads_partial",
    "Verif.Props.MeanwhileKeys.C242_removed_violated",
    "Verif.Props.MeanwhileKeys.C242_deleted_violated"
   ],
   "note": "Violated: fcrypt writes the store as it read it, so that of two runs of fcrypt -r at the same time the key removed by the one that finished first is on record again; and a store that is deleted while fcrypt runs is written again, even by a command that only reads it. Proved: commands that do not change the store leave it as the other program has saved it. The changes are made right after the store has been read; fcrypt does not look at its contents again."
  },
  {
   "property": "C243",
   "status": "partial",
   "theorems": [
    "Verif.Props.SealedStores.C243_secrets",
    "Verif.Props.SealedStores.C243_passwd",
    "Verif.Props.SealedStores.C243_otpc",
    "Verif.Props.SealedStores.C243_journal",
    "Verif.Props.SealedStores.C243_secretscli_partial",
    "Verif.Props.SealedStores.C243_violated"
   ],
   "note": "Violated by secretscli: once the store has been written within a session, its passphrase is zeros, so that whatever is stored later in the session is saved under as many zeros as the passphrase had bytes, which nobody has typed. Proved for all runs of secrets, otpc and journal; for sessions of secretscli proved that the passphrase is something that was typed or as many zeros. That a box cannot be opened without its key is not claimed."
  },
  {
   "property": "C244",
   "status": "partial",
   "theorems": [
    "Verif.Props.OwnKey.C244_own_key_partial",
    "Verif.Props.OwnKey.C244_opens_partial",
    "Verif.Props.OwnKey.C244_violated"
   ],
   "note": "Violated by fcrypt -export with the path of the key store as the file to write: the run reports success and the store, with the only copy of the private key, is replaced by the exported public key; no command compares its output file with the store (C244_violated). Proved of every run whose arguments do not include the path of the store (as it is spelled; links and other spellings of the same path are outside the model): the locked key is kept byte for byte, and the public key is the stored one or that of the locked key. A write that fails half way leaves a prefix of such a store, which the statement allows."
  },
  {
   "property": "C245",
   "status": "proved",
   "theorems": [
    "Verif.Props.KeysrvOwn.C245_own_key"
   ],
   "note": "A server that has no file yet panics while it makes its key (C142), so that every server that comes up has read its key from the file. A write that fails half way leaves a prefix of such a store, which the statement allows; that nothing can be read from it is C141."
  },
  {
   "property": "C246",
   "status": "proved",
   "theorems": [
    "Verif.Props.LoginHash.C246_registered",
    "Verif.Props.LoginHash.C246_hash",
    "Verif.Props.LoginHash.C246_tried",
    "Verif.Props.LoginHash.C246_unwritten"
   ],
   "note": "bcrypt is a parameter, about which nothing is assumed here; that a hash does not tell the password is not claimed. Memory of the process is outside the model."
  }
 ]
}