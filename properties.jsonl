{"id": "C01", "title": "TLV sequence round trip", "statement": "Any sequence of integers (all eight widths/signs) and non-empty byte strings written with Encode, followed by any further bytes (whole buffer below 2^31 bytes), is read back by Decode into pointers of the same types as exactly the same values, whatever the targets held before, and the decoder is left exactly at the bytes that follow.", "quantifier": "every finite sequence of values, every value, every trailing buffer, every previous content of the targets", "why_tests_cant": "The sequence length and every value are unbounded; tests try one nine-element sequence.", "anchors": ["common/tlv/tlv.go:Encoder.Encode", "common/tlv/tlv.go:Decoder.Decode"]}
{"id": "C02", "title": "TLV empty byte strings are consumed", "statement": "Decoding an empty byte-string record consumes it, so the records after it can be read.", "quantifier": "every record sequence containing an empty byte string", "why_tests_cant": "The test only decodes a buffer holding a single empty record and never looks at what follows it.", "anchors": ["common/tlv/tlv.go:Decoder.Decode", "common/tlv/tlv_test.go:TestZeroLengthBuffer"]}
{"id": "C03", "title": "TLV encoding is unambiguous", "statement": "Two different value sequences never encode to the same bytes (byte strings below 2^32, empty ones included), and no encoding of a sequence is the encoding of another followed by a partial record.", "quantifier": "every pair of value sequences", "why_tests_cant": "Quantifies over all pairs of unbounded sequences.", "anchors": ["common/tlv/tlv.go:Encoder.Encode"]}
{"id": "C04", "title": "A failed TLV decode has no effect", "statement": "If Decode returns an error then the decoder still holds the same bytes and the target still holds its old value.", "quantifier": "every buffer content, every target, every error path", "why_tests_cant": "Nine tag paths times arbitrary buffers; tests only see that an error is returned.", "anchors": ["common/tlv/tlv.go:Decoder.Decode"]}
{"id": "C05", "title": "TLV decode never panics on untrusted bytes", "statement": "Decode returns (a value or an error) for every input buffer; it never panics.", "quantifier": "every byte string, every target type", "why_tests_cant": "The failing inputs are a vanishing fraction of buffers (negative lengths, short integer payloads).", "anchors": ["common/tlv/tlv.go:Decoder.Decode"]}
{"id": "C06", "title": "TLV decode stays inside the record", "statement": "A successful Decode of an integer or byte string returns only bytes from inside the record it consumes and consumes exactly that record.", "quantifier": "every buffer, every target type, every amount of spare slice capacity behind the buffer", "why_tests_cant": "Depends on hidden slice capacity and on lengths an attacker chooses.", "anchors": ["common/tlv/tlv.go:Decoder.Decode"]}
{"id": "C07", "title": "Encoder length, content and wipe", "statement": "After any sequence of Encode calls Length is the sum of 5 plus the payload size of each accepted value, rejected values leave the encoder unchanged, and Zero leaves every byte shown by the last Bytes result equal to zero and the encoder empty.", "quantifier": "every sequence of Encode calls, including unsupported types", "why_tests_cant": "All sequences.", "anchors": ["common/tlv/tlv.go:Encoder.Length", "common/tlv/tlv.go:Encoder.Bytes", "common/tlv/tlv.go:Encoder.Zero", "common/tlv/tlv.go:NewFixedEncoder"]}
{"id": "C08", "title": "Random bytes are all-or-nothing", "statement": "RandBytes(n) either returns exactly the next n bytes of the PRNG or nil, and NewNonce either returns exactly the next 24 bytes of the PRNG or nil; a short or zero-padded value is never returned.", "quantifier": "every PRNG stream, every point at which the PRNG fails, every n", "why_tests_cant": "Every failure point of the reader.", "anchors": ["common/util/util.go:RandBytes", "common/util/util.go:NewNonce"]}
{"id": "C09", "title": "Zero wipes everything", "statement": "After util.Zero every byte of the slice is zero and its length is unchanged.", "quantifier": "every byte slice", "why_tests_cant": "Every length.", "anchors": ["common/util/util.go:Zero"]}
{"id": "C10", "title": "Secret-key encryption round trip", "statement": "For every key and every message (also empty), if Encrypt succeeds then Decrypt under the same key returns the message; the ciphertext is the 24 PRNG bytes followed by the box and is exactly 40 bytes longer than the message; Encrypt fails only if the PRNG cannot supply 24 bytes.", "quantifier": "every key, message and PRNG stream", "why_tests_cant": "All messages and keys.", "anchors": ["common/secret/crypto.go:Encrypt", "common/secret/crypto.go:Decrypt"]}
{"id": "C11", "title": "Secret-key decryption accepts nothing else", "statement": "Decrypt(key, c) returns m if and only if c is some 24-byte nonce followed by the sealing of m under that key and nonce; in particular inputs shorter than 40 bytes are always rejected, without a panic, and no ciphertext has two plaintexts.", "quantifier": "every byte string c, every key", "why_tests_cant": "Ranges over all byte strings.", "anchors": ["common/secret/crypto.go:Decrypt"]}
{"id": "C12", "title": "Encrypted file round trip", "statement": "If EncryptFile(f, pass, data) reports success then DecryptFile(f, pass) returns data, whatever the file system held before, and no other file changed; the caller's plaintext buffer is zeroed.", "quantifier": "every file system state, passphrase, plaintext, PRNG stream", "why_tests_cant": "All initial file states and contents.", "anchors": ["common/secret/crypto.go:EncryptFile", "common/secret/crypto.go:DecryptFile"]}
{"id": "C13", "title": "DecryptFile never panics", "statement": "DecryptFile returns the data if the file was sealed under the passphrase and an error for every other file content.", "quantifier": "every file content and passphrase", "why_tests_cant": "Needs every short file.", "anchors": ["common/secret/crypto.go:DecryptFile"]}
{"id": "C14", "title": "Saving is atomic under crashes", "statement": "If the machine stops at any point while a store is being saved over an existing one, the file afterwards is either the complete old version or the complete new version.", "quantifier": "every crash point during the write, every old and new content", "why_tests_cant": "Crash points cannot be scheduled by unit tests.", "anchors": ["common/secret/crypto.go:EncryptFile", "common/util/util.go:WriteFile", "cmd/secrets/secrets.go:writeStore"]}
{"id": "C15", "title": "Scrypt mode selection", "statement": "Key derivation succeeds exactly for the two published modes (N=2^20,r=8,p=2 and N=2^14,r=8,p=1) and never derives a key with other work factors; any other mode value yields no key, so nothing can be sealed or opened with it.", "quantifier": "every mode value, passphrase and salt", "why_tests_cant": "Every int is a possible mode.", "anchors": ["common/secret/crypto.go:DeriveKeyStrength", "common/secret/crypto.go:DeriveKey", "common/store/secretstore.go:MarshalSecretStore"]}
{"id": "C16", "title": "Key serialisation round trip", "statement": "UnmarshalPrivate inverts MarshalPrivate and UnmarshalPublic inverts MarshalPublic for every valid key; the encodings are 180 and 64 bytes; UnmarshalPublic accepts exactly the 64-byte strings and MarshalPublic inverts it.", "quantifier": "every valid key, every byte string", "why_tests_cant": "All keys.", "anchors": ["common/public/crypto.go:MarshalPrivate", "common/public/crypto.go:UnmarshalPrivate", "common/public/crypto.go:MarshalPublic", "common/public/crypto.go:UnmarshalPublic"]}
{"id": "C17", "title": "Malformed private keys are rejected", "statement": "UnmarshalPrivate fails unless the input is exactly a serialised key with components of 32, 64, 32 and 32 bytes.", "quantifier": "every byte string", "why_tests_cant": "Truncations of one key are tested; component lengths and empty records are not.", "anchors": ["common/public/crypto.go:UnmarshalPrivate"]}
{"id": "C18", "title": "Public-key encryption round trip", "statement": "For every key pair and every message, if Encrypt to the public key succeeds then Decrypt with the private key returns the message.", "quantifier": "every key pair, message and PRNG stream", "why_tests_cant": "All messages including the empty one.", "anchors": ["common/public/crypto.go:Encrypt", "common/public/crypto.go:Decrypt"]}
{"id": "C19", "title": "Signed encryption round trip", "statement": "For all sender and recipient key pairs and every message, if EncryptAndSign succeeds then DecryptAndVerify by the recipient against the sender's public key returns the message.", "quantifier": "every two key pairs, message and PRNG stream", "why_tests_cant": "All messages including the empty one.", "anchors": ["common/public/crypto.go:EncryptAndSign", "common/public/crypto.go:DecryptAndVerify"]}
{"id": "C20", "title": "Only verified messages are released", "statement": "Whenever DecryptAndVerify returns a message m for sender key P, Ed25519 verification of m under P with a 64-byte signature carried inside the ciphertext succeeded, and the ciphertext was sealed for the recipient's key.", "quantifier": "every ciphertext, every pair of keys", "why_tests_cant": "Ranges over adversarial ciphertexts.", "anchors": ["common/public/crypto.go:DecryptAndVerify", "common/public/crypto.go:Verify"]}
{"id": "C21", "title": "Signed and unsigned ciphertexts are not interchangeable", "statement": "A ciphertext made by EncryptAndSign is never accepted by Decrypt, and a ciphertext made by Encrypt is never accepted by DecryptAndVerify.", "quantifier": "every key, message and PRNG stream", "why_tests_cant": "All messages.", "anchors": ["common/public/crypto.go:Decrypt", "common/public/crypto.go:DecryptAndVerify", "common/public/crypto.go:Encrypt", "common/public/crypto.go:EncryptAndSign"]}
{"id": "C22", "title": "Hostile ciphertexts cannot crash the recipient", "statement": "Decrypt and DecryptAndVerify return for every ciphertext; anyone who only knows the public key cannot make them panic.", "quantifier": "every ciphertext a holder of the public key can construct", "why_tests_cant": "Requires attacker-built plaintext framing.", "anchors": ["common/public/crypto.go:Decrypt", "common/public/crypto.go:DecryptAndVerify", "common/tlv/tlv.go:Decoder.Decode"]}
{"id": "C23", "title": "Key generation yields a usable key", "statement": "If the PRNG supplies enough bytes, public.GenerateKey returns a valid private key whose halves belong together.", "quantifier": "every PRNG stream of at least 64 bytes", "why_tests_cant": "Must hold for all PRNG outputs.", "anchors": ["common/public/crypto.go:GenerateKey"]}
{"id": "C24", "title": "Key lock/unlock and export/import round trip", "statement": "For every valid key and passphrase, if LockKey (ExportPrivate) succeeds then UnlockKey (ImportPrivate) with the same passphrase returns the same key; UnlockKey succeeds only on a blob that is a 32-byte salt, a nonce and a sealing under the key derived from that passphrase and salt.", "quantifier": "every valid key, passphrase, PRNG stream, every blob", "why_tests_cant": "All blobs and passphrases.", "anchors": ["common/public/crypto.go:LockKey", "common/public/crypto.go:UnlockKey", "common/public/crypto.go:ExportPrivate", "common/public/crypto.go:ImportPrivate"]}
{"id": "C25", "title": "Incomplete keys are rejected", "statement": "With a nil key, or a key missing any component, every operation that reports success (Encrypt, Decrypt, Sign, Verify, EncryptAndSign, DecryptAndVerify, MarshalPrivate, MarshalPublic, LockKey, ExportPrivate) reports failure and does not panic.", "quantifier": "every combination of missing components, every other argument", "why_tests_cant": "All combinations with all inputs.", "anchors": ["common/public/crypto.go:PrivateKey.Valid", "common/public/crypto.go:PublicKey.Valid"]}
{"id": "C26", "title": "Public-key encryption fails closed on PRNG failure", "statement": "If the PRNG fails at any point, Encrypt and EncryptAndSign return failure, and never output a ciphertext with a nonce or ephemeral key that was not drawn in full from the PRNG.", "quantifier": "every PRNG failure point", "why_tests_cant": "Failure between the two draws is never tested.", "anchors": ["common/public/crypto.go:Encrypt", "common/public/crypto.go:EncryptAndSign", "common/util/util.go:NewNonce"]}
{"id": "C27", "title": "Signatures verify", "statement": "A signature made with a key pair verifies under its public key for the same message, and Verify rejects every signature whose length is not 64 bytes.", "quantifier": "every key pair, message and byte string offered as signature", "why_tests_cant": "All messages.", "anchors": ["common/public/crypto.go:Sign", "common/public/crypto.go:Verify"]}
{"id": "C28", "title": "TOTP configuration round trip", "statement": "ParseTOTPConfig inverts Bytes: every configuration written by Bytes parses back to itself.", "quantifier": "every configuration", "why_tests_cant": "All field values, including empty keys and sizes outside 32 bits.", "anchors": ["common/auth/totp.go:TOTPConfig.Bytes", "common/auth/totp.go:ParseTOTPConfig"]}
{"id": "C29", "title": "TOTP codes are well formed", "statement": "For every key, start, step>0, time and digit count 1..10 with SHA-1, the code consists of exactly that many ASCII digits, and its numeric value is the RFC 4226 dynamic truncation of the HMAC of the 8-byte big-endian time counter modulo 10^digits.", "quantifier": "every configuration, every time", "why_tests_cant": "All keys and times.", "anchors": ["common/auth/totp.go:generateOTPAt", "common/auth/totp.go:truncate"]}
{"id": "C30", "title": "TOTP acceptance is exact", "statement": "ValidateTOTP accepts an OTP if and only if the authenticator is a TOTP authenticator with a parsable configuration, the OTP differs from the last accepted one, and it equals the code for the current step or the previous step; on acceptance only the last-OTP field changes (to that OTP), otherwise nothing changes.", "quantifier": "every authenticator whose configuration has a step other than 0 and 1 to 10 digits, or names another hash, or does not parse; every OTP string and clock value (C32 is about the other configurations)", "why_tests_cant": "All clocks and OTPs, including unsigned wrap-around of the counter.", "anchors": ["common/auth/totp.go:ValidateTOTP"]}
{"id": "C31", "title": "A TOTP code is accepted at most once", "statement": "No OTP string that was accepted is accepted again while it is still a valid code.", "quantifier": "every history of validation attempts with a non-decreasing clock", "why_tests_cant": "Replay needs histories; tests only retry the immediately preceding code.", "anchors": ["common/auth/totp.go:ValidateTOTP"]}
{"id": "C32", "title": "TOTP validation never panics", "statement": "ValidateTOTP returns for every authenticator produced by ImportGoogleTOTP or NewGoogleTOTP and for every authenticator whose secret parses.", "quantifier": "every key, every stored secret, every clock value", "why_tests_cant": "Requires keys and secrets not covered by tests (empty key, zero step, out-of-range digits).", "anchors": ["common/auth/totp.go:ValidateTOTP", "common/auth/totp.go:generateOTPAt", "common/auth/totp.go:ParseTOTPConfig"]}
{"id": "C33", "title": "Google TOTP import", "statement": "ImportGoogleTOTP yields an authenticator whose secret parses to (key, start 0, step 30, 6 digits, SHA-1, provider), whose current code cannot be used to log in, and whose exported base32 secret decodes to the key again.", "quantifier": "every key, every clock value", "why_tests_cant": "All keys.", "anchors": ["common/auth/totp.go:ImportGoogleTOTP", "common/auth/totp.go:ExportUserTOTP", "common/auth/totp.go:ExportKey"]}
{"id": "C34", "title": "YubiKey configuration round trip", "statement": "ParseYubiKeyConfig inverts Bytes for every configuration with a 16-byte key, and rejects every configuration whose key is not 16 bytes.", "quantifier": "every configuration below 2 GiB", "why_tests_cant": "All field values.", "anchors": ["common/auth/yubikey.go:YubiKeyConfig.Bytes", "common/auth/yubikey.go:ParseYubiKeyConfig"]}
{"id": "C35", "title": "YubiKey acceptance is exact", "statement": "ValidateYubiKey accepts an OTP if and only if the type is yubikey, it differs from the last accepted OTP, its public identity equals the stored one, it decrypts under the stored key to a token with a valid CRC, and the token counter is not below the stored counter; on acceptance the stored counter becomes the token's and the last OTP becomes this OTP, otherwise nothing changes.", "quantifier": "every authenticator and OTP string", "why_tests_cant": "All stored secrets and OTPs.", "anchors": ["common/auth/yubikey.go:ValidateYubiKey"]}
{"id": "C36", "title": "YubiKey counter never goes back", "statement": "Over any sequence of validation attempts the stored counter never decreases, and an OTP whose token counter is lower than that of some previously accepted OTP is always rejected.", "quantifier": "every history of attempts", "why_tests_cant": "All histories.", "anchors": ["common/auth/yubikey.go:ValidateYubiKey", "common/auth/yubikey.go:getTokenCounter"]}
{"id": "C37", "title": "A YubiKey OTP is accepted at most once", "statement": "An OTP that was accepted is never accepted again.", "quantifier": "every history of attempts", "why_tests_cant": "Needs interleavings of OTPs from one power-up session of the token.", "anchors": ["common/auth/yubikey.go:ValidateYubiKey", "common/auth/yubikey.go:getTokenCounter"]}
{"id": "C38", "title": "Session completeness", "statement": "A client keyed with the private key matching the public key given to the server, and the server's ephemeral public key, is accepted in every round when it answers the server's current Last value, for any number of rounds.", "quantifier": "every key pair, every number of rounds, every PRNG stream that does not fail", "why_tests_cant": "All rounds.", "anchors": ["common/auth/session.go:NewSession", "common/auth/session.go:KeySession", "common/auth/session.go:Session.OTP", "common/auth/session.go:ValidateSession"]}
{"id": "C39", "title": "Session acceptance is exact", "statement": "ValidateSession accepts an OTP if and only if the type is session, it is hex for 64 bytes of which the first 32 are the decoded Last value and the rest the HMAC of that value under the session key, and the PRNG supplies a new value; on acceptance only Last changes (to the hex of the new 32 PRNG bytes), otherwise nothing changes.", "quantifier": "every authenticator, OTP string and PRNG stream", "why_tests_cant": "All strings.", "anchors": ["common/auth/session.go:ValidateSession"]}
{"id": "C40", "title": "Session tokens are single use", "statement": "As long as the PRNG never repeats a challenge, no OTP (in any hex case) is accepted twice in the lifetime of a session.", "quantifier": "every history of attempts", "why_tests_cant": "All histories.", "anchors": ["common/auth/session.go:ValidateSession"]}
{"id": "C41", "title": "Session setup works", "statement": "NewSession returns an authenticator and ephemeral key for every valid peer key when the PRNG does not fail.", "quantifier": "every peer key and PRNG stream", "why_tests_cant": "All PRNG streams.", "anchors": ["common/auth/session.go:NewSession", "common/public/crypto.go:GenerateKey"]}
{"id": "C42", "title": "Password authentication", "statement": "An authenticator made by NewPasswordAuth accepts the password it was made from; ValidatePassword reports no error exactly when the bcrypt hash matches; it never asks for an update and never changes the authenticator.", "quantifier": "every password up to 72 bytes, every cost argument, every authenticator", "why_tests_cant": "All passwords and costs.", "anchors": ["common/auth/password.go:NewPasswordAuth", "common/auth/password.go:ValidatePassword"]}
{"id": "C43", "title": "bcrypt cost range", "statement": "NewPasswordAuth uses the requested cost when it is between 8 and 31 and the default 14 otherwise, as documented.", "quantifier": "every int", "why_tests_cant": "Every int.", "anchors": ["common/auth/password.go:NewPasswordAuth"]}
{"id": "C44", "title": "Validate dispatch and update signal", "statement": "Validate rejects nil and unknown types, sends every other authenticator to the validator of its own type, signals an update only together with a nil error, and the authenticator is changed only when an update is signalled.", "quantifier": "every authenticator, password string, clock, PRNG stream", "why_tests_cant": "All types and inputs.", "anchors": ["common/auth/authenticator.go:Validate"]}
{"id": "C45", "title": "Secret store round trip", "statement": "If MarshalSecretStore succeeds, UnmarshalSecretStore of the result with the same passphrase and mode yields a store with the same version, timestamp and records (label, timestamp, secret, metadata) and that passphrase.", "quantifier": "every valid store, mode and PRNG stream", "why_tests_cant": "All stores.", "anchors": ["common/store/secretstore.go:MarshalSecretStore", "common/store/secretstore.go:UnmarshalSecretStore"]}
{"id": "C46", "title": "Marshalling wipes the store", "statement": "After a successful MarshalSecretStore every byte of every secret, metadata value and of the passphrase held by the store is zero; after a failed one the store is unchanged.", "quantifier": "every store, mode and PRNG stream", "why_tests_cant": "All stores.", "anchors": ["common/store/secretstore.go:MarshalSecretStore", "common/store/secretstore.go:SecretStore.Zero"]}
{"id": "C47", "title": "Marshalling twice keeps the data", "statement": "A store can be saved again after it has been saved: the second file also opens with the user's passphrase and contains the secrets.", "quantifier": "every store and passphrase", "why_tests_cant": "Needs a second save in the same process.", "anchors": ["common/store/secretstore.go:MarshalSecretStore", "cmd/secretscli/secretscli.go:writeStore"]}
{"id": "C48", "title": "AddRecord never overwrites", "statement": "AddRecord succeeds exactly on a valid store lacking the label, then stores exactly the given secret and metadata under it; every other label is untouched, and a failing call changes nothing.", "quantifier": "every store, label, secret and metadata", "why_tests_cant": "All stores.", "anchors": ["common/store/secretstore.go:SecretStore.AddRecord"]}
{"id": "C49", "title": "UpdateSecret touches one secret", "statement": "UpdateSecret succeeds exactly when the label exists, and then changes only that record's secret and timestamp; other records, and the record's label and metadata, are unchanged.", "quantifier": "every store, label and secret", "why_tests_cant": "All stores.", "anchors": ["common/store/secretstore.go:SecretStore.UpdateSecret"]}
{"id": "C50", "title": "The store behaves like a map", "statement": "Any sequence of Add, Update and delete operations on a fresh store gives for every label the same answer as a plain finite map from labels to secrets in which adding to an existing label and updating a missing one are refused.", "quantifier": "every operation sequence", "why_tests_cant": "All histories.", "anchors": ["common/store/secretstore.go:SecretStore.AddRecord", "common/store/secretstore.go:SecretStore.UpdateSecret", "common/store/secretstore.go:SecretStore.Has"]}
{"id": "C51", "title": "Merge keeps the newest record", "statement": "After Merge the store has exactly the labels of both stores; for each label it holds the record with the larger timestamp (its own on ties); the result does not depend on map iteration order; the returned list names exactly the labels whose record was taken from the other store.", "quantifier": "every pair of stores, every map iteration order", "why_tests_cant": "Iteration order is random and stores are unbounded.", "anchors": ["common/store/secretstore.go:SecretStore.Merge", "common/store/secretstore.go:SecretRecord.Merge"]}
{"id": "C52", "title": "Merge laws", "statement": "Merging is idempotent, associative, and commutative whenever no two different records of one label carry equal timestamps; so replicas that merge in any order converge.", "quantifier": "every set of stores without null records (C51 is about those), every merge order", "why_tests_cant": "All merge histories.", "anchors": ["common/store/secretstore.go:SecretStore.Merge"]}
{"id": "C53", "title": "Stores do not share memory", "statement": "After a.Merge(b), or after AddRecord, wiping or mutating the other store, or the slices and maps passed in, does not change the secrets in a.", "quantifier": "every store, every aliasing of arguments", "why_tests_cant": "Aliasing bugs appear only under later mutation.", "anchors": ["common/store/secretstore.go:SecretStore.Merge", "common/store/secretstore.go:SecretStore.AddRecord", "common/store/secretstore.go:SecretStore.Zero"]}
{"id": "C54", "title": "Changing the password takes effect", "statement": "After ChangePassword(p), a marshalled store opens with p, and opens with the old passphrase only if both derive the same key for the fresh salt or the sealed box happens to be valid under the other key.", "quantifier": "every store, old and new passphrase", "why_tests_cant": "All passphrases.", "anchors": ["common/store/secretstore.go:SecretStore.ChangePassword", "common/store/secretstore.go:MarshalSecretStore"]}
{"id": "C55", "title": "Opened secret stores are valid", "statement": "Every store returned by UnmarshalSecretStore is Valid.", "quantifier": "every authenticated blob", "why_tests_cant": "Depends on sealed content.", "anchors": ["common/store/secretstore.go:UnmarshalSecretStore", "common/store/secretstore.go:SecretStore.Valid"]}
{"id": "C56", "title": "Key store trust invariant", "statement": "In any history of AddKey, ImportVerified, Lock, LockWith and Unlock on a key store created from a valid key pair, every stored key has a chain of Ed25519-verified signatures through stored keys that ends at the owner's key, and no key is ever stored under the label self.", "quantifier": "every history, every imported blob, every map iteration order", "why_tests_cant": "All histories and adversarial imports.", "anchors": ["common/store/keystore.go:AddKey", "common/store/keystore.go:ImportVerified", "common/store/keystore.go:VerifyChain"]}
{"id": "C57", "title": "Chain verification is sound", "statement": "If VerifyChain(label) returns true then there is a finite chain of stored records from that label, each verified under the key of the next, whose last is signed by the owner's key; if KeyAudit returns true this holds for every stored label.", "quantifier": "every key store (also loaded from a hostile file), every iteration order", "why_tests_cant": "All stores.", "anchors": ["common/store/keystore.go:VerifyChain", "common/store/keystore.go:KeyAudit", "common/store/keystore.go:VerifyKeySignature"]}
{"id": "C58", "title": "Chain verification terminates", "statement": "VerifyChain and KeyAudit return for every key store.", "quantifier": "every key store that can be loaded or built, every iteration order", "why_tests_cant": "Non-termination cannot be observed by a test.", "anchors": ["common/store/keystore.go:VerifyChain", "common/store/keystore.go:KeyAudit"]}
{"id": "C59", "title": "Imports are signature checked", "statement": "ImportVerified(label, blob) succeeds only if the label is new, the blob parses to a key whose signer is the owner or a stored key, and the signature over key, signer and timestamp verifies under the signer's stored key; then exactly that record is added; a failing import changes nothing. ImportVerifiedKey accepts only PEM blocks labelled CRYPTUTIL VERIFIED KEY, around such a blob.", "quantifier": "every blob, label and store", "why_tests_cant": "Adversarial blobs.", "anchors": ["common/store/keystore.go:ImportVerified", "common/store/keystore.go:ImportVerifiedKey"]}
{"id": "C60", "title": "Imported keys are usable keys", "statement": "Every key that enters the store through AddKey or ImportVerified is a well-formed 64-byte public key that EncryptTo and Verify can use.", "quantifier": "every import", "why_tests_cant": "Adversarial blobs.", "anchors": ["common/store/keystore.go:ImportVerified", "common/store/keystore.go:AddKey", "common/store/keystore.go:EncryptTo"]}
{"id": "C61", "title": "Signed key statements are unambiguous", "statement": "The bytes signed for a verified key determine the key, the signer and the timestamp, so a signature cannot be reinterpreted for a different key.", "quantifier": "every two verified keys", "why_tests_cant": "All byte strings.", "anchors": ["common/store/keystore.go:VerifiedKey.SignatureData", "common/store/keystore.go:IsSelfSigned"]}
{"id": "C62", "title": "Locking disables the private key", "statement": "While a key store is locked AddKey, Decrypt, Sign, EncryptAndSignTo, DecryptAndVerify and ExportVerified fail without changing anything, and EncryptTo, Verify, Has and ImportVerified keep working as before; LockWith wipes the in-memory key.", "quantifier": "every locked store, every argument", "why_tests_cant": "All arguments.", "anchors": ["common/store/keystore.go:Lock", "common/store/keystore.go:LockWith", "common/store/keystore.go:Locked"]}
{"id": "C63", "title": "Lock and unlock round trip", "statement": "LockWith(p) then Unlock(p) succeeds and restores the same private key, public key and records; Unlock with a passphrase that does not open the blob changes nothing.", "quantifier": "every unlocked valid store, passphrase and PRNG stream of at least 56 bytes", "why_tests_cant": "All stores.", "anchors": ["common/store/keystore.go:LockWith", "common/store/keystore.go:Unlock"]}
{"id": "C64", "title": "Locking never loses the key", "statement": "After Lock (or DumpKeyStore) reports success some passphrase unlocks the store again.", "quantifier": "every valid unlocked store", "why_tests_cant": "Depends on whether a locked copy was ever made.", "anchors": ["common/store/keystore.go:Lock", "common/store/keystore.go:DumpKeyStore"]}
{"id": "C65", "title": "Key store messages round trip", "statement": "EncryptTo(label) is decrypted by the key store owning that key, and EncryptAndSignTo/DecryptAndVerify round trip between two key stores that hold each other's keys, for every non-empty message.", "quantifier": "every two key stores, labels, messages", "why_tests_cant": "All messages.", "anchors": ["common/store/keystore.go:EncryptTo", "common/store/keystore.go:Decrypt", "common/store/keystore.go:EncryptAndSignTo", "common/store/keystore.go:DecryptAndVerify"]}
{"id": "C66", "title": "Operations on a loaded key store do not panic", "statement": "Every API call on a key store returned by LoadKeyStore returns.", "quantifier": "every file content", "why_tests_cant": "Hostile or old files.", "anchors": ["common/store/keystore.go:LoadKeyStore", "common/store/keystore.go:getPublic", "common/store/keystore.go:VerifyKeySignature"]}
{"id": "C67", "title": "Exported keys can be imported by those who trust the exporter", "statement": "A key exported by ExportVerified is accepted by ImportVerifiedKey in every key store that holds the exporter's key, under any unused label, and is stored with the same key bytes.", "quantifier": "every two key stores and labels", "why_tests_cant": "All stores.", "anchors": ["common/store/keystore.go:ExportVerified", "common/store/keystore.go:ImportVerifiedKey", "common/store/keystore.go:VerifiedKey.Serialise"]}
{"id": "C68", "title": "secrets never overwrites silently", "statement": "Without -w, `secrets -s label` and `secrets -multi` never change an existing entry; with any command other than store, multi, merge, remove no secret changes.", "quantifier": "every store, every input script", "why_tests_cant": "All stores and scripts.", "anchors": ["cmd/secrets/secrets.go:addSecret", "cmd/secrets/secrets.go:multi"]}
{"id": "C69", "title": "secretscli keeps what was stored", "statement": "In any secretscli session that ends with quit, end of input or timeout, the file written last opens with the session's passphrase and contains every secret stored in the session.", "quantifier": "every command sequence", "why_tests_cant": "All sessions; the damage needs an intermediate write.", "anchors": ["cmd/secretscli/commands.go:cmdWriteStore", "cmd/secretscli/secretscli.go:writeStore"]}
{"id": "C70", "title": "secretscli passwd is persistent", "statement": "A password changed with passwd is the one that opens the store after the session.", "quantifier": "every command sequence containing passwd", "why_tests_cant": "All sessions.", "anchors": ["cmd/secretscli/commands.go:passwd", "cmd/secretscli/secretscli.go:shutdown"]}
{"id": "C71", "title": "secretscli command loop", "statement": "The reader and the command loop never deadlock, every command line sent is processed at most once and in order, and the store is written on every exit path.", "quantifier": "every interleaving of reader, command loop, timer and input", "why_tests_cant": "All interleavings.", "anchors": ["cmd/secretscli/secretscli.go:readCommands", "cmd/secretscli/secretscli.go:inputLoop"]}
{"id": "C72", "title": "journal never overwrites an existing entry with a new one", "statement": "Writing a new journal entry never replaces another entry.", "quantifier": "every journal, every answer sequence", "why_tests_cant": "All prompts.", "anchors": ["cmd/journal/journal.go:writeNew"]}
{"id": "C73", "title": "journal lists every entry", "statement": "Listing shows every title exactly once, newest first.", "quantifier": "every journal", "why_tests_cant": "Needs equal timestamps.", "anchors": ["cmd/journal/journal.go:listEntries"]}
{"id": "C74", "title": "otpc can show what it stored", "statement": "Every token stored with otpc can be displayed with otpc.", "quantifier": "every OTP type and label", "why_tests_cant": "All stored types.", "anchors": ["cmd/otpc/otpc.go:addSecret", "cmd/otpc/otpc.go:showSecret", "cmd/otpc/otpc.go:parseOTPKind"]}
{"id": "C75", "title": "otpc secret normalisation", "statement": "sanitiseSecret removes spaces, upper-cases, pads to a multiple of eight, is idempotent, and turns the unpadded, lower-case, space-separated base32 form of a key into the exact base32 text of that key.", "quantifier": "every byte string, every key", "why_tests_cant": "All inputs.", "anchors": ["cmd/otpc/otpc.go:sanitiseSecret"]}
{"id": "C76", "title": "passcrypt directory permissions", "statement": "Directories created for an unpacked file get the file's permissions plus search permission for each class that has any permission, less what the umask takes away.", "quantifier": "every file mode and umask", "why_tests_cant": "All modes.", "anchors": ["cmd/passcrypt/passcrypt.go:dirPerm"]}
{"id": "C77", "title": "passcrypt unpacks only below the output directory", "statement": "Unpacking an archive writes only below the output directory.", "quantifier": "every archive and output directory", "why_tests_cant": "Adversarial paths.", "anchors": ["cmd/passcrypt/passcrypt.go:unpackFiles", "cmd/passcrypt/passcrypt.go:unpackFile"]}
{"id": "C78", "title": "passcrypt restores file contents", "statement": "After unpacking, each regular file in the archive has exactly the packed content, whatever was at that path before.", "quantifier": "every archive and prior file system state", "why_tests_cant": "All prior states.", "anchors": ["cmd/passcrypt/passcrypt.go:unpackFile"]}
{"id": "C79", "title": "Migration preserves the store", "statement": "migrate-store leaves a file that opens with the new parameters, the same password, to the same plaintext; if the password is wrong or the PRNG fails the file is unchanged.", "quantifier": "every file of at least 32 bytes, password and PRNG stream, on a disk that does not fail in the middle of a write (C101 is about the rest)", "why_tests_cant": "All files.", "anchors": ["cmd/migrate-store/migrate-store.go:migrateStore", "cmd/migrate-store/legacy/crypto.go:DecryptFile"]}
{"id": "C80", "title": "secrets import/export round trip", "statement": "Exporting a store to PEM and importing it elsewhere reproduces the store file byte for byte, and importing anything that is not a SECRET STORE block changes nothing.", "quantifier": "every non-empty store file", "why_tests_cant": "All files.", "anchors": ["cmd/secrets/secrets.go:exportStore", "cmd/secrets/secrets.go:importStore"]}
{"id": "C81", "title": "keysrv only publishes chained keys", "statement": "Whatever requests the key server receives, every key it stores has a verified chain to the server key, uploads never replace a key, and self cannot be uploaded.", "quantifier": "every request sequence and interleaving", "why_tests_cant": "All request histories.", "anchors": ["exp/keysrv/keysrv.go:process", "exp/keysrv/keysrv.go:checkUpload"]}
{"id": "C82", "title": "keysrv persists uploads", "statement": "An uploaded key is written to disk within ten minutes.", "quantifier": "every arrival pattern of requests", "why_tests_cant": "Real time and all arrival patterns.", "anchors": ["exp/keysrv/keysrv.go:keystoreDispatch"]}
{"id": "C83", "title": "fcrypt chooses verification by armour type", "statement": "fcrypt -d writes a plaintext from an armoured signed message only if the signature verifies under the key named by the label, and relabelling the armour of a signed message as merely encrypted makes decryption fail.", "quantifier": "every message file, label and key store", "why_tests_cant": "Adversarial armour.", "anchors": ["exp/fcrypt/fcrypt.go:decryptFile"]}
{"id": "C84", "title": "A sized encoder leaves no copy behind", "statement": "An encoder made with NewFixedEncoder(d, n) that is given at most n values with at most d payload bytes in total leaves no copy of the data anywhere in memory after Zero.", "quantifier": "every d, n, every value sequence within them, every slice growth policy of the runtime", "why_tests_cant": "Old backing arrays are invisible to tests.", "anchors": ["common/tlv/tlv.go:NewFixedEncoder", "common/tlv/tlv.go:Encoder.Encode", "common/tlv/tlv.go:Encoder.Zero", "common/public/crypto.go:MarshalPrivate"]}
{"id": "C85", "title": "Zero wipes every copy the encoder made", "statement": "After Encoder.Zero no array ever allocated by the encoder still holds encoded data.", "quantifier": "every value sequence, every slice growth policy of the runtime", "why_tests_cant": "Old backing arrays are invisible to tests.", "anchors": ["common/tlv/tlv.go:Encoder.Zero", "common/tlv/tlv.go:Encoder.Encode"]}
{"id": "C86", "title": "Key exchange agreement", "statement": "KeyExchange gives two genuine key pairs the same 32-byte secret, whichever side computes it.", "quantifier": "all pairs of key pairs", "why_tests_cant": "All keys.", "anchors": ["common/public/crypto.go:KeyExchange"]}
{"id": "C87", "title": "Zeroing a private key", "statement": "PrivateKey.Zero can be called on any key at any time; afterwards both private components are gone, the public half is intact, and every private operation refuses the key.", "quantifier": "every key in every state of completeness", "why_tests_cant": "Tests zero one complete key once.", "anchors": ["common/public/crypto.go:PrivateKey.Zero"]}
{"id": "C88", "title": "YubiKey tokens are accepted in order", "statement": "After a token has been accepted, a token with the same insertion counter and a smaller use counter (one that was generated earlier) is rejected.", "quantifier": "every authenticator and pair of OTPs", "why_tests_cant": "A test would need captured OTPs of one device.", "anchors": ["common/auth/yubikey.go:getTokenCounter", "common/auth/yubikey.go:ValidateYubiKey"]}
{"id": "C89", "title": "Session.OTP leaves the caller's memory alone", "statement": "Session.OTP(next) returns the answer for next and changes no byte of memory that existed before the call.", "quantifier": "every session, every slice next with any spare capacity, every slice growth policy of the runtime", "why_tests_cant": "Tests pass slices without spare capacity.", "anchors": ["common/auth/session.go:Session.OTP"]}
{"id": "C90", "title": "A failing LockWith changes nothing", "statement": "A LockWith that fails leaves the key store as it was.", "quantifier": "every key store, passphrase and PRNG stream", "why_tests_cant": "The failure needs a PRNG error at the right moment.", "anchors": ["common/store/keystore.go:LockWith"]}
{"id": "C91", "title": "Signatures on messages do not vouch for keys", "statement": "A signature that Sign returns for a message is never accepted by ImportVerified as a statement about a key.", "quantifier": "every key store and message", "why_tests_cant": "Needs adversarially chosen messages.", "anchors": ["common/store/keystore.go:Sign", "common/store/keystore.go:ImportVerified", "common/store/keystore.go:VerifiedKey.SignatureData"]}
{"id": "C92", "title": "FindPublic finds exactly the holder of a key", "statement": "FindPublic(pub) returns self for the owner's key, the label under which the key is stored if there is one, and false otherwise.", "quantifier": "every key store, key and map order", "why_tests_cant": "All stores and iteration orders.", "anchors": ["common/store/keystore.go:FindPublic"]}
{"id": "C93", "title": "Key store file round trip", "statement": "A key store locked with a passphrase, written with DumpKeyStore and read with LoadKeyStore is the same key store, and unlocks with the passphrase to the state before locking.", "quantifier": "every key store, passphrase and PRNG stream", "why_tests_cant": "All stores.", "anchors": ["common/store/keystore.go:DumpKeyStore", "common/store/keystore.go:LoadKeyStore", "common/store/keystore.go:LockWith", "common/store/keystore.go:Unlock"]}
{"id": "C94", "title": "Stored keys are never replaced", "statement": "No sequence of AddKey, ImportVerified, Lock, LockWith and Unlock, successful or not, removes or changes a stored record, and only a successful AddKey or ImportVerified of a label adds one, under that label.", "quantifier": "every history on every key store", "why_tests_cant": "All histories.", "anchors": ["common/store/keystore.go:AddKey", "common/store/keystore.go:ImportVerified", "common/store/keystore.go:Unlock"]}
{"id": "C95", "title": "secrets saves exactly what was asked for", "statement": "After a successful secrets run the file opens with the same password and differs from before exactly by the requested change: -s adds or replaces one entry with the typed password, -r removes one entry, -merge keeps the newer of each pair of entries.", "quantifier": "every store, set of flags, argument (in UTF-8 with -s, see C68), terminal input, clock and PRNG stream", "why_tests_cant": "Needs every store and every terminal input.", "anchors": ["cmd/secrets/secrets.go:addSecret", "cmd/secrets/secrets.go:remove", "cmd/secrets/secrets.go:merge", "cmd/secrets/secrets.go:main"]}
{"id": "C96", "title": "secrets -init does not destroy a store", "statement": "secrets -init creates an empty store that opens with the password given, and never replaces an existing store.", "quantifier": "every file system and terminal input", "why_tests_cant": "Terminal programs are not tested.", "anchors": ["cmd/secrets/secrets.go:initStore"]}
{"id": "C97", "title": "secrets always terminates", "statement": "Every run of secrets ends, whatever is typed and whenever the input ends.", "quantifier": "every set of flags, store and terminal input, including end of input at any point", "why_tests_cant": "A test cannot observe that a program never ends.", "anchors": ["cmd/secrets/secrets.go:removeMeta", "cmd/secrets/secrets.go:multi", "cmd/secrets/secrets.go:addMeta", "cmd/secrets/secrets.go:main"]}
{"id": "C98", "title": "What secrets -multi accepted is saved", "statement": "Every secret that secrets -multi accepts is in the file when the program has ended without an I/O error on the file.", "quantifier": "every store and terminal input", "why_tests_cant": "Terminal programs are not tested.", "anchors": ["cmd/secrets/secrets.go:multi", "cmd/secrets/secrets.go:main"]}
{"id": "C99", "title": "secrets does not panic", "statement": "No run of secrets panics, whatever the files hold that opens with the password.", "quantifier": "every set of flags, file contents and terminal input", "why_tests_cant": "All files.", "anchors": ["cmd/secrets/secrets.go:showSecret", "cmd/secrets/secrets.go:addSecret", "cmd/secrets/secrets.go:merge", "cmd/secrets/secrets.go:main"]}
{"id": "C100", "title": "ReadLine returns the lines of standard input", "statement": "Successive calls of ReadLine return the successive lines of standard input, trimmed, and fail after the last.", "quantifier": "every input and every way the operating system cuts it into reads", "why_tests_cant": "The test reads from a file and expects the second call to fail although the file has more lines.", "anchors": ["common/util/util.go:ReadLine"]}
{"id": "C101", "title": "A failed migration is reported and leaves the file as it was", "statement": "If migrate-store cannot migrate a file it says so, exits with status 1 and the file is unchanged.", "quantifier": "every file, password, state of the PRNG and way in which writing the file can fail", "why_tests_cant": "The program has no tests, and disks that fill up cannot be arranged in a unit test.", "anchors": ["cmd/migrate-store/migrate-store.go:migrateStore", "cmd/migrate-store/migrate-store.go:main"]}
{"id": "C102", "title": "passcrypt round trip", "statement": "What passcrypt packed, passcrypt -u with the same password restores into a new or empty directory: every regular file has its content and its mode, less what the umask takes away, and every directory exists.", "quantifier": "every tree of files and list of arguments without .., none of them inside another, every password, output directory, umask and PRNG stream, if the archive is armoured or does not parse as PEM", "why_tests_cant": "The program has no tests, and every tree is meant.", "anchors": ["cmd/passcrypt/passcrypt.go:packFiles", "cmd/passcrypt/passcrypt.go:unpackFiles", "cmd/passcrypt/passcrypt.go:packFile", "cmd/passcrypt/passcrypt.go:unpackFile", "cmd/passcrypt/passcrypt.go:main"]}
{"id": "C103", "title": "passcrypt unpacks nothing that does not open", "statement": "passcrypt -u and -l exit with status 1 and change nothing unless the file named opens with the password typed; otherwise what was sealed is unpacked.", "quantifier": "every file and password", "why_tests_cant": "All files.", "anchors": ["cmd/passcrypt/passcrypt.go:main"]}
{"id": "C104", "title": "passcrypt packs everything or fails", "statement": "If passcrypt exits with status 0, the archive holds every file and directory below its arguments.", "quantifier": "every tree, including unreadable directories", "why_tests_cant": "Needs every way in which a walk can fail.", "anchors": ["cmd/passcrypt/passcrypt.go:packFiles"]}
{"id": "C105", "title": "The key store accepts exactly the named key's signatures", "statement": "Verify(label, msg, sig) is true if and only if sig is a 64-byte Ed25519 signature of msg under the key stored for label (the owner's key for self), and DecryptAndVerify releases only messages sealed together with such a signature; what Sign produces, Verify accepts.", "quantifier": "every store built by calls of the package, every label, message and byte string", "why_tests_cant": "All byte strings as signatures and all stores; tests try one good signature.", "anchors": ["common/store/keystore.go:Verify", "common/store/keystore.go:DecryptAndVerify", "common/store/keystore.go:Sign", "common/store/keystore.go:getPublic"]}
{"id": "C106", "title": "secrets -m saves and removes exactly the metadata typed", "statement": "After secrets -s -m label the entry has, for each key typed, the last value typed for it, and otherwise the metadata it had; after secrets -r -m label exactly the keys typed are gone. The password of the entry and all other entries stay.", "quantifier": "every store, label and sequence of lines, with keys in UTF-8", "why_tests_cant": "The program has no tests.", "anchors": ["cmd/secrets/secrets.go:addMeta", "cmd/secrets/secrets.go:removeMeta"]}
{"id": "C107", "title": "otpc -s never replaces a token", "statement": "otpc -s exits with status 0 only if no token was stored under the label before, and then every token of the store is as before.", "quantifier": "every store, label, token type and sequence of answers", "why_tests_cant": "The program has no tests; labels are arbitrary byte strings.", "anchors": ["cmd/otpc/otpc.go:addSecret", "cmd/otpc/otpc.go:main"]}
{"id": "C108", "title": "otpc displays each HOTP code at most once", "statement": "The codes displayed for an HOTP token, when it is stored and at each later run, are those of successive counter values, beginning with the one typed.", "quantifier": "every key, counter, number of digits and sequence of runs, with or without failing writes", "why_tests_cant": "Needs every sequence of runs and failures of the operating system.", "anchors": ["cmd/otpc/otpc.go:showSecret", "cmd/otpc/otpc.go:printHOTP", "cmd/otpc/otpc.go:addSecret", "cmd/otpc/otpc.go:main"]}
{"id": "C109", "title": "otpc -init creates an empty store and destroys none", "statement": "otpc -init creates a store that holds no tokens and opens with the passphrase typed; it does not accept the empty passphrase, overwrite an existing store or change another file.", "quantifier": "every path, passphrase and state of the disk", "why_tests_cant": "The program has no tests.", "anchors": ["cmd/otpc/otpc.go:initStore", "cmd/otpc/otpc.go:main"]}
{"id": "C110", "title": "otpc changes files only when it should", "statement": "A run that does not end with status 0 changes no file, whatever it was asked to do; otpc -qr label file changes only that file, which then holds the QR code of the token stored.", "quantifier": "every run in which the operating system does not stop in the middle of writing a file", "why_tests_cant": "All flags, stores and answers.", "anchors": ["cmd/otpc/otpc.go:main", "cmd/otpc/otpc.go:showQR", "cmd/otpc/otpc.go:showSecret"]}
{"id": "C111", "title": "The Google authenticator code on the screen is current", "statement": "While otpc displays a token of type Google, the last code printed is the one valid at the moment, except during the first second of a period.", "quantifier": "every starting time and every delay of the timers", "why_tests_cant": "Depends on timing; would have to be observed for all schedules.", "anchors": ["cmd/otpc/otpc.go:printGTOTP"]}
{"id": "C112", "title": "The TOTP code on the screen is at most a second old", "statement": "While otpc displays a token of type TOTP, the last code printed is the one of a moment at most a second, and the delay of one timer, ago.", "quantifier": "every starting time, token and delay of the timers", "why_tests_cant": "Depends on timing.", "anchors": ["cmd/otpc/otpc.go:printTOTP"]}
{"id": "C113", "title": "A journal entry is found under the title it was written with", "statement": "After journal -w title, with a title not used before, journal title prints exactly the text the editor left; the editor was given the title and the date. If the title was used before and the user accepts to edit the entry, that entry is edited.", "quantifier": "every journal, title and editor", "why_tests_cant": "The program has no tests; titles are arbitrary byte strings.", "anchors": ["cmd/journal/journal.go:writeNew", "cmd/journal/journal.go:newEntry", "cmd/journal/journal.go:showEntry"]}
{"id": "C114", "title": "journal -e changes the text of one entry", "statement": "journal -e title replaces the text of the entry by what the editor made of it; its title, date and metadata, and all other entries, stay as they were.", "quantifier": "every journal, title and editor", "why_tests_cant": "The program has no tests.", "anchors": ["cmd/journal/journal.go:editEntry", "cmd/journal/journal.go:main"]}
{"id": "C115", "title": "Looking at a journal entry in the editor does not change it", "statement": "If the editor leaves its file as it found it, journal -e leaves every entry as it was.", "quantifier": "every journal and title, and every behaviour of the operating system when the temporary file is written", "why_tests_cant": "Needs failing writes.", "anchors": ["cmd/journal/journal.go:editEntry"]}
{"id": "C116", "title": "journal leaves no plain text behind", "statement": "However a run of journal ends, every file but the journal is as it was before, if the temporary file can be removed; if not, the temporary file is the only one to differ.", "quantifier": "every run: flags, arguments, answers, editor, failures", "why_tests_cant": "All exits of all commands.", "anchors": ["cmd/journal/journal.go:newEntry", "cmd/journal/journal.go:editEntry", "cmd/journal/journal.go:main"]}
{"id": "C117", "title": "journal -init creates an empty journal and destroys none", "statement": "journal -init creates a journal without entries that opens with the passphrase typed; it does not accept the empty passphrase or overwrite an existing journal.", "quantifier": "every path, passphrase and state of the disk", "why_tests_cant": "The program has no tests.", "anchors": ["cmd/journal/journal.go:initStore", "cmd/journal/journal.go:main"]}
{"id": "C118", "title": "journal changes the journal only when it should", "statement": "A run that ends with a status other than 0 leaves the journal as it was, and so does every run that only lists or shows entries.", "quantifier": "every run in which the operating system does not stop in the middle of writing the journal", "why_tests_cant": "All flags, journals and answers.", "anchors": ["cmd/journal/journal.go:main"]}
{"id": "C119", "title": "A write that failed can be repeated", "statement": "If the write command of secretscli cannot open the file, the session is as it was: the store can be written again, with the same contents and the same passphrase.", "quantifier": "every session and store", "why_tests_cant": "Needs a failing write and then one that succeeds.", "anchors": ["cmd/secretscli/secretscli.go:writeStore", "cmd/secretscli/commands.go:cmdWriteStore"]}
{"id": "C120", "title": "secretscli loses no entry and its entries carry their labels", "statement": "Whatever is typed, no entry disappears in a session of secretscli, and every record carries the label it is stored under.", "quantifier": "every session, interleaving and failure", "why_tests_cant": "All sessions.", "anchors": ["cmd/secretscli/commands.go:storeSingleSecret", "cmd/secretscli/commands.go:writeMeta", "cmd/secretscli/secretscli.go:inputLoop"]}
{"id": "C121", "title": "secretscli lists the labels that match", "statement": "list prints the number of labels, and the labels, that contain one of its arguments, or all of them if there is none, in ascending order, and they can be told apart.", "quantifier": "every store, terminal width and iteration order of the map", "why_tests_cant": "All labels, widths and orders; the output is laid out in columns.", "anchors": ["cmd/secretscli/commands.go:listSecrets", "cmd/secretscli/commands.go:dumpKeys", "cmd/secretscli/commands.go:dumpFmtKeys"]}
{"id": "C122", "title": "Looking at a store in secretscli changes nothing", "statement": "show prints the secrets of the labels given and showhex prints them in hexadecimal, with a message for those not found; rmeta prints every key and value of the metadata. No command but store, wmeta, passwd, write and quit does anything but print.", "quantifier": "every store and command line", "why_tests_cant": "The program has no tests.", "anchors": ["cmd/secretscli/commands.go:showSecret", "cmd/secretscli/commands.go:showSecretHex", "cmd/secretscli/commands.go:readMeta", "cmd/secretscli/secretscli.go:processCommands"]}
{"id": "C123", "title": "secretscli reads and writes the same file", "statement": "A session of secretscli changes no file but the one it was opened from, and saves to that one.", "quantifier": "every path, session, interleaving and failure", "why_tests_cant": "All paths and sessions.", "anchors": ["cmd/secretscli/secretscli.go:writeStore", "cmd/secretscli/secretscli.go:main"]}
{"id": "C124", "title": "The first run of fcrypt makes a key store", "statement": "When the key store file does not exist, fcrypt generates a key pair, asks for a passphrase and leaves a key store that the passphrase opens.", "quantifier": "every command, source of randomness and file system without a key store", "why_tests_cant": "A test would have to answer the prompt; the program has no tests.", "anchors": ["exp/fcrypt/fcrypt.go:loadStore", "exp/fcrypt/fcrypt.go:main"]}
{"id": "C125", "title": "fcrypt decrypts what it encrypted", "statement": "A file encrypted with fcrypt -e for a key is restored byte for byte by fcrypt -d with the key store of its owner, armoured or not.", "quantifier": "every file, key store, label, flag and source of randomness", "why_tests_cant": "All files and all randomness; what is armour is guessed from the first bytes.", "anchors": ["exp/fcrypt/fcrypt.go:encryptFile", "exp/fcrypt/fcrypt.go:decryptFile"]}
{"id": "C126", "title": "fcrypt decrypts what it signed and encrypted", "statement": "A file signed and encrypted with fcrypt -s -e is restored byte for byte by fcrypt -d with the label of the signer, to a file or to standard output.", "quantifier": "every file, pair of key stores and source of randomness", "why_tests_cant": "All files, and two key stores that know each other.", "anchors": ["exp/fcrypt/fcrypt.go:cryptSignFile", "exp/fcrypt/fcrypt.go:decryptFile"]}
{"id": "C127", "title": "What fcrypt says about a signature", "statement": "fcrypt -v says that a signature is valid just if it is one of the file by the key that the label stands for, exits with status 0 in that case only, and accepts what fcrypt -s makes.", "quantifier": "every file, signature file, key store and label", "why_tests_cant": "All signatures, in particular those that nobody made.", "anchors": ["exp/fcrypt/fcrypt.go:verifyFile", "exp/fcrypt/fcrypt.go:signFile"]}
{"id": "C128", "title": "fcrypt reports failed writes", "statement": "If fcrypt exits with status 0 then everything it had to write was written.", "quantifier": "every command and every pattern of failing writes", "why_tests_cant": "Needs writes that fail.", "anchors": ["exp/fcrypt/fcrypt.go:cryptSignFile", "exp/fcrypt/fcrypt.go:writeStore", "exp/fcrypt/fcrypt.go:main"]}
{"id": "C129", "title": "The files that fcrypt changes", "statement": "A run of fcrypt changes no file but the output file it is given and, when checking, removing or importing, the key store; no file is ever removed; and a run that fails changes nothing.", "quantifier": "every command, argument list, file system and failure", "why_tests_cant": "All commands and failures.", "anchors": ["exp/fcrypt/fcrypt.go:main", "exp/fcrypt/fcrypt.go:writeStore", "exp/fcrypt/fcrypt.go:decryptFile"]}
{"id": "C130", "title": "The keys fcrypt imports", "statement": "fcrypt -import adds just one key, under the label asked for, which was not in use, and only if the owner or someone on record signed it, or with -u if the user answers yes; the key store can then be read again. In all other cases it reports an error and leaves the key store alone.", "quantifier": "every input, key store, label and sequence of answers", "why_tests_cant": "All inputs, in particular statements that nobody on record signed.", "anchors": ["exp/fcrypt/fcrypt.go:importVerified", "exp/fcrypt/fcrypt.go:importUntrusted", "exp/fcrypt/fcrypt.go:main"]}
{"id": "C131", "title": "Removing a key with fcrypt", "statement": "fcrypt -r removes the key with the label given and no other, and the keys that remain still verify.", "quantifier": "every key store and label", "why_tests_cant": "All key stores, in particular those in which keys depend on each other.", "anchors": ["exp/fcrypt/fcrypt.go:removeKey", "exp/fcrypt/fcrypt.go:main"]}
{"id": "C132", "title": "Exported keys can be imported", "statement": "A key exported with fcrypt -export can be imported by another user: with -l by anyone who has the exporter's key on record, and one's own key by anyone with -u. The same key is then on record there.", "quantifier": "every pair of key stores, label and file", "why_tests_cant": "Needs two users; all key stores.", "anchors": ["exp/fcrypt/fcrypt.go:exportSelf", "exp/fcrypt/fcrypt.go:exportVerified", "exp/fcrypt/fcrypt.go:importVerified", "exp/fcrypt/fcrypt.go:importUntrusted"]}
{"id": "C133", "title": "What fcrypt -check accepts", "statement": "fcrypt -check says that a key store is valid just if there is a chain of signatures from the owner to every key in it, and always ends.", "quantifier": "every key store file", "why_tests_cant": "All files, in particular those that fcrypt did not write.", "anchors": ["exp/fcrypt/fcrypt.go:checkStore", "common/store/keystore.go:KeyAudit"]}
{"id": "C134", "title": "What fcrypt -k lists", "statement": "fcrypt -k lists every key on record once, with its fingerprint and the name of the key that signed it, asks for no passphrase and changes nothing.", "quantifier": "every key store as fcrypt writes it and every iteration order of the map", "why_tests_cant": "All key stores and orders.", "anchors": ["exp/fcrypt/fcrypt.go:keyList", "common/store/keystore.go:FindPublic"]}
{"id": "C135", "title": "An uploaded key is published as uploaded", "statement": "A key that the key server has accepted is served ever after, under the label it was uploaded with, with the very statement uploaded and the fingerprint of the key.", "quantifier": "every server state, upload, later sequence of requests and interleaving", "why_tests_cant": "All sequences of requests that might disturb the record.", "anchors": ["exp/keysrv/keysrv.go:checkUpload", "exp/keysrv/keysrv.go:process", "common/store/keystore.go:ImportVerified", "common/store/keystore.go:ExportVerified"]}
{"id": "C136", "title": "What the key server publishes is genuine", "statement": "Asked for the key or the fingerprint under a label, the key server answers with the key on record under it, with a statement on which the signature verifies, and refuses labels it does not know; asking changes nothing.", "quantifier": "every reachable state and label", "why_tests_cant": "All states and labels.", "anchors": ["exp/keysrv/keysrv.go:process", "exp/keysrv/keysrv.go:getPublic", "exp/keysrv/keysrv.go:getFingerprint"]}
{"id": "C137", "title": "The key server's own key", "statement": "Asked for its own key, the key server answers with a statement on its public key signed by itself, the same one at all times.", "quantifier": "every key store file the server comes up with, sequence of requests and interleaving", "why_tests_cant": "All key store files.", "anchors": ["exp/keysrv/keysrv.go:serverPublic", "exp/keysrv/keysrv.go:process", "common/store/keystore.go:Unlock"]}
{"id": "C138", "title": "The key server stays up", "statement": "Whatever requests the key server receives, it does not panic, and its periodic audits do not stop it.", "quantifier": "every key store file the server comes up with, sequence of requests and interleaving", "why_tests_cant": "All files, requests and interleavings.", "anchors": ["exp/keysrv/keysrv.go:keystoreDispatch", "exp/keysrv/keysrv.go:process", "exp/keysrv/keysrv.go:auditRunner", "common/store/keystore.go:ImportVerified"]}
{"id": "C139", "title": "Every request is answered", "statement": "The key server answers every request once, in the order in which the commands were sent, and without waiting for other requests.", "quantifier": "every sequence of requests and interleaving of handlers, dispatcher and auditor", "why_tests_cant": "All interleavings; liveness.", "anchors": ["exp/keysrv/keysrv.go:sendCommand", "exp/keysrv/keysrv.go:keystoreDispatch", "exp/keysrv/keysrv.go:auditRunner", "common/store/keystore.go:VerifyChain"]}
{"id": "C140", "title": "A restarted key server has all its keys", "statement": "A key server that is started with what it dumped last, and the same passphrase, comes up with the same keys.", "quantifier": "every execution, file and label", "why_tests_cant": "All labels and executions.", "anchors": ["exp/keysrv/keysrv.go:loadStore", "exp/keysrv/keysrv.go:keystoreDispatch", "common/store/keystore.go:Dump", "common/store/keystore.go:LoadKeyStore"]}
{"id": "C141", "title": "The key server's file is always complete", "statement": "At all times the file of the key server is the one it started with or what it held at some moment, and it changes no other file.", "quantifier": "every execution and every pattern of failing writes", "why_tests_cant": "Needs writes that fail.", "anchors": ["exp/keysrv/keysrv.go:keystoreDispatch"]}
{"id": "C142", "title": "The first start of the key server", "statement": "Started without a key store file, the key server makes a key store that the passphrase opens, and comes up.", "quantifier": "every file system without a key store, passphrase and source of randomness", "why_tests_cant": "A test would have to answer the prompt; the program has no tests.", "anchors": ["exp/keysrv/keysrv.go:loadStore", "exp/keysrv/keysrv.go:main"]}
{"id": "C143", "title": "Users that register can log in", "statement": "After a user has been registered with a password, every later run of the login program accepts that password for that name, and every other line exactly when bcrypt does; a user registered for TOTP is shown a key whose codes are accepted for the current and the previous step. Unregistered names are refused.", "quantifier": "every user file, name, password, clock and later run", "why_tests_cant": "All names, passwords and times, across processes.", "anchors": ["common/auth/examples/login/login.go:register", "common/auth/examples/login/login.go:login", "common/auth/examples/login/login.go:writeStore", "common/auth/examples/login/login.go:loadStore"]}
{"id": "C144", "title": "Registering and logging in concern one user", "statement": "Registering a user, and logging in, leave the entries of all other users as they were, and nobody can replace the authentication of a user that exists without having been authenticated.", "quantifier": "every user file, name and input", "why_tests_cant": "All names, also those that are not UTF-8.", "anchors": ["common/auth/examples/login/login.go:register", "common/auth/examples/login/login.go:login", "common/auth/examples/login/login.go:writeStore"]}
{"id": "C145", "title": "Restarting the login program changes nothing", "statement": "If the login program is ended and started again between two attempts to log in, all verdicts are as if it had kept running.", "quantifier": "every user file, input, clock and point of restart", "why_tests_cant": "All inputs and points of restart.", "anchors": ["common/auth/examples/login/login.go:login", "common/auth/examples/login/login.go:writeStore", "common/auth/examples/login/login.go:loadStore"]}
{"id": "C146", "title": "The login program accepts a code once", "statement": "A TOTP or YubiKey code that the login program accepted is not accepted again, also after a restart.", "quantifier": "every user file, code, clock and later run", "why_tests_cant": "All times, across processes.", "anchors": ["common/auth/examples/login/login.go:login", "common/auth/examples/login/login.go:writeStore", "common/auth/totp.go:ValidateTOTP", "common/auth/yubikey.go:ValidateYubiKey"]}
{"id": "C147", "title": "All listed types of authentication can be registered", "statement": "Answering any of the types of authentication that the login program lists registers the user with that type; other answers are asked again.", "quantifier": "every user file, name and sequence of answers", "why_tests_cant": "All sequences of answers.", "anchors": ["common/auth/examples/login/login.go:register", "common/auth/examples/login/login.go:regPassword", "common/auth/examples/login/login.go:regTOTP", "common/auth/examples/login/login.go:regYubiKey"]}
{"id": "C148", "title": "The login program does not panic", "statement": "Whatever the user file contains and whatever is typed, the login program does not panic.", "quantifier": "every file, input, clock and source of randomness", "why_tests_cant": "All files; sequences of runs with failing writes.", "anchors": ["common/auth/examples/login/login.go:register", "common/auth/examples/login/login.go:login", "common/auth/examples/login/login.go:loadStore"]}
{"id": "C149", "title": "Files of the login program", "statement": "The login program changes no file but its user file and, when registering, qr.png; refused attempts change nothing; and users that were registered are not lost.", "quantifier": "every user file, input and pattern of failing writes", "why_tests_cant": "Needs writes that fail.", "anchors": ["common/auth/examples/login/login.go:writeStore", "common/auth/examples/login/login.go:regTOTP", "common/auth/examples/login/login.go:login"]}
{"id": "C150", "title": "The login program ends", "statement": "The login program ends at the latest when its input does, with exit status 0 only after registering a user or reading a blank name.", "quantifier": "every user file, argument list and input", "why_tests_cant": "All inputs; termination.", "anchors": ["common/auth/examples/login/login.go:main", "common/auth/examples/login/login.go:login", "common/auth/examples/login/login.go:register"]}
{"id": "C151", "title": "The QR code carries the token", "statement": "From the text in the QR code that ExportUserTOTP and ExportQR make, the label, the key, the number of digits and the provider can be read back as they were given, whatever bytes they contain.", "quantifier": "every token and label", "why_tests_cant": "All byte strings as labels and providers, where escaping could go wrong.", "anchors": ["common/auth/totp.go:TOTPConfig.ExportQR", "common/auth/totp.go:ExportUserTOTP"]}
{"id": "C152", "title": "An app that scans the QR code shows codes that are accepted", "statement": "An authenticator app that reads the QR code of a token shows, at every time, the code that ValidateTOTP accepts at that time.", "quantifier": "every token, label and time", "why_tests_cant": "All tokens and times.", "anchors": ["common/auth/totp.go:TOTPConfig.ExportQR", "common/auth/totp.go:NewGoogleTOTP", "common/auth/totp.go:ValidateTOTP"]}
{"id": "C153", "title": "The QR code names the provider", "statement": "If a provider is configured, an authenticator app that reads the QR code knows it as the issuer of the token.", "quantifier": "every token with a provider and every label", "why_tests_cant": "Depends on what readers of the format do; no test reads the code back.", "anchors": ["common/auth/totp.go:TOTPConfig.ExportQR"]}
{"id": "C154", "title": "The help of secretscli is complete", "statement": "help lists exactly the commands that secretscli accepts, in alphabetical order and each with its description; help with the name of a command explains it and with any other word fails; and help changes nothing.", "quantifier": "every state of a session and every line that begins with help", "why_tests_cant": "All words: the table of descriptions and the table of commands are kept apart in the code.", "anchors": ["cmd/secretscli/help.go:help", "cmd/secretscli/help.go:printCommands", "cmd/secretscli/commands.go:dispatch"]}
{"id": "C155", "title": "Two sessions on one store lose nothing", "statement": "When two sessions of secretscli work on the same file at the same time, the file holds what was stored in either of them once both have been ended with quit.", "quantifier": "every pair of sessions on one file and every order in which their steps happen", "why_tests_cant": "Needs two processes and all orders of their steps.", "anchors": ["cmd/secretscli/secretscli.go:main", "cmd/secretscli/secretscli.go:writeStore", "cmd/secretscli/commands.go:quitProgram"]}
{"id": "C156", "title": "Labels survive the URL", "statement": "Every public key on record can be fetched at the URL made of /public/ and its percent-encoded label, and a key uploaded to the URL of a label is served at the URL of that label.", "quantifier": "every label, every way of encoding it and every state of the server", "why_tests_cant": "All labels, where encoding and routing could go wrong.", "anchors": ["exp/keysrv/keysrv.go:main", "exp/keysrv/keysrv.go:getPublic", "exp/keysrv/keysrv.go:addPublic", "exp/keysrv/keysrv.go:getFingerprint"]}
{"id": "C157", "title": "Requests that read change nothing", "statement": "Requests that are not uploads (with methods such as GET, or to URLs other than those under /upload/) change neither the keys of the server nor its file; nor do uploads whose body cannot be read.", "quantifier": "every request and every state of the server", "why_tests_cant": "All methods and URLs.", "anchors": ["exp/keysrv/keysrv.go:main", "exp/keysrv/keysrv.go:addPublic", "exp/keysrv/keysrv.go:getPublic", "exp/keysrv/keysrv.go:getFingerprint"]}
{"id": "C158", "title": "Redirects end", "statement": "When the server redirects a request, it is to a URL that leads to the same place, with the same query, and from which it does not redirect again.", "quantifier": "every request", "why_tests_cant": "All paths, with all their dots, slashes and escapes.", "anchors": ["exp/keysrv/keysrv.go:main"]}
{"id": "C159", "title": "The server's own fingerprint has a URL without a label", "statement": "Just as /public/ gives the server's own key, /fingerprint/ gives its fingerprint, as does /fingerprint/self.", "quantifier": "every request and every state of the server", "why_tests_cant": "Depends on how the router treats empty labels.", "anchors": ["exp/keysrv/keysrv.go:main", "exp/keysrv/keysrv.go:getFingerprint"]}
{"id": "C160", "title": "Files packed together are restored apart", "statement": "Two different files packed in one run of passcrypt are restored by passcrypt -u in different places.", "quantifier": "every list of arguments and every tree", "why_tests_cant": "All combinations of absolute and relative arguments.", "anchors": ["cmd/passcrypt/passcrypt.go:packFiles", "cmd/passcrypt/passcrypt.go:packFile", "cmd/passcrypt/passcrypt.go:unpackFile"]}
{"id": "C161", "title": "An idle session locks itself", "statement": "Once the time given with -t (five minutes without it, and at most twelve hours) has passed since the last command of a session of secretscli ended or the session began, and nothing was typed, the process ends and the secrets, metadata and passphrase in its memory are wiped.", "quantifier": "every session, limit, input and every time at which it is typed", "why_tests_cant": "All timings of the input against the timer.", "anchors": ["cmd/secretscli/secretscli.go:main", "cmd/secretscli/secretscli.go:inputLoop", "cmd/secretscli/secretscli.go:shutdown"]}
{"id": "C162", "title": "A session in use is not locked", "statement": "A session of secretscli locks itself only when nothing was typed for as long as the limit.", "quantifier": "every session, limit, input and every time at which it is typed", "why_tests_cant": "All timings of the input against the timer.", "anchors": ["cmd/secretscli/secretscli.go:inputLoop", "cmd/secretscli/secretscli.go:readCommands"]}
{"id": "C163", "title": "Options may be given in any order and spelling", "statement": "Before the first argument, the options of a program may stand in any order, with one dash or two, and with values joined by an equals sign or apart; the last value given to an option counts, and -- ends the options.", "quantifier": "every program and every command line of this form", "why_tests_cant": "All command lines: no test of the repository calls a main function.", "anchors": ["cmd/secrets/secrets.go:main", "cmd/secretscli/secretscli.go:main", "cmd/journal/journal.go:main", "cmd/otpc/otpc.go:main", "cmd/passcrypt/passcrypt.go:main", "exp/fcrypt/fcrypt.go:main", "exp/keysrv/keysrv.go:main", "cmd/migrate-store/migrate-store.go:main", "common/auth/examples/login/login.go:main"]}
{"id": "C164", "title": "The examples of the documentation work", "statement": "The command lines that the documentation of the programs gives as examples carry out what it says they do.", "quantifier": "every example, with any labels and file names in it that do not begin with a dash", "why_tests_cant": "All labels, files and states; the documentation is not tested.", "anchors": ["cmd/secrets/secrets.go:main", "cmd/secretscli/secretscli.go:main", "cmd/journal/journal.go:main", "cmd/otpc/otpc.go:main", "cmd/passcrypt/passcrypt.go:main", "exp/fcrypt/fcrypt.go:main"]}
{"id": "C165", "title": "Options are never taken for something else", "statement": "Every word of a command line that begins with a dash, before a word --, is understood as an option (or the value of one) or makes the program refuse; and a value given to a switch is not ignored.", "quantifier": "every program and command line", "why_tests_cant": "All command lines.", "anchors": ["cmd/secrets/secrets.go:main", "cmd/secretscli/secretscli.go:main", "cmd/journal/journal.go:main", "cmd/otpc/otpc.go:main", "cmd/passcrypt/passcrypt.go:main", "exp/fcrypt/fcrypt.go:main"]}
{"id": "C166", "title": "Contradicting actions are refused", "statement": "Which action a program carries out does not depend on the order or repetition of its options, and a command line that asks for several different actions is refused.", "quantifier": "every program and command line", "why_tests_cant": "All combinations of options.", "anchors": ["cmd/secrets/secrets.go:main", "cmd/journal/journal.go:main", "cmd/otpc/otpc.go:main", "cmd/passcrypt/passcrypt.go:main", "exp/fcrypt/fcrypt.go:main"]}
{"id": "C167", "title": "A command line that cannot be read changes nothing", "statement": "A command line with an unknown option, or with an option whose value is missing or cannot be read, makes a program end with an error before it reads or writes any file; -V makes it end with success, just as early.", "quantifier": "every program, command line and state", "why_tests_cant": "All command lines and states of the files.", "anchors": ["cmd/secrets/secrets.go:main", "cmd/secretscli/secretscli.go:main", "cmd/journal/journal.go:main", "cmd/otpc/otpc.go:main", "cmd/passcrypt/passcrypt.go:main", "exp/fcrypt/fcrypt.go:main", "exp/keysrv/keysrv.go:main", "cmd/migrate-store/migrate-store.go:main", "common/auth/examples/login/login.go:main"]}
{"id": "C168", "title": "The journal runs the editor that was asked for", "statement": "The command given with -editor, else that in the environment variable EDITOR, else vim, is run with its words as arguments, however many blanks are between them.", "quantifier": "every command and command line", "why_tests_cant": "All commands.", "anchors": ["cmd/journal/journal.go:main", "cmd/journal/journal.go:newEntry", "cmd/journal/journal.go:editEntry"]}
{"id": "C169", "title": "secrets shows the secret asked for and nothing else", "statement": "secrets <label> with the right passphrase prints the secret stored under the label and exits with status 0; with -x it prints exactly the bytes of the secret; with -m also the time and each item of metadata once. When it exits with another status nothing is printed on standard output.", "quantifier": "every store file, label, passphrase and set of display options", "why_tests_cant": "All secrets and all stores.", "anchors": ["cmd/secrets/secrets.go:showSecret", "cmd/secrets/secrets.go:main"]}
{"id": "C170", "title": "Only showing an entry prints secrets", "statement": "What secrets prints when it lists, stores, removes, merges, enters several secrets, changes the passphrase, exports or imports does not depend on the secrets or on the values of metadata in the files, nor on the passphrase of the store; and what it prints when it shows an entry depends on no other entry.", "quantifier": "every two runs with the same input (but for the passphrase) and with files that differ only in secrets and values of metadata", "why_tests_cant": "A comparison of two runs; all stores.", "anchors": ["cmd/secrets/secrets.go:list", "cmd/secrets/secrets.go:addSecret", "cmd/secrets/secrets.go:addMeta", "cmd/secrets/secrets.go:remove", "cmd/secrets/secrets.go:removeMeta", "cmd/secrets/secrets.go:multi", "cmd/secrets/secrets.go:merge", "cmd/secrets/secrets.go:chpass", "cmd/secrets/secrets.go:showSecret"]}
{"id": "C171", "title": "The list of labels is complete and readable", "statement": "secrets -l prints the number of labels and every label once, in ascending order, and different sets of labels are printed differently.", "quantifier": "every store file", "why_tests_cant": "All sets of labels.", "anchors": ["cmd/secrets/secrets.go:list"]}
{"id": "C172", "title": "A merge reports what it took over", "statement": "secrets -merge prints exactly the labels of the entries that were taken over from the other store.", "quantifier": "every two store files", "why_tests_cant": "All pairs of stores and all orders of iteration.", "anchors": ["cmd/secrets/secrets.go:merge", "common/store/secretstore.go:Merge"]}
{"id": "C173", "title": "What is reported as removed is removed", "statement": "When secrets -r prints that an entry or an item of metadata was removed, it was there before and the file no longer has it.", "quantifier": "every run, including those in which the file cannot be written", "why_tests_cant": "All stores; write errors are not tested.", "anchors": ["cmd/secrets/secrets.go:remove", "cmd/secrets/secrets.go:removeMeta", "cmd/secrets/secrets.go:main"]}
{"id": "C174", "title": "What is shown of an entry can be read back", "statement": "Entries that differ in secret, time or metadata are printed differently by secrets -m.", "quantifier": "every two entries", "why_tests_cant": "All pairs of entries.", "anchors": ["cmd/secrets/secrets.go:showSecret"]}
{"id": "C175", "title": "passcrypt -l lists what the archive holds", "statement": "passcrypt -l with the right password prints the name of every file and directory of the archive, in order, directories marked with a slash, and changes nothing; after packing these are the regular files and directories that were packed. If the archive does not open, nothing is listed. Archives with different names or kinds of entries are listed differently.", "quantifier": "every archive and password", "why_tests_cant": "All archives.", "anchors": ["cmd/passcrypt/passcrypt.go:main", "cmd/passcrypt/passcrypt.go:packFiles"]}
{"id": "C176", "title": "passcrypt -v announces exactly what is packed or unpacked", "statement": "When passcrypt -v exits with status 0 it has announced, in order, every entry that it put into the archive or unpacked, and nothing else. When it fails at an entry, this is the last it announced; what was announced before had been dealt with, and what comes after was not tried.", "quantifier": "every tree, archive and failure", "why_tests_cant": "All archives and all points of failure.", "anchors": ["cmd/passcrypt/passcrypt.go:packFiles", "cmd/passcrypt/passcrypt.go:unpackFiles"]}
{"id": "C177", "title": "Without -v passcrypt is quiet", "statement": "Without -v passcrypt prints nothing on standard output while it packs or unpacks.", "quantifier": "every tree and archive", "why_tests_cant": "All archives.", "anchors": ["cmd/passcrypt/passcrypt.go:packFiles", "cmd/passcrypt/passcrypt.go:unpackFiles", "cmd/passcrypt/passcrypt.go:main"]}
{"id": "C178", "title": "passcrypt prints no contents", "statement": "What passcrypt prints on standard output does not depend on the contents of the files it packs, lists or unpacks, nor on the password.", "quantifier": "every two runs on trees or archives with the same names and modes", "why_tests_cant": "A comparison of two runs; all archives.", "anchors": ["cmd/passcrypt/passcrypt.go:main", "cmd/passcrypt/passcrypt.go:packFiles", "cmd/passcrypt/passcrypt.go:unpackFiles"]}
{"id": "C179", "title": "otpc prints codes and no keys", "statement": "On standard output otpc prints its questions, fixed lines, the codes it reports and the seconds left, and nothing else; in particular not the key of a token.", "quantifier": "every request, store and sequence of answers", "why_tests_cant": "All answers, including mistyped keys.", "anchors": ["cmd/otpc/otpc.go:addSecret", "cmd/otpc/otpc.go:showSecret", "cmd/otpc/otpc.go:initStore", "cmd/otpc/otpc.go:main"]}
{"id": "C180", "title": "otpc says when a Google code expires", "statement": "When otpc displays a token of type Google, the number of seconds it gives is the time after which the code printed is no longer the current one.", "quantifier": "every moment, including the end of a period", "why_tests_cant": "Depends on two readings of the clock.", "anchors": ["cmd/otpc/otpc.go:printGTOTP", "cmd/otpc/otpc.go:showSecret"]}
{"id": "C181", "title": "journal prints the text of an entry only when asked to show it", "statement": "journal with a title prints the text of that entry and a line break, and nothing if there is no such entry. What it prints when it creates a journal or lists, writes or edits entries does not depend on the texts of the entries, on what is typed in the editor, or on the passphrase.", "quantifier": "every journal; every two runs with the same input and with journals that differ only in the texts of entries", "why_tests_cant": "A comparison of two runs; all journals.", "anchors": ["cmd/journal/journal.go:showEntry", "cmd/journal/journal.go:listEntries", "cmd/journal/journal.go:writeNew", "cmd/journal/journal.go:editEntry", "cmd/journal/journal.go:initStore"]}
{"id": "C182", "title": "The list of entries can be read", "statement": "journal -l prints a heading and then, newest first, a line with the date and the title of each entry; journals with different titles or dates are listed differently.", "quantifier": "every journal", "why_tests_cant": "All sets of titles.", "anchors": ["cmd/journal/journal.go:listEntries"]}
{"id": "C183", "title": "journal says when it leaves the temporary file", "statement": "journal prints a warning with the name of its temporary file exactly when the file with the text of the entry is still there after the run.", "quantifier": "every run, however the editor and the removal of the file go", "why_tests_cant": "Failures of the operating system and the behaviour of editors are not tested.", "anchors": ["cmd/journal/journal.go:newEntry", "cmd/journal/journal.go:editEntry"]}
{"id": "C184", "title": "Decoder.Zero wipes the data the decoder was given", "statement": "After Zero the slice that was passed to NewDecoder holds only zeros and the decoder is empty: its length is 0 and every Decode reports that the data is too short. Values decoded before stay as they are.", "quantifier": "every slice, array around it and sequence of Decode calls before Zero", "why_tests_cant": "All buffers and all positions the decoder may have reached; aliasing.", "anchors": ["common/tlv/tlv.go:Decoder.Zero", "common/tlv/tlv.go:NewDecoder", "common/tlv/tlv.go:Decoder.Decode"]}
{"id": "C185", "title": "secretscli prints secrets only when asked to show them", "statement": "The only commands of secretscli whose output depends on the secrets in the store are show and showhex, and they print nothing that depends on records that were not named. The output of the other commands, rmeta and wmeta excepted, does not depend on the metadata or times either, and that of no command on the passphrase.", "quantifier": "every command line, store and answers; every two sessions whose stores have the same labels, where secrets and passphrases typed may differ", "why_tests_cant": "A comparison of two sessions; all stores and command lines.", "anchors": ["cmd/secretscli/secretscli.go:processCommands", "cmd/secretscli/commands.go:show", "cmd/secretscli/commands.go:storeSingleSecret", "cmd/secretscli/commands.go:readMeta", "cmd/secretscli/commands.go:passwd"]}
{"id": "C186", "title": "secretscli asks about the label it is going to overwrite", "statement": "Before the store command overwrites a secret it prints the label and asks whether to overwrite it, and changes nothing unless the answer is yes; the prompt for commands begins with the name of the store's file.", "quantifier": "every label, file name and answer", "why_tests_cant": "Labels and file names are arbitrary text.", "anchors": ["cmd/secretscli/commands.go:storeSingleSecret", "cmd/secretscli/secretscli.go:readCommands", "common/util/util.go:ReadLine"]}
{"id": "C187", "title": "wmeta shows every value it replaces", "statement": "When the wmeta command of secretscli replaces a value in the metadata of a secret, it prints a note with the value that was there, also when the command fails afterwards. Besides a heading and prompts it prints only such notes, about values that were in the metadata of this secret or were typed.", "quantifier": "every store, label and sequence of lines typed", "why_tests_cant": "All sequences of lines, including those that set a key more than once.", "anchors": ["cmd/secretscli/commands.go:writeMeta"]}
{"id": "C188", "title": "migrate-store announces what it does", "statement": "migrate-store prints that it decrypted a file if and only if the password typed for it opens it in the old format, and that it migrated a file only if the file then opens in the new format with the same password and plaintext. It prints nothing else, and when the exit status is 0 it has printed both lines for every file, in order.", "quantifier": "every list of files, every sequence of passwords, every failure of the disk or the PRNG", "why_tests_cant": "All lists of files and failures at any of them.", "anchors": ["cmd/migrate-store/migrate-store.go:migrateStore", "cmd/migrate-store/migrate-store.go:main"]}
{"id": "C189", "title": "A refused login does not say whether there is such a user", "statement": "The login program answers every attempt to log in that it refuses with the same message, whether or not the user is registered and whatever kind of authentication they use.", "quantifier": "every user file, name and password", "why_tests_cant": "A comparison over all users and names.", "anchors": ["common/auth/examples/login/login.go:login", "common/auth/authenticator.go:Validate"]}
{"id": "C190", "title": "The login program prints no passwords", "statement": "While users log in, the login program prints and logs only fixed texts, which contain no names, passwords, codes or keys. When a user registers it shows the name, answers that are not types of authentication, and, for TOTP, the new key once; a password is not shown.", "quantifier": "every user file with users of the types password, TOTP and YubiKey; every sequence of names and passwords", "why_tests_cant": "All inputs and all user files.", "anchors": ["common/auth/examples/login/login.go:login", "common/auth/examples/login/login.go:register", "common/auth/examples/login/login.go:regTOTP", "common/auth/examples/login/login.go:regPassword"]}
{"id": "C191", "title": "fcrypt reports every error, and only errors, on standard error", "statement": "When fcrypt exits with status 1 the last thing it prints is an error message on standard error, and when it prints an error message it does not exit with status 0.", "quantifier": "every command line, key store file, input and sequence of answers; every failure of the disk or the PRNG", "why_tests_cant": "All commands and every point at which they may fail.", "anchors": ["exp/fcrypt/fcrypt.go:main", "exp/fcrypt/fcrypt.go:cryptSignFile", "common/util/util.go:Errorf", "common/store/keystore.go:LoadKeyStore"]}
{"id": "C192", "title": "fcrypt shows whose key it is about to import without trust", "statement": "Before it imports a key with -u, fcrypt shows a warning, the fingerprint of that key, and whether the key is signed by itself, by the owner or someone on record, or by nobody known. It then asks until the answer is yes or no, and imports the key only after yes; after no it says so, exits with status 1 and has changed no file.", "quantifier": "every signed key, key store and sequence of answers", "why_tests_cant": "All sequences of answers and all keys.", "anchors": ["exp/fcrypt/fcrypt.go:importUntrusted", "common/store/keystore.go:IsSelfSigned"]}
{"id": "C193", "title": "fcrypt prints nothing of messages, keys and passphrases", "statement": "When it encrypts, decrypts, signs or verifies and its second argument is a file, fcrypt prints only texts from a fixed list, whatever the message, the keys, the labels and the passphrase are.", "quantifier": "every message, key store, label and answer; every failure of the disk or the PRNG", "why_tests_cant": "Absence of leaks over all inputs.", "anchors": ["exp/fcrypt/fcrypt.go:main", "exp/fcrypt/fcrypt.go:encryptFile", "exp/fcrypt/fcrypt.go:decryptFile", "exp/fcrypt/fcrypt.go:signFile", "exp/fcrypt/fcrypt.go:verifyFile", "exp/fcrypt/fcrypt.go:cryptSignFile"]}
{"id": "C194", "title": "What the audit of a key store rejects has no chain of signatures", "statement": "If VerifyChain says that a key is not verified, then there is no chain of signatures, each by the key that the record names, from that key to the owner. If fcrypt -check rejects a key store, it names a key on record for which there is no such chain.", "quantifier": "every valid key store whose records carry their labels, and every iteration order of the map", "why_tests_cant": "Quantifies over all key stores and over iteration orders, which are random at run time.", "anchors": ["common/store/keystore.go:VerifyChain", "common/store/keystore.go:VerifyKeySignature", "common/store/keystore.go:KeyAudit", "common/store/keystore.go:FindPublic", "exp/fcrypt/fcrypt.go:checkStore"]}
{"id": "C195", "title": "A wiped session is over", "statement": "Session.Zero overwrites the key of a session that KeySession made and touches no other memory; afterwards the session answers no challenge, and a server that still has the key accepts nothing the session says.", "quantifier": "every pair of keys, every state of memory and every challenge", "why_tests_cant": "All keys, challenges and memory layouts.", "anchors": ["common/auth/session.go:Session.Zero", "common/auth/session.go:Session.OTP", "common/auth/session.go:KeySession", "common/util/util.go:Zero"]}
{"id": "C196", "title": "Nobody can forge an entry of the key server's log", "statement": "Every line in the log of keysrv that begins with a date and a time is one the server itself logged at that time, and every message it logged is there, in order: clients cannot add such lines or remove them, whatever labels they ask for.", "quantifier": "every sequence of requests over HTTP with any labels and bodies, every interleaving with audits and writes of the file", "why_tests_cant": "All labels and all interleavings.", "anchors": ["exp/keysrv/keysrv.go:process", "exp/keysrv/keysrv.go:keystoreDispatch", "exp/keysrv/keysrv.go:auditRunner", "exp/keysrv/keysrv.go:getPublic", "exp/keysrv/keysrv.go:getFingerprint"]}
{"id": "C197", "title": "Every message in the key server's log is one line", "statement": "The log of keysrv consists of lines that each begin with a date and a time, one for each message, in order.", "quantifier": "every sequence of requests, every interleaving with audits and writes of the file", "why_tests_cant": "All labels and all interleavings.", "anchors": ["exp/keysrv/keysrv.go:process", "exp/keysrv/keysrv.go:keystoreDispatch", "exp/keysrv/keysrv.go:auditRunner"]}
{"id": "C198", "title": "The key server's log tells what was asked and what came of it", "statement": "For every request that keysrv handles the log has, in order, the operation, the label and whether it succeeded.", "quantifier": "every sequence of requests and every state of the server", "why_tests_cant": "All sequences of requests.", "anchors": ["exp/keysrv/keysrv.go:process", "exp/keysrv/keysrv.go:checkUpload", "exp/keysrv/keysrv.go:keystoreDispatch"]}
{"id": "C199", "title": "passcrypt restores the permissions of files", "statement": "passcrypt -u restores the permissions of every regular file that was packed.", "quantifier": "every tree of files, every mode and every umask", "why_tests_cant": "All modes and umasks; the program has no tests.", "anchors": ["cmd/passcrypt/passcrypt.go:unpackFile", "cmd/passcrypt/passcrypt.go:unpackFiles", "cmd/passcrypt/passcrypt.go:packFile"]}
{"id": "C200", "title": "Secrets in the clear are written for the owner only", "statement": "Files into which the programs write secrets in the clear (what fcrypt -d decrypted, QR codes with keys, entries of the journal that are being edited) cannot be accessed by others than their owner.", "quantifier": "every umask and every state of the file system", "why_tests_cant": "All umasks and all states of the file system.", "anchors": ["exp/fcrypt/fcrypt.go:decryptFile", "cmd/otpc/otpc.go:showQR", "cmd/journal/journal.go:editEntry", "cmd/journal/journal.go:newEntry", "common/auth/examples/login/login.go:regTOTP", "common/util/util.go:WriteFile"]}
{"id": "C201", "title": "Sealed files are for the owner only", "statement": "Files that hold what a passphrase protects cannot be accessed by others than their owner, so that nobody else can try passphrases.", "quantifier": "every umask, every way in which the write can end and every state of the file system", "why_tests_cant": "All umasks and all states of the file system.", "anchors": ["common/secret/crypto.go:EncryptFile", "cmd/secrets/secrets.go:initStore", "common/util/util.go:WriteFile"]}
{"id": "C202", "title": "secrets says on standard error when it failed, and only then that it failed", "statement": "When secrets exits with a status other than 0, the last line on standard error says that it failed, and for most commands why, or which argument is missing. When it exits with status 0 there is nothing on standard error but warnings about secrets that are replaced and complaints about single answers, and these only for -s, -multi and -r.", "quantifier": "every command line, file, sequence of answers and failure of the disk or the PRNG", "why_tests_cant": "All commands and every point at which they may fail.", "anchors": ["cmd/secrets/secrets.go:main", "cmd/secrets/secrets.go:initStore", "cmd/secrets/secrets.go:loadStore", "cmd/secrets/secrets.go:writeStore", "cmd/secrets/secrets.go:exportStore", "cmd/secrets/secrets.go:importStore", "common/util/util.go:Errorf"]}
{"id": "C203", "title": "secrets replaces no secret without a warning", "statement": "When secrets -s or secrets -multi has replaced secrets of entries that were in the store, it was run with -w and has printed at least one warning for each of them.", "quantifier": "every store, label, sequence of answers and file", "why_tests_cant": "All sequences of answers of any length.", "anchors": ["cmd/secrets/secrets.go:addSecret", "cmd/secrets/secrets.go:multi", "cmd/secrets/secrets.go:main"]}
{"id": "C204", "title": "secrets does not tell a wrong passphrase from a damaged file", "statement": "If the file exists and the passphrase does not open it, then secrets, whatever the command and the reason, prints the same single line, nothing on standard output, exits with status 1, and has asked for nothing but the passphrase and changed no file.", "quantifier": "every file, passphrase and command", "why_tests_cant": "All files and passphrases.", "anchors": ["cmd/secrets/secrets.go:loadStore", "cmd/secrets/secrets.go:main", "common/store/secretstore.go:UnmarshalSecretStore"]}
{"id": "C205", "title": "Nothing stored or typed is printed on standard error by secrets", "statement": "Every line that secrets writes to standard error is one of a fixed list that depends only on the command line and on the texts of errors of the terminal and the file system.", "quantifier": "every store, passphrase, sequence of answers and failure", "why_tests_cant": "Absence of leaks over all inputs.", "anchors": ["cmd/secrets/secrets.go:main", "cmd/secrets/secrets.go:addSecret", "cmd/secrets/secrets.go:addMeta", "cmd/secrets/secrets.go:removeMeta", "cmd/secrets/secrets.go:multi", "cmd/secrets/secrets.go:merge", "cmd/secrets/secrets.go:chpass", "common/util/util.go:Errorf"]}
{"id": "C206", "title": "secretscli says when a command failed and when it could not save the store", "statement": "Every command of a session that fails has said so on standard error, with the reason, when the next prompt appears; one that does what it was asked says nothing there but that a line of metadata is not in the right form or that the size of the terminal is not known. Whenever secretscli tries to save the store and cannot, it says so; and it does not say so when the store was saved.", "quantifier": "every state of a session, line typed, sequence of answers and failure of the disk or the PRNG", "why_tests_cant": "All commands and every point at which they may fail.", "anchors": ["cmd/secretscli/secretscli.go:processCommands", "cmd/secretscli/secretscli.go:writeStore", "cmd/secretscli/secretscli.go:shutdown", "cmd/secretscli/commands.go:storeSecret", "cmd/secretscli/commands.go:cmdWriteStore", "cmd/secretscli/commands.go:writeMeta", "cmd/secretscli/commands.go:passwd"]}
{"id": "C207", "title": "Silence of secretscli means that all changes are in the file", "statement": "If a session of secretscli ends and nothing was said on standard error of a store that could not be written, then all that was changed in the session, the passphrase too, is in the file.", "quantifier": "every file, session, ending of it and behaviour of the disk", "why_tests_cant": "All sessions of any length and all failures of the disk.", "anchors": ["cmd/secretscli/secretscli.go:main", "cmd/secretscli/secretscli.go:inputLoop", "cmd/secretscli/secretscli.go:writeStore", "cmd/secretscli/secretscli.go:shutdown", "cmd/secretscli/commands.go:storeSecret", "cmd/secretscli/commands.go:writeMeta", "cmd/secretscli/commands.go:passwd"]}
{"id": "C208", "title": "Nothing stored, and no password, is printed on standard error by secretscli", "statement": "Every line that a session of secretscli writes to standard error is one of a fixed list that depends only on the path and on the texts of errors of the terminal and the file system, or a complaint with the first word of a line that was typed at the prompt for commands.", "quantifier": "every state of a session, every sequence of lines and answers, every interleaving of the two goroutines and the timer", "why_tests_cant": "Absence of leaks over all sessions.", "anchors": ["cmd/secretscli/secretscli.go:readCommands", "cmd/secretscli/secretscli.go:processCommands", "cmd/secretscli/secretscli.go:inputLoop", "cmd/secretscli/secretscli.go:writeStore", "cmd/secretscli/secretscli.go:shutdown", "cmd/secretscli/commands.go:storeSingleSecret", "cmd/secretscli/commands.go:writeMeta"]}
{"id": "C209", "title": "secretscli begins a session only with the right passphrase, and says why it does not", "statement": "A session begins if and only if a passphrase was typed that opens the file. If the file exists and the passphrase does not open it, one line is printed, the same for a wrong passphrase, a damaged file and the wrong strength; if there is no file or no passphrase was typed, the error is printed.", "quantifier": "every file, passphrase and mode", "why_tests_cant": "All files and passphrases.", "anchors": ["cmd/secretscli/secretscli.go:main", "common/store/secretstore.go:UnmarshalSecretStore"]}
{"id": "C210", "title": "journal says when it failed, and only then", "statement": "When journal exits with a status other than 0, the last line on standard error says that it failed and why, or what argument is missing. When it exits with status 0, it has written nothing to standard error.", "quantifier": "every journal, command line, sequence of answers, editor and failure of the disk or the PRNG", "why_tests_cant": "All commands and every point at which they may fail.", "anchors": ["cmd/journal/journal.go:main", "cmd/journal/journal.go:initStore", "cmd/journal/journal.go:loadStore", "cmd/journal/journal.go:writeStore", "cmd/journal/journal.go:writeNew", "cmd/journal/journal.go:editEntry", "cmd/journal/journal.go:showEntry"]}
{"id": "C211", "title": "journal says that a title is not there, or that the entry was given up", "statement": "Showing or editing an entry with a title that is not in the journal prints that the entry was not found and nothing else; the line is not printed when the entry is shown. Writing an entry with a title that is taken, declining to edit it and giving no other title prints that the entry was aborted. In both cases the status is 1 and no file is changed or created.", "quantifier": "every journal, title, passphrase and editor", "why_tests_cant": "All journals and titles.", "anchors": ["cmd/journal/journal.go:showEntry", "cmd/journal/journal.go:editEntry", "cmd/journal/journal.go:writeNew", "cmd/journal/journal.go:main"]}
{"id": "C212", "title": "journal says why an entry could not be edited, and keeps the journal", "statement": "If the temporary file cannot be created or filled, if the editor fails, or if the file cannot be read afterwards, journal -w and journal -e print the reason, exit with status 1, and leave all files but the temporary one as they were.", "quantifier": "every journal, title, editor and failure", "why_tests_cant": "All entries and all ways of failing.", "anchors": ["cmd/journal/journal.go:newEntry", "cmd/journal/journal.go:editEntry", "cmd/journal/journal.go:main"]}
{"id": "C213", "title": "No title, text or passphrase is printed on standard error by journal", "statement": "Every line that journal writes to standard error is one of a fixed list that depends only on the path of the journal and on the texts of errors of the terminal, the file system and the editor.", "quantifier": "every journal, passphrase, sequence of answers, editor and failure", "why_tests_cant": "Absence of leaks over all inputs.", "anchors": ["cmd/journal/journal.go:main", "cmd/journal/journal.go:writeNew", "cmd/journal/journal.go:newEntry", "cmd/journal/journal.go:editEntry", "common/util/util.go:Errorf"]}
{"id": "C214", "title": "journal does not tell a wrong passphrase from a damaged file", "statement": "If the file exists and the passphrase does not open it, then journal, whatever the command and the reason, writes the same single line to standard error, nothing to standard output, exits with status 1, and has asked for nothing but the passphrase and changed no file.", "quantifier": "every file, passphrase and command", "why_tests_cant": "All files and passphrases.", "anchors": ["cmd/journal/journal.go:loadStore", "cmd/journal/journal.go:main", "common/store/secretstore.go:UnmarshalSecretStore"]}
{"id": "C215", "title": "otpc says when it failed, and only then", "statement": "When otpc exits with a status other than 0, the last line on standard error says that it failed and why, or what arguments are missing. When it exits with status 0, or goes on displaying codes, it has written nothing to standard error.", "quantifier": "every store, command line, sequence of answers, and failure of the disk or the PRNG", "why_tests_cant": "All commands and every point at which they may fail.", "anchors": ["cmd/otpc/otpc.go:main", "cmd/otpc/otpc.go:initStore", "cmd/otpc/otpc.go:loadStore", "cmd/otpc/otpc.go:writeStore", "cmd/otpc/otpc.go:addSecret", "cmd/otpc/otpc.go:showSecret", "cmd/otpc/otpc.go:showQR"]}
{"id": "C216", "title": "otpc says that a label is taken, or not there, or that a type is unknown", "statement": "Storing a token under a label that is taken prints that it exists, before the key is asked for; showing a token or its QR code under a label that is not there prints that there is none; storing a token of a type that is none of totp, google, totp-google and hotp (in any case) prints that the type is not recognised. Nothing else is printed on standard error, the status is 1, and no file is changed.", "quantifier": "every store, label, passphrase, key and type", "why_tests_cant": "All stores and labels.", "anchors": ["cmd/otpc/otpc.go:addSecret", "cmd/otpc/otpc.go:showSecret", "cmd/otpc/otpc.go:showQR", "cmd/otpc/otpc.go:parseOTPKind", "cmd/otpc/otpc.go:main"]}
{"id": "C217", "title": "No passphrase or code is printed on standard error by otpc", "statement": "Every line that otpc writes to standard error is one of a fixed list that depends only on the command line and on the texts of errors of the terminal and the file system, or consists of the error of a library that was given a number, a time step, a key that was typed or a URL that was stored.", "quantifier": "every store, passphrase, sequence of answers and failure", "why_tests_cant": "Absence of leaks over all inputs.", "anchors": ["cmd/otpc/otpc.go:main", "cmd/otpc/otpc.go:addSecret", "cmd/otpc/otpc.go:showSecret", "cmd/otpc/otpc.go:showQR", "common/util/util.go:Errorf"]}
{"id": "C218", "title": "otpc does not tell a wrong passphrase from a damaged file", "statement": "If the file exists and the passphrase does not open it, then otpc, whatever the command and the reason, writes the same single line to standard error, nothing to standard output, exits with status 1, and has asked for nothing but the passphrase and changed no file.", "quantifier": "every file, passphrase and command", "why_tests_cant": "All files and passphrases.", "anchors": ["cmd/otpc/otpc.go:loadStore", "cmd/otpc/otpc.go:main", "common/store/secretstore.go:UnmarshalSecretStore"]}
{"id": "C219", "title": "passcrypt says when it failed, and only then", "statement": "When passcrypt exits with a status other than 0, it has written exactly one line to standard error. When it exits with status 0, it has written nothing there.", "quantifier": "every command line, archive, file tree, password, and failure of the disk or the PRNG", "why_tests_cant": "All commands and every point at which they may fail.", "anchors": ["cmd/passcrypt/passcrypt.go:main", "cmd/passcrypt/passcrypt.go:packFiles", "cmd/passcrypt/passcrypt.go:unpackFiles", "cmd/passcrypt/passcrypt.go:unpackFile", "common/util/util.go:Errorf"]}
{"id": "C220", "title": "passcrypt does not tell a wrong password from an altered archive", "statement": "If the file is long enough and its armour, if any, is that of an archive, but the password typed does not open it, passcrypt -u and -l write one and the same line to standard error, whatever the reason, print nothing on standard output, change no file, and exit with status 1. That there is not exactly one argument, that the file cannot be read, that its armour is of another kind, or that it is too short is said before the password is read.", "quantifier": "every file, password and set of flags", "why_tests_cant": "All files and passwords.", "anchors": ["cmd/passcrypt/passcrypt.go:main", "common/secret/crypto.go:Decrypt"]}
{"id": "C221", "title": "passcrypt names the file that stopped it, and tells nothing of what files hold", "statement": "If packing stops because a file cannot be examined or read, the line on standard error names the first such file and no archive is written. If unpacking stops, the line is about the output directory or about the first entry of the archive that cannot be unpacked, and the entries before it have been unpacked. What is written to standard error does not depend on the contents of the files packed, on the contents of the files in an archive whose entries are sound, on the contents of other files, on the password, or on the values of random numbers.", "quantifier": "every file tree, archive, password, and failure of the disk or the PRNG", "why_tests_cant": "Comparison of any two runs.", "anchors": ["cmd/passcrypt/passcrypt.go:packFiles", "cmd/passcrypt/passcrypt.go:packFile", "cmd/passcrypt/passcrypt.go:unpackFiles", "cmd/passcrypt/passcrypt.go:unpackFile", "cmd/passcrypt/passcrypt.go:main"]}
{"id": "C222", "title": "migrate-store says when it failed, and only then", "statement": "When migrate-store exits with a status other than 0 of its own accord, it has written exactly one line to standard error. When it exits with status 0, it has written nothing there.", "quantifier": "every list of files, sequence of passwords, and failure of the disk or the PRNG", "why_tests_cant": "All lists of files and every point at which a migration may fail.", "anchors": ["cmd/migrate-store/migrate-store.go:main", "cmd/migrate-store/migrate-store.go:migrateStore", "common/util/util.go:Errorf"]}
{"id": "C223", "title": "migrate-store says why it stopped at a file, and what that means for the files", "statement": "At the first file it cannot migrate, migrate-store says on standard error that no password could be read, that this file could not be read, that it could not be decrypted (the same for a wrong password, a damaged file and a file that was migrated before), that there was no randomness for the salt or for the encryption, or that this file could not be written; in all cases but the last no file is changed any more, and in the last none but this one.", "quantifier": "every list of files, every sequence of passwords, every file of at least 32 bytes, and every failure of the disk or the PRNG", "why_tests_cant": "All lists of files and every point at which a migration may fail.", "anchors": ["cmd/migrate-store/migrate-store.go:migrateStore", "cmd/migrate-store/legacy/crypto.go:DecryptFile", "common/secret/crypto.go:EncryptFile"]}
{"id": "C224", "title": "secrets refuses what cannot be done, says why, and changes nothing", "statement": "With a passphrase that opens the store: showing or removing a label that is not there, storing a label that is there without -w, storing an empty secret or none, changing the passphrase to an empty one or none, and merging with a store that is missing or that the passphrase typed for it does not open, all end with status 1, with the reason as the last line on standard error (the only one, but for the warning that an entry is about to be overwritten), with nothing on standard output and with every file as it was. A label that is there is refused before the secret is asked for. Listing the store always ends with status 0 and writes nothing to standard error.", "quantifier": "every store, passphrase, label and sequence of answers", "why_tests_cant": "All stores, labels and answers.", "anchors": ["cmd/secrets/secrets.go:main", "cmd/secrets/secrets.go:showSecret", "cmd/secrets/secrets.go:remove", "cmd/secrets/secrets.go:removeMeta", "cmd/secrets/secrets.go:addSecret", "cmd/secrets/secrets.go:chpass", "cmd/secrets/secrets.go:merge", "cmd/secrets/secrets.go:list"]}
{"id": "C225", "title": "secrets saves nothing of a dialogue that is not finished", "statement": "A run of secrets that adds several entries (-multi), or an entry with metadata (-s -m), and in which no empty line is typed, so that the dialogue does not end, exits with status 1, says so in the last line on standard error, prints nothing on standard output that it did not print before, and leaves all files as they were, however many entries were typed before.", "quantifier": "every store, passphrase and sequence of answers", "why_tests_cant": "Sequences of answers of any length.", "anchors": ["cmd/secrets/secrets.go:multi", "cmd/secrets/secrets.go:addMeta", "cmd/secrets/secrets.go:main"]}
{"id": "C226", "title": "otpc takes only natural numbers for the counter and the number of digits", "statement": "Storing an HOTP token succeeds only if what is typed for the counter and for the number of digits is nothing, which stands for 0 and for 6, or a natural number in decimal digits; the code that is printed is the one for these numbers. Anything else is refused, with the reason on standard error, and no file is changed.", "quantifier": "every text typed for either number", "why_tests_cant": "All texts.", "anchors": ["cmd/otpc/otpc.go:addSecret", "cmd/otpc/otpc.go:main"]}
{"id": "C227", "title": "What is stored with secrets can be shown in secretscli, and the reverse", "statement": "After secrets -s label ends with status 0, a session of secretscli on that store, begun with the same passphrase and strength, shows that secret when show and the label are typed. After a session of secretscli in which an entry is stored or changed and which is ended with quit, secrets with that label prints the secret.", "quantifier": "every store, passphrase, strength, secret and label", "why_tests_cant": "All labels and secrets, and two programs with code of their own for the same commands.", "anchors": ["cmd/secrets/secrets.go:addSecret", "cmd/secrets/secrets.go:showSecret", "cmd/secretscli/commands.go:showSecret", "cmd/secretscli/commands.go:storeSecret", "cmd/secretscli/secretscli.go:processCommands", "common/store/secretstore.go:MarshalSecretStore"]}
{"id": "C228", "title": "Two copies of a store that were changed apart can be brought together", "statement": "When each of two copies of a store was changed and then the second is merged into the first with secrets -merge, and the first into the second, both hold the same entries: under each label the one changed last, and no entry that was removed from either copy.", "quantifier": "every pair of stores and passphrases", "why_tests_cant": "All pairs of stores, of any size.", "anchors": ["cmd/secrets/secrets.go:merge", "common/store/secretstore.go:Merge", "cmd/secrets/secrets.go:remove"]}
{"id": "C229", "title": "A key can be passed on by way of a key server", "statement": "What fcrypt -export writes can be uploaded to a key server that has the exporting user's key, or whose key it is, under every free label; from then on the server sends exactly these bytes to whoever asks for the label, and fcrypt -import takes what the server sends for every user who has the key of the signer on record, whose store then holds the key that the server has.", "quantifier": "every key store, key server state, sequence of events at the server, label and key", "why_tests_cant": "All sequences of events at the server, all stores and keys, and two programs that must agree on the format.", "anchors": ["exp/fcrypt/fcrypt.go:exportVerified", "exp/fcrypt/fcrypt.go:importVerified", "exp/keysrv/keysrv.go:checkUpload", "exp/keysrv/keysrv.go:process", "common/store/keystore.go:ExportVerified", "common/store/keystore.go:ImportVerifiedKey"]}
{"id": "C230", "title": "A migrated store can be used", "statement": "After migrate-store has ended with status 0, every file named on its command line that held a secret store in the old format under the passphrase typed for it can be opened with secrets and with secretscli, with that passphrase and the standard strength, and has the same entries.", "quantifier": "every list of files, every store in the old format, and every passphrase", "why_tests_cant": "All stores and passphrases, and three programs that must agree on the format.", "anchors": ["cmd/migrate-store/migrate-store.go:migrateStore", "cmd/secrets/secrets.go:main", "cmd/secretscli/secretscli.go:main", "common/secret/crypto.go:EncryptFile"]}
{"id": "C231", "title": "A token stored with otpc can be viewed and removed with secrets", "statement": "After otpc -s label has printed a code and ended with status 0, secrets -m with that label, on that store and with the same passphrase, prints the URL of the token, the time, and exactly these items in some order: the key in base 32, the type (HOTP, TOTP-SHA1 or TOTP-GOOGLE, as was asked for), the code that was printed, and, unless the token counts, the step. After secrets -r label has ended with status 0, otpc with that label ends with status 1 and says that there is no such token, and the other tokens are as they were.", "quantifier": "every store, passphrase, label in UTF-8, type, key however it is typed, and sequence of answers", "why_tests_cant": "All keys, labels and answers, and two programs that must agree on what is in the store.", "anchors": ["cmd/otpc/otpc.go:addSecret", "cmd/otpc/otpc.go:showSecret", "cmd/secrets/secrets.go:showSecret", "cmd/secrets/secrets.go:remove"]}
{"id": "C232", "title": "A journal is a store for secrets", "statement": "What journal -w or -e leaves under a title is what secrets prints for that title. What is stored with secrets -s under a label is what journal prints for that label, and after secrets -r label journal does not find it any more. A journal that is exported with secrets -export and imported elsewhere with secrets -import shows the same entries.", "quantifier": "every journal, passphrase, title without white space around it in UTF-8, and text", "why_tests_cant": "All titles and texts, and two programs that must agree on what is in the store.", "anchors": ["cmd/journal/journal.go:writeNew", "cmd/journal/journal.go:editEntry", "cmd/journal/journal.go:showEntry", "cmd/secrets/secrets.go:addSecret", "cmd/secrets/secrets.go:showSecret", "cmd/secrets/secrets.go:remove", "cmd/secrets/secrets.go:exportStore", "cmd/secrets/secrets.go:importStore"]}
{"id": "C233", "title": "A change made with journal reaches the other copies", "statement": "When an entry is written with journal -w or changed with journal -e in one of two equal copies of a journal, and that copy is then merged into the other with secrets -merge, the other copy has the new text, too.", "quantifier": "every journal, passphrase, title and text", "why_tests_cant": "All journals and texts, and two programs that must agree on what a change is.", "anchors": ["cmd/journal/journal.go:editEntry", "cmd/journal/journal.go:writeNew", "cmd/secrets/secrets.go:merge", "common/store/secretstore.go:Merge"]}
{"id": "C234", "title": "Two users who have exchanged their keys can send each other messages", "statement": "After each of two users has imported, with fcrypt -import -u under a label in UTF-8, what the other wrote with fcrypt -export, for every non-empty file of at most 2000 MiB, with armour, and when each user's key store has the key for export in it: what one encrypts to the other with fcrypt -e -l ends up, after the other's fcrypt -d, as exactly the bytes of that file; what one signs with fcrypt -s the other's fcrypt -v with the label of the signer reports as valid; and what one signs and encrypts to a file the other decrypts, with the signer's label, to exactly these bytes and is told that the signature is valid.", "quantifier": "every pair of key stores that hold an export key, every pair of labels, every non-empty file of at most 2000 MiB, and every randomness", "why_tests_cant": "All key stores and files, and a sequence of four or more runs by two users.", "anchors": ["exp/fcrypt/fcrypt.go:exportVerified", "exp/fcrypt/fcrypt.go:importUntrusted", "exp/fcrypt/fcrypt.go:encryptTo", "exp/fcrypt/fcrypt.go:decrypt", "exp/fcrypt/fcrypt.go:sign", "exp/fcrypt/fcrypt.go:verify", "common/store/keystore.go:ImportUntrusted", "common/store/keystore.go:ExportSelf"]}
{"id": "C235", "title": "fcrypt fails when the label that is given with -l stands for no key", "statement": "When a label is given with -l that is not that of a key in the store, fcrypt -e, -e -s, -d of a message that is signed and encrypted, -export, -r (with the label as its argument) and -v each end with a status other than 0, and no file is changed.", "quantifier": "every key store, passphrase, label and input", "why_tests_cant": "All key stores and labels; what counts is that nothing at all is written.", "anchors": ["exp/fcrypt/fcrypt.go:encryptTo", "exp/fcrypt/fcrypt.go:signcryptTo", "exp/fcrypt/fcrypt.go:decrypt", "exp/fcrypt/fcrypt.go:exportVerified", "exp/fcrypt/fcrypt.go:removeKey", "exp/fcrypt/fcrypt.go:verify"]}
{"id": "C236", "title": "A code that was displayed from one copy of a token store is not displayed again after the copies are merged", "statement": "When an HOTP token is in two equal copies of a store, and codes are displayed with otpc from either or both, and then one copy is merged into the other with secrets -merge, every code that is displayed from then on is that of a counter for which neither copy has displayed one.", "quantifier": "every store, passphrase, key and counter, every number of displayed codes, and every time", "why_tests_cant": "All numbers of runs and all times; the copy that was used last need not be the one that was used most.", "anchors": ["cmd/otpc/otpc.go:showSecret", "cmd/secrets/secrets.go:merge", "common/store/secretstore.go:Merge"]}
{"id": "C237", "title": "What another program saves while secrets, otpc or journal is running is not lost", "statement": "When a store is changed by another program after secrets, otpc or journal has read it and before that run has ended with status 0, then what was saved in the store by the other program is still there afterwards, or the run ends with a status other than 0.", "quantifier": "every store, every command of the three programs that changes the store, and everything that other programs do to the files meanwhile", "why_tests_cant": "All interleavings of two programs and all changes the other one makes; the window lasts as long as a prompt or an editor is open.", "anchors": ["cmd/secrets/secrets.go:main", "cmd/secrets/secrets.go:loadStore", "cmd/secrets/secrets.go:writeStore", "cmd/otpc/otpc.go:main", "cmd/journal/journal.go:main"]}
{"id": "C238", "title": "Two runs of otpc on one HOTP token at the same time display different codes", "statement": "When two runs of otpc display a code of the same HOTP token of the same store, and both end with status 0, the codes are those of two different counters and the counter in the store is advanced by two, whether or not one run has begun before the other has ended.", "quantifier": "every store, passphrase, label, key and counter", "why_tests_cant": "All interleavings of two runs and all 2^64 counters.", "anchors": ["cmd/otpc/otpc.go:showSecret", "cmd/otpc/otpc.go:main"]}
{"id": "C239", "title": "otpc changes no entry but that of the token it is run for", "statement": "After otpc -s with a label in UTF-8 has ended with status 0, the store has a new entry under that label and all other entries are what they were. After otpc has displayed a code of a token, all entries but that of the token are what they were, and of that one at most the secret and the time have changed, or the file is unchanged. No other file is changed.", "quantifier": "every store, passphrase, label and token", "why_tests_cant": "All stores and all tokens that may be in them, however they came there.", "anchors": ["cmd/otpc/otpc.go:addSecret", "cmd/otpc/otpc.go:showSecret", "cmd/otpc/otpc.go:main"]}
{"id": "C240", "title": "No random byte is used twice", "statement": "Whatever secret.GenerateKey, secret.Encrypt, secret.EncryptFile, public.Encrypt, public.EncryptAndSign, public.LockKey, store.MarshalSecretStore, auth.NewGoogleTOTP (with a provider name below 1 GiB) and auth.ValidateSession are called with and in whatever order, and whether the calls succeed or fail: the nonces, salts, keys and session tokens in what they return or write are parts of the output of the PRNG in the order of the calls, and no byte of it is in two of them. So they are all different if the PRNG does not repeat itself.", "quantifier": "every sequence of calls, all their arguments, every PRNG stream, also one that ends", "why_tests_cant": "All sequences of calls; a nonce that is used twice shows in no test of a single call.", "anchors": ["common/secret/crypto.go:Encrypt", "common/secret/crypto.go:EncryptFile", "common/public/crypto.go:LockKey", "common/store/secretstore.go:MarshalSecretStore", "common/auth/session.go:ValidateSession"]}
{"id": "C241", "title": "Every store that is saved has a salt and a nonce of its own", "statement": "After a run of secrets (but -export and -import, which copy a store), otpc or journal, and after each step of a session of secretscli, whether it succeeds or not, every file (but the image of otpc -qr and the file that journal gives to the editor) is as it was or begins with a salt and a nonce that the PRNG has produced meanwhile. So all stores that are saved under a path by any number of runs of these programs have different salts and different nonces if the PRNG does not repeat itself, even if store and passphrase are the same.", "quantifier": "every sequence of runs and steps, all options, arguments, terminal inputs, states of the disk and failures of writes", "why_tests_cant": "All sequences of runs of four programs.", "anchors": ["cmd/secrets/secrets.go:writeStore", "cmd/secrets/secrets.go:initStore", "cmd/secretscli/secretscli.go:writeStore", "cmd/otpc/otpc.go:main", "cmd/journal/journal.go:main", "common/store/secretstore.go:MarshalSecretStore"]}
{"id": "C242", "title": "What other programs do to a key store while fcrypt is running is not lost", "statement": "When a run of fcrypt and another program use one key store at the same time, and both succeed, the store has the changes of both afterwards: a key that the other program has removed or a store that it has deleted does not come back.", "quantifier": "every key store, every change made by the other program after fcrypt has read the store, every command", "why_tests_cant": "The loss needs a certain order of the steps of two processes; tests run one program at a time.", "anchors": ["exp/fcrypt/fcrypt.go:493-593", "exp/fcrypt/fcrypt.go:53-90", "exp/fcrypt/fcrypt.go:111-127"]}
{"id": "C243", "title": "Stores are only ever written sealed under the passphrase that was typed", "statement": "Whatever secrets, otpc, journal and secretscli do, and however a run ends, every file is afterwards as it was before, or holds a store, or as much of one as was written before an error, that is sealed under the passphrase typed at the start of the run (after -passwd: the new one, which is not empty). The same goes for what is written to standard output when the store is -. Not meant are secrets -export and -import, the image of otpc -qr, and the file that journal gives to the editor.", "quantifier": "every run of every command, every answer, clock, PRNG and outcome of the write; every interleaving of a session of secretscli", "why_tests_cant": "That no error path and no order of commands saves a store in the clear or under another passphrase cannot be seen from finitely many runs.", "anchors": ["cmd/secrets/secrets.go:writeStore", "cmd/secrets/secrets.go:initStore", "cmd/secrets/secrets.go:main", "cmd/otpc/otpc.go:main", "cmd/journal/journal.go:main", "cmd/secretscli/secretscli.go:writeStore", "cmd/secretscli/commands.go:passwd", "common/store/secretstore.go:MarshalSecretStore"]}
{"id": "C244", "title": "fcrypt never loses or replaces the owner's private key", "statement": "Whatever a run of fcrypt does and however it ends, the key store keeps the owner's locked private key: the file is as it was, or holds a key store, or as much of one as was written before an error, with the same locked private key, byte for byte, and with the same public key or the one that belongs to that private key. After a run that succeeds, every passphrase that opened the private key opens it, to the same key.", "quantifier": "every command, all flags and arguments, every key store, passphrase, clock, PRNG and outcome of the write", "why_tests_cant": "All commands on all key stores with all failures; a private key that is lost or replaced on one path is not recovered.", "anchors": ["exp/fcrypt/fcrypt.go:493-593", "exp/fcrypt/fcrypt.go:111-127", "common/store/keystore.go:Unlock", "common/store/keystore.go:AddKey", "common/store/keystore.go:ImportVerifiedKey", "common/store/keystore.go:DumpKeyStore", "common/store/keystore.go:Lock"]}
{"id": "C245", "title": "The key server never loses or replaces its own key", "statement": "Whatever is asked of a key server, in whatever order, and however its writes end, the private key that it signs with, its public key and the statement about it that it hands out stay those with which it was started: the private key that the passphrase opened and the public key that belongs to it. Its file is as it was when the server started, or is a key store, or as much of one as was written before an error, with the same locked private key, byte for byte, and with that public key and that statement.", "quantifier": "every key store, passphrase, sequence of requests, order of steps of the three goroutines, clock and outcome of the writes", "why_tests_cant": "All interleavings of requests, audits and writes; one request that replaces the key would make every later answer worthless.", "anchors": ["exp/keysrv/keysrv.go:loadStore", "exp/keysrv/keysrv.go:process", "exp/keysrv/keysrv.go:keystoreDispatch", "common/store/keystore.go:ImportVerifiedKey", "common/store/keystore.go:DumpKeyStore", "common/store/keystore.go:Unlock"]}
{"id": "C246", "title": "The login program keeps nothing of a password but its hash", "statement": "Of the password with which a user registers, the login program keeps its hash by bcrypt with cost 14 and the salt that was drawn for it, and nothing else: the files, messages and exit status of a registration are the same for any two passwords that have the same hash, and are or are not too long for bcrypt. When the name is UTF-8, that hash is what the file holds for the name afterwards, and all other entries are as they were. Of what is typed to log in to an account with a password, the program uses only whether bcrypt accepts it; and when all accounts have passwords, a run in which users log in writes no file.", "quantifier": "every user file, name, password, sequence of types asked for before, salt, outcome of the writes, every hash function; every sequence of attempts to log in", "why_tests_cant": "That no path stores or prints a part of the password cannot be seen from some passwords; that two passwords with one hash cannot be told apart has no test, as no such passwords are known.", "anchors": ["common/auth/examples/login/login.go:regPassword", "common/auth/examples/login/login.go:register", "common/auth/examples/login/login.go:login", "common/auth/password.go:NewPasswordAuth", "common/auth/password.go:ValidatePassword"]}
