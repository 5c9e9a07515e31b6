# Formal model of kisom/cryptutils

## 1. Trusted base

* Lean 4.33.0's kernel. No axioms are declared in this project; there is no
  `sorry`, `admit`, `native_decide` or `bv_decide`. Every theorem depends at
  most on Lean's standard axioms `propext`, `Classical.choice` and
  `Quot.sound` (section 6 lists the theorems that use fewer).
* The reading of Go semantics written down in `Verif/Go/*` (section 2).
* The correspondence between /repo and `Verif/Model/*`. It is by reading: every
  model definition cites the file and lines it models and notes what it drops.
* Cryptography is a *parameter*, not an axiom: `Verif/Crypto.lean` declares a
  structure `Crypto` whose fields are the primitives and whose laws are
  functional facts that hold for the real primitives (opening inverts sealing,
  Diffie-Hellman commutes, signatures verify, output lengths). Every theorem is
  stated for all `Crypto`; a toy instance shows the laws are satisfiable.
  No computational-hardness claim (secrecy, unforgeability) is made anywhere;
  no theorem says that something cannot be guessed.
* Third-party and standard-library code is known only by its documented
  behaviour, its source not being in /repo. Where it is simple enough it is
  defined concretely (`Verif/Go/*`: base32, hex, decimal numbers, UTF-8
  checking, big-endian numbers, path cleaning, string trimming, URL escaping,
  package flag).
  Elsewhere it is a parameter, a structure with laws, and there is a toy
  instance for each:

| parameter | stands for | laws |
|---|---|---|
| `Crypto` | nacl box and secretbox, agl/ed25519, scrypt, HMAC, bcrypt | see `Verif/Crypto.lean` |
| `Printf` | fmt.Printf of a string without arguments | text without percent signs is printed as it is; two percent signs print one; a space flag and a lower-case verb print the MISSING error |
| `Json`, `KeyJson`, `UserJson` | encoding/json on the stores and the login database | decoding inverts encoding, up to the repair of strings that are not UTF-8; what decodes is finite and UTF-8; `UserJson`: no proper prefix of an encoding decodes |
| `Asn1`, `FilesAsn1` | encoding/asn1 on key statements and on packed directories | decoding inverts encoding; `FilesAsn1`: paths that are not UTF-8 cannot be encoded |
| `Pem`, `Armour` | encoding/pem | decoding inverts encoding; `Armour`: output begins with `-----BEGIN` |
| `Gzip` | compress/gzip | decompression inverts compression |
| `Yubi` | conformal/yubikey (`Ctr` uint16, `Use` uint8) | none |
| `TwoFactor` | gokyle/twofactor, and time.ParseDuration | codes exist for usual tokens; base32 keys and URLs are read back |
| `Case` | unicode.ToUpper | right on ASCII, idempotent |

## 2. How Go is modelled

| Go | model |
|---|---|
| `[]byte`, `string` | `List UInt8`; where nil matters, `Option (List UInt8)` |
| `*[n]byte` | `Option` of a list; `WT` says it has n elements |
| panic | third outcome `Res.panic`; it is an observable result |
| error values | an inductive type or `Bool`, as the caller can distinguish them |
| int32/int8/... conversions | `BitVec` or explicit wrap-around, not unbounded ints |
| slice re-slicing | visible bytes plus the spare capacity behind them |
| map | lookup function, with `Finite`/`Enumerates`; iteration order is an explicit argument over which theorems quantify |
| PRNG | a finite list of bytes; a read fails when it runs short |
| clock | an explicit argument, one per reading |
| shared memory | `Model/TlvMem`, `Model/SecretHeap`: explicit addresses, where aliasing is the point |
| goroutines, channels | small-step transition systems, all interleavings (`Model/Secretscli`, `Model/Keysrv`) |
| files | map from paths to contents; a save is truncate then append, and may stop after any byte |
| standard input | what successive `read` calls return, or the list of answers to the prompts |
| unbounded loops | fuel, `none` meaning still running; non-termination is "no amount of fuel suffices" |

## 3. Layout

* `Verif/Go/*` Go primitives (result type, endianness, hex, base32, text, paths, files)
* `Verif/Crypto.lean` crypto interface and toy instance
* `Verif/Model/*` the code, function by function
* `Verif/Spec/*` small specifications, independent of the model
* `Verif/Proofs/*` supporting lemmas
* `Verif/Props/*` the property theorems, each with a concrete `example`

Names: theorem `C05_...` belongs to property C05. `_partial` marks a theorem
that proves less than the property's statement. `_violated` marks a theorem
that refutes the statement (with a witness); then the code and the property
disagree, see section 5.

### What is modelled and what is not

| file in /repo | model | left out |
|---|---|---|
| common/tlv/tlv.go | Model/Tlv (values), Model/TlvMem (memory) | types `binary.Read` supports and no caller uses |
| common/util/util.go | Model/Util, Model/ReadLine, Go/Fs | VersionString, SetPRNG (the PRNG is a parameter); PassPrompt is an answer at a prompt |
| common/secret/crypto.go | Model/Secret | |
| common/public/crypto.go | Model/Public | |
| common/auth/totp.go | Model/Auth, Model/TotpUrl | drawing the QR code (rsc.io/qr, a parameter) |
| common/auth/yubikey.go, session.go, password.go, authenticator.go | Model/Auth | |
| common/auth/examples/login/login.go | Model/Login, Model/LoginOutput, Model/CommandLine | regYubiKey (never called), texts of errors of other packages |
| common/store/secretstore.go | Model/SecretStore, Model/SecretHeap | |
| common/store/keystore.go | Model/KeyStore, Model/FcryptOutput | errors reading a file that exists; messages of the functions that fcrypt does not call |
| cmd/secrets | Model/Secrets, Model/SecretsOutput, Model/SecretsErrors, Model/CommandLine | prompts of package readpass |
| cmd/secretscli | Model/Secretscli, Model/SecretscliHelp, Model/SecretscliTwo, Model/SecretscliTime, Model/SecretscliOutput, Model/SecretscliErrors, Model/CommandLine | time.ParseDuration, the prompts of package readpass, signals |
| cmd/journal | Model/Journal, Model/JournalOutput, Model/JournalErrors, Model/CommandLine | what the editor prints (it is any program that changes the file), the prompts of package readpass |
| cmd/otpc | Model/Otpc, Model/OtpcDisplay, Model/OtpcOutput, Model/OtpcErrors, Model/CommandLine | prompts of package readpass |
| cmd/passcrypt | Model/Passcrypt, Model/PasscryptWalk, Model/PasscryptOutput, Model/PasscryptErrors, Model/CommandLine | prompts of package readpass; files that change during a walk |
| cmd/migrate-store | Model/Migrate, Model/MigrateOutput, Model/MigrateErrors, Model/CommandLine | the prompt of package readpass |
| exp/fcrypt | Model/Fcrypt, Model/FcryptOutput, Model/CommandLine | prompts of package readpass |
| exp/keysrv | Model/Keysrv, Model/KeysrvHttp, Model/KeysrvLog, Model/CommandLine | TLS, the syntax of HTTP messages |
| exp/rocli | nothing to model: it prints that it is archived | |

Not modelled anywhere: memory the garbage collector may keep, timing side
channels, running out of memory, overflow of `len`, signals, permission checks
of the operating system (except in walks of passcrypt, where any may fail), and two processes working on one file other than two
sessions of secretscli (C155).

## 4. Properties: what is modelled, how proved

| property | modelled | proof |
|---|---|---|
| C01-C07 TLV | whole of tlv.go over buffers with spare capacity | induction over the value sequence; case analysis of Decode per tag |
| C08, C09 util | RandBytes, NewNonce, Zero | case analysis on PRNG length |
| C10-C15 secret | secret/crypto.go, files and crash points | from the Crypto laws |
| C16-C27 public | public/crypto.go incl. nil pointers and panics | from TLV results and Crypto laws |
| C28-C33 TOTP | totp.go with concrete base32, decimal formatting, truncation | arithmetic |
| C34-C37, C88 YubiKey | yubikey.go over an abstract token decoder | invariant over histories |
| C38-C41, C89 session | session.go | induction over rounds; invariant over histories |
| C42-C44 password, dispatch | password.go, authenticator.go | case analysis |
| C45-C55 secret store | secretstore.go, value model and heap model | refinement to a finite map, permutation invariance, semilattice laws |
| C56-C67, C90-C94, C105 key store | keystore.go, chain walk with explicit map order | invariant over histories, induction on the walk |
| C84, C85 encoder memory | slices and arrays with growth policy as parameter | invariant over the arrays allocated |
| C86, C87 keys | key exchange, PrivateKey.Zero | Crypto laws |
| C68, C80, C95-C99, C106 secrets | the program as a function of flags, answers, clock, PRNG and files | symbolic execution lemmas, induction over scripts |
| C69-C71, C119-C123 secretscli | commands and the two goroutines | transition-system invariants over all interleavings, progress measures |
| C154 secretscli help | the tables of help.go and the dispatch table | case analysis over the tables |
| C155 two sessions | two processes that share the files, in any order | each step is a function of the files that writes one of them blindly |
| C163-C168 command lines | programs as functions of the words of a command line; grammar of package flag (Go/Flag) | parser equals grammar; induction over the words |
| C202-C205 standard error of secrets | the calls of util.Errorf in order, beside the program | case analysis of all runs; counting warnings over the loop of -multi |
| C224, C225 refusals of secrets | the same | symbolic execution; induction over the answers |
| C227, C228, C230 secrets, secretscli and migrate-store on one store | the models of these programs, one after the other on the same files | composition of the theorems on each; induction over the words typed |
| C231-C233 secrets on the stores of otpc and journal | the models of these programs, one after the other on the same files | composition of the theorems on each |
| C234, C235 fcrypt, one user and two | the model of fcrypt, run by one user and then by the other | composition of the theorems on each command |
| C236 otpc and secrets on two copies of a token | the models of these programs, one after the other on the same files | induction over the codes displayed; counters as 64-bit words |
| C237, C238 programs at the same time | Model/Meanwhile: the mains of secrets, otpc and journal, with an arbitrary change of the files after the store has been read | frame lemmas: no command looks at the store file again |
| C239 otpc and the other entries | Model/Otpc | record by record from `main_store` and `show_hotp`; witness of two entries for the violation |
| C240, C241 random bytes | Model/Secret, Public, Auth, SecretStore and the mains of the store programs | the values of a run are consecutive segments of the PRNG stream (`Took`), by composition |
| C242 key stores in use by several programs | exp/fcrypt/fcrypt.go, changes of files between reading and writing | frame of the commands, witness with two runs |
| C243 what stores are sealed under | cmd/secrets, cmd/otpc, cmd/journal, cmd/secretscli, common/store/secretstore.go | the passphrase followed through every command, induction on sessions, witness from C69 |
| C244 the owner's private key | exp/fcrypt/fcrypt.go, common/store/keystore.go | locked key and public key followed through every command that writes, witness by export over the store |
| C245 the server's own key | exp/keysrv/keysrv.go, common/store/keystore.go | everything but the keys on record followed through every step of a run |
| C246 what is kept of a password | common/auth/examples/login/login.go, common/auth/password.go | two runs with different passwords compared; hash in the stored record; no write while users log in with passwords |
| C229 fcrypt and keysrv | the models of these programs; what one writes is the input of the other | composition of the theorems on each |
| C226 numbers typed at otpc | strconv.Atoi on bytes | parser equals grammar |
| C206-C209 standard error of secretscli | runs that carry what was written, beside the steps of the process | a run in which nothing is said of a failed write is a run on a disk that never fails; then C69 |
| C210-C214 standard error of journal | a list of lines beside the model of each function | cases on where the run stops; the editor fails, or its file cannot be made or read |
| C219-C221 standard error of passcrypt | the reason for stopping beside each function | cases on where the run stops, comparison of two runs, induction over visits and entries |
| C222, C223 standard error of migrate-store | the same | induction over the files |
| C215-C218 standard error of otpc | a list of lines beside the model of each function | cases on where the run stops |
| C169-C174 output of secrets | standard output as a function of the same inputs as the run | equations for the text; relation between two runs; lines and items can be told apart |
| C175-C178 output of passcrypt | the same | the same; relation between two disks of the same shape |
| C179-C180 output of otpc | twofactor, JSON, crypto as parameters | case analysis over all runs; concrete worlds |
| C181-C183 output of journal | program with an arbitrary editor | comparison of two runs, unique decoding; concrete worlds |
| C184 Decoder.Zero | memory-level decoder | invariant over Decode calls, refinement of the value level |
| C188 output of migrate-store | program as a function to text | induction over files |
| C189, C190 output of the login example | program as a function to pieces of text | case analysis of errors, invariant over turns |
| C194 audit | key store as in C57, fcrypt -check and its output as in C191 | induction on the chain: the walk from a trusted record never ends in a refusal |
| C195 wiped session | session with the memory its key lives in, as C89 | computation on arrays |
| C196-C198 log of keysrv | messages of each step of the transition system of C135-C142, text as package log writes it | invariant over runs, induction over the log; a date has a slash and a label has none |
| C199-C201 permissions | modes of files beside the files of the other models: a new file gets the mode given less the umask, an old one keeps its mode | the theorems about the content, and bits |
| C191-C193 output of fcrypt | program as a function to pieces of text on two streams, beside the program | case analysis of the commands, simulation between program and texts; the two models print the same standard output (Proofs/FcryptStdout) |
| C185-C187 output of secretscli | command as a function from state to text | comparison of two states, induction over labels and lines |
| C161, C162 secretscli in time | runs with a clock, a timer and times at which input is typed | invariant over timed runs |
| C72, C73, C113-C118 journal | program with an arbitrary editor; any sorting gives what the model's gives (Proofs/Sorting) | case analysis, invariants |
| C74, C75, C107-C112 otpc | program and display loops in time | case analysis, arithmetic on clock readings, induction over turns |
| C76-C78, C102-C104, C160 passcrypt | archive walk and unpacking over a file tree | induction over the tree and the archive |
| C79, C101 migrate | old and new format | round trip |
| C83, C124-C134 fcrypt | program as a function | case analysis over the key store results |
| C81, C82, C135-C142 keysrv | handlers, dispatcher, auditor and timers as a transition system; start-up | invariants over runs, deadlock freedom |
| C100 ReadLine | buffered reader over arbitrary read boundaries | induction over the chunks |
| C143-C150 login | program as a function of typed lines | loop invariants, splitting runs at a turn |
| C156-C159 keysrv URLs | request targets, their decoding, cleaning and matching against the routes | parsing back, idempotence of cleaning |
| C151-C153 TOTP URL | generateURL with concrete escaping | parsing back, induction over bytes |

## 5. Disagreements between code and property

Each line is a theorem: the property as stated does not hold of the code. What holds instead is in the `_partial` theorems, see MANIFEST.json.

* **C02 TLV empty byte strings are consumed** (common/tlv/tlv.go:Decoder.Decode, common/tlv/tlv_test.go:TestZeroLengthBuffer)
  * `C02_empty_not_consumed_violated`: An empty byte-string record is never consumed, so every later `Decode`, whatever its target, reports success and changes nothing.
  * `C02_roundtrip_violated`: The round trip of C01 fails as soon as something follows an empty byte string: the value after it is silently not read.
* **C05 TLV decode never panics on untrusted bytes** (common/tlv/tlv.go:Decoder.Decode)
  * `C05_panics_violated`: For every supported target type there is a five-byte buffer on which `Decode` panics.
* **C06 TLV decode stays inside the record** (common/tlv/tlv.go:Decoder.Decode)
  * `C06_overread_violated`: An integer record with declared length 0 is accepted and yields bytes that belong to the next record (which is then read again), or even bytes beyond the end of the buffer, in the spare capacity of the slice.
* **C13 DecryptFile never panics** (common/secret/crypto.go:DecryptFile)
  * `C13_panics_violated`: `DecryptFile` panics exactly on files shorter than 32 bytes.
* **C14 Saving is atomic under crashes** (common/secret/crypto.go:EncryptFile, common/util/util.go:WriteFile)
  * `C14_not_atomic_violated`: While a store with any passphrase and content is saved over any non-empty file, there is a point where a crash leaves a file that is neither version and on which `DecryptFile` panics, whatever the passphrase.
* **C17 Malformed private keys are rejected** (common/public/crypto.go:UnmarshalPrivate)
  * `C17_zero_key_violated`: A single empty byte-string record, followed by anything, is accepted as a private key, and the result is the all-zero key (which counts as valid).
  * `C17_trailing_violated`: C17 is false in a second way: anything may follow a serialised key.
  * `C17_panic_violated`: C17 is false in a third way: a hostile length crashes the program.
* **C18 Public-key encryption round trip** (common/public/crypto.go:Encrypt, common/public/crypto.go:Decrypt)
  * `C18_long_message_violated`: C18 is false for long messages: encrypting a message of 2 GiB or more succeeds, and decrypting the result crashes.
  * `C18_empty_message_violated`: C18 is false for the empty message: encryption succeeds and decryption refuses the result, for every key pair.
* **C19 Signed encryption round trip** (common/public/crypto.go:EncryptAndSign, common/public/crypto.go:DecryptAndVerify)
  * `C19_long_message_violated`: C19 is false for long messages: `EncryptAndSign` takes a message of 2 GiB or more, and `DecryptAndVerify` crashes on the result.
  * `C19_empty_message_violated`: C19 is false for the empty message.
* **C22 Hostile ciphertexts cannot crash the recipient** (common/public/crypto.go:Decrypt, common/public/crypto.go:DecryptAndVerify)
  * `C22_hostile_ciphertext_violated`: From the public key alone (and 56 random bytes) anyone can make a ciphertext on which the recipient's `Decrypt` and `DecryptAndVerify` panic.
* **C23 Key generation yields a usable key** (common/public/crypto.go:GenerateKey)
  * `C23_generate_violated`: With enough randomness `GenerateKey` always panics.
* **C26 Public-key encryption fails closed on PRNG failure** (common/public/crypto.go:Encrypt, common/public/crypto.go:EncryptAndSign)
  * `C26_panic_violated`: If the PRNG dies between the ephemeral key and the nonce, encryption panics instead of failing.
* **C28 TOTP configuration round trip** (common/auth/totp.go:TOTPConfig.Bytes, common/auth/totp.go:ParseTOTPConfig)
  * `C28_empty_key_violated`: C28 is false for an empty key: whatever the configuration, all-zero comes back.
  * `C28_hash_violated`: C28 is false for hash numbers above 127: SHA3-256 would do as number 10, but 200 becomes a number that names no hash.
  * `C28_size_violated`: C28 is false for a size that does not fit 32 bits: 6 + 2^32 digits become 6.
* **C31 A TOTP code is accepted at most once** (common/auth/totp.go:ValidateTOTP)
  * `C31_replay_violated`: With two different valid codes p (previous step) and q (current step), p, q, p are all accepted, because only the latest accepted code is remembered.
* **C32 TOTP validation never panics** (common/auth/totp.go:ValidateTOTP, common/auth/totp.go:generateOTPAt)
  * `C32_empty_key_violated`: An authenticator imported from an empty key panics on every code but the remembered one.
* **C33 Google TOTP import** (common/auth/totp.go:ImportGoogleTOTP, common/auth/totp.go:ExportUserTOTP)
  * `C33_empty_key_violated`: C33 is false for an empty key: its secret does not parse to the documented settings.
* **C37 A YubiKey OTP is accepted at most once** (common/auth/yubikey.go:ValidateYubiKey, common/auth/yubikey.go:getTokenCounter)
  * `C37_replay_violated`: Two OTPs from one insertion of the YubiKey can be replayed in turn without end, because the use counter is lost and only the very last OTP is remembered.
* **C38 Session completeness** (common/auth/session.go:NewSession, common/auth/session.go:KeySession)
  * `C38_no_session_violated`: C38 is false of the whole program: no call of `NewSession` ever returns an authenticator, so that no client is accepted by a server that uses it.
* **C41 Session setup works** (common/auth/session.go:NewSession, common/public/crypto.go:GenerateKey)
  * `C41_setup_violated`: Whatever the peer key, with a working PRNG `NewSession` crashes.
* **C43 bcrypt cost range** (common/auth/password.go:NewPasswordAuth)
  * `C43_low_cost_violated`: C43 is false for 4 to 7: the documented minimum is 8, but these are used as given.
* **C45 Secret store round trip** (common/store/secretstore.go:MarshalSecretStore, common/store/secretstore.go:UnmarshalSecretStore)
  * `C45_violated`: With a label that is not UTF-8 the reopened store lacks the label.
  * `C45_collision_violated`: Two labels that are not UTF-8 become one label in the file, and a secret is lost.
* **C47 Marshalling twice keeps the data** (common/store/secretstore.go:MarshalSecretStore, cmd/secretscli/secretscli.go:writeStore)
  * `C47_violated`: The store left by a save is still valid, and a second save succeeds: the second file opens under the passphrase of zero bytes, with every secret zeroed. So saving twice loses everything.
* **C49 UpdateSecret touches one secret** (common/store/secretstore.go:SecretStore.UpdateSecret)
  * `C49_violated`: A file in which a label maps to `null` opens as a valid store that has the label, and updating it panics.
* **C51 Merge keeps the newest record** (common/store/secretstore.go:SecretStore.Merge, common/store/secretstore.go:SecretRecord.Merge)
  * `C51_list_violated`: The list names the label inside the record, not the one it is stored under.
  * `C51_null_violated`: A nil record in the other store makes Merge panic.
* **C53 Stores do not share memory** (common/store/secretstore.go:SecretStore.Merge, common/store/secretstore.go:SecretStore.AddRecord)
  * `C53_merge_violated`: After `a.Merge(b)`, wiping `b` wipes in `a` every record taken from `b`.
  * `C53_add_violated`: AddRecord keeps the caller's buffer and map: writing to them afterwards changes the store.
  * `C53_update_violated`: Two stores that share a record after a merge: updating the secret in one changes the other.
* **C55 Opened secret stores are valid** (common/store/secretstore.go:UnmarshalSecretStore, common/store/secretstore.go:SecretStore.Valid)
  * `C55_violated`: An authenticated file whose JSON lacks the fields opens "successfully" as an invalid store: it cannot be saved, and merging anything into it panics.
* **C57 Chain verification is sound** (common/store/keystore.go:VerifyChain, common/store/keystore.go:KeyAudit)
  * `C57_self_record_violated`: A file with a record under "self" makes keys signed by whoever wrote the file verify, and the audit of the loaded store succeeds, though no chain leads to the owner. This is for every attacker's pair, owner and key `pk`, as long as the attacker's signature is not also one by the owner.
* **C58 Chain verification terminates** (common/store/keystore.go:VerifyChain, common/store/keystore.go:KeyAudit)
  * `C58_self_signed_violated`: C58 is false for loaded stores: with a stored key that is signed by itself VerifyChain and KeyAudit run for ever, whatever the iteration orders.
  * `C58_duplicate_key_violated`: C58 is false for stores built with the package: add A's key as "a", import B's key signed by A as "b" and A's key signed by B as "c"; then there are iteration orders for which VerifyChain("c") never returns. (With Go's random orders it returns with probability one, but no bound on the number of turns holds.)
* **C59 Imports are signature checked** (common/store/keystore.go:ImportVerified, common/store/keystore.go:ImportVerifiedKey)
  * `C59_wrong_label_violated`: C59 is false for a store in which a record is stored under a label that is not its own: a key whose statement names the signer A, but that A never signed, is accepted on a signature by B.
* **C60 Imported keys are usable keys** (common/store/keystore.go:ImportVerified, common/store/keystore.go:AddKey)
  * `C60_imported_junk_violated`: Whatever bytes a trusted key signs are imported as a key; unless they happen to be 64 bytes EncryptTo and Verify then fail for that label.
* **C61 Signed key statements are unambiguous** (common/store/keystore.go:VerifiedKey.SignatureData, common/store/keystore.go:IsSelfSigned)
  * `C61_shifted_violated`: Bytes can be moved between the key and the signer.
* **C64 Locking never loses the key** (common/store/keystore.go:Lock, common/store/keystore.go:DumpKeyStore)
  * `C64_lock_loses_violated`: After Lock on a store that was never locked with a passphrase, no passphrase unlocks it.
  * `C64_failed_lockWith_violated`: The same happens after a LockWith that failed for want of random bytes, even if the store had been locked with a passphrase before.
  * `C64_dump_loses_violated`: DumpKeyStore on a new store writes a file without the private key; the store loaded from it says it is unlocked, and cannot sign.
* **C65 Key store messages round trip** (common/store/keystore.go:EncryptTo, common/store/keystore.go:Decrypt)
  * `C65_long_message_violated`: C65 is false of messages of 2 GiB and more: EncryptTo takes them, and Decrypt crashes on the result.
  * `C65_long_signed_violated`: C65 is false of long messages also when they are signed.
* **C66 Operations on a loaded key store do not panic** (common/store/keystore.go:LoadKeyStore, common/store/keystore.go:getPublic)
  * `C66_null_record_violated`: A file with a null record loads, and Verify and EncryptTo for its label panic.
  * `C66_no_private_key_violated`: A file without a private key loads as unlocked, and Verify for "self" panics.
  * `C66_missing_label_violated`: VerifyKeySignature panics for every label that is not there, on every valid store.
* **C67 Exported keys can be imported by those who trust the exporter** (common/store/keystore.go:ExportVerified, common/store/keystore.go:ImportVerifiedKey)
  * `C67_empty_label_violated`: A store that holds the exporter's key under the empty label (AddKey allows it) refuses everything the exporter signed.
* **C68 secrets never overwrites silently** (cmd/secrets/secrets.go:addSecret, cmd/secrets/secrets.go:multi)
  * `C68_alias_violated`: Without -w, `secrets -s` with the label "\xff" replaces the secret stored under U+FFFD: the label is new, but in the file it is the same label, and the last one wins.
* **C69 secretscli keeps what was stored** (cmd/secretscli/commands.go:cmdWriteStore, cmd/secretscli/secretscli.go:writeStore)
  * `C69_wiped_violated`: After `write` in a changed session, the session goes on with a store in which every secret, every value of the metadata and the passphrase are zeros. If anything is changed after that, this is what the file holds in the end.
  * `C69_violated`: "store b", "write", "store c" and "quit" are typed, nothing goes wrong, and the file can then be opened with a passphrase of two zero bytes, the secrets "a" and "b" are zeros, and the passphrase of the session opens the file only if it gives a box that the other one gives too.
* **C70 secretscli passwd is persistent** (cmd/secretscli/commands.go:passwd, cmd/secretscli/secretscli.go:shutdown)
  * `C70_unsaved_violated`: A session without `store` and `wmeta` leaves the file alone, whatever passwords were set with passwd, and even if `write` was used.
  * `C70_violated`: "passwd" and "quit" are typed, the new password is confirmed, and nothing goes wrong: the file stays as it was and opens with the old passphrase, and with the new one only if both give the same box.
* **C71 secretscli command loop** (cmd/secretscli/secretscli.go:readCommands, cmd/secretscli/secretscli.go:inputLoop)
  * `C71_written_violated`: A session whose passphrase is not the one that it began with ends with quit, all is well, and no file is written.
* **C72 journal never overwrites an existing entry with a new one** (cmd/journal/journal.go:writeNew)
  * `C72_retitle_violated`: Told that the title is taken, the user says no and enters it again, or any other title that is taken: the entry is replaced without further question.
* **C73 journal lists every entry** (cmd/journal/journal.go:listEntries)
  * `C73_same_second_violated`: Of two entries with the same timestamp one is listed twice and the other not at all.
* **C74 otpc can show what it stored** (cmd/otpc/otpc.go:addSecret, cmd/otpc/otpc.go:showSecret)
  * `C74_totp_violated`: A TOTP is stored, all defaults accepted, and status 0 and a code reported; then the token cannot be displayed.
  * `C74_label_violated`: The same with a Google token and the label "\xff".
* **C76 passcrypt directory permissions** (cmd/passcrypt/passcrypt.go:dirPerm)
  * `C76_directories_violated`: For a file that some class may execute every directory created on the way to it has other permissions, unless the umask takes write and search permission from some class.
* **C77 passcrypt unpacks only below the output directory** (cmd/passcrypt/passcrypt.go:unpackFiles, cmd/passcrypt/passcrypt.go:unpackFile)
  * `C77_escapes_violated`: Whatever the output directory (other than the root), an archive with an entry "../x" replaces or creates the file x beside it, and unpacking reports success.
* **C78 passcrypt restores file contents** (cmd/passcrypt/passcrypt.go:unpackFile)
  * `C78_stale_violated`: If a longer file was there, its end remains.
* **C81 keysrv only publishes chained keys** (exp/keysrv/keysrv.go:process, exp/keysrv/keysrv.go:checkUpload)
  * `C81_self_record_violated`: C81 is false of a file with a record called "self": the server comes up, holds and publishes a key that has no chain to its own.
* **C82 keysrv persists uploads** (exp/keysrv/keysrv.go:keystoreDispatch)
  * `C82_busy_violated`: For any length of time, a server that has accepted a key and is then asked for its own key every five minutes has not written anything to its file.
* **C85 Zero wipes every copy the encoder made** (common/tlv/tlv.go:Encoder.Zero, common/tlv/tlv.go:Encoder.Encode)
  * `C85_zero_misses_copies_violated`: C85 is false, however the runtime grows slices: when the buffer outgrows its array, the old array keeps a copy of the data and `Zero` does not reach it. For every value there is a second one after which this happens to the first.
* **C87 Zeroing a private key** (common/public/crypto.go:PrivateKey.Zero)
  * `C87_zero_twice_violated`: `Zero` panics on a key that has no secrets any more, in particular when it is called a second time.
* **C88 YubiKey tokens are accepted in order** (common/auth/yubikey.go:getTokenCounter, common/auth/yubikey.go:ValidateYubiKey)
  * `C88_use_counter_violated`: A token from earlier in the same insertion (same insertion count, smaller use count) is accepted after a later one.
* **C89 Session.OTP leaves the caller's memory alone** (common/auth/session.go:Session.OTP)
  * `C89_otp_memory_violated`: If the challenge is the front part of a larger buffer, computing the answer overwrites the 32 bytes behind it.
* **C90 A failing LockWith changes nothing** (common/store/keystore.go:LockWith)
  * `C90_lockWith_violated`: When the random source fails, LockWith wipes the locked key kept in the store.
* **C91 Signatures on messages do not vouch for keys** (common/store/keystore.go:Sign, common/store/keystore.go:ImportVerified)
  * `C91_sign_forges_violated`: A signature that the owner makes with Sign, on a message anybody can compose, is accepted as the owner vouching for a key.
* **C92 FindPublic finds exactly the holder of a key** (common/store/keystore.go:FindPublic)
  * `C92_find_violated`: C92 is false for a loaded store with a nil record, on which FindPublic panics, and for one whose record is stored under a label that is not its own, for which it returns that label.
* **C93 Key store file round trip** (common/store/keystore.go:DumpKeyStore, common/store/keystore.go:LoadKeyStore)
  * `C93_not_utf8_violated`: Labels that are not UTF-8 are lost.
* **C96 secrets -init does not destroy a store** (cmd/secrets/secrets.go:initStore)
  * `C96_init_violated`: `secrets -init` on the path of an existing store replaces it by an empty one, without being asked to.
* **C97 secrets always terminates** (cmd/secrets/secrets.go:removeMeta, cmd/secrets/secrets.go:multi)
  * `C97_eof_violated`: If the input ends before an empty line, `secrets -r -m label` runs for ever.
* **C98 What secrets -multi accepted is saved** (cmd/secrets/secrets.go:multi, cmd/secrets/secrets.go:main)
  * `C98_eof_violated`: If the input ends after a secret was accepted, nothing is saved: the program exits with an error although no operation on the file failed.
* **C99 secrets does not panic** (cmd/secrets/secrets.go:showSecret, cmd/secrets/secrets.go:addSecret)
  * `C99_null_violated`: A null record in the file makes `secrets label` panic.
  * `C99_nil_map_violated`: A file whose store is null makes `secrets -s label` panic, after the password was typed.
* **C100 ReadLine returns the lines of standard input** (common/util/util.go:ReadLine)
  * `C100_pipe_violated`: When one read returns two lines, as it does when the input is a pipe or a file, the second is lost: the next call fails.
  * `C100_dropped_violated`: In general whatever was read together with a newline is lost.
* **C101 A failed migration is reported and leaves the file as it was** (cmd/migrate-store/migrate-store.go:migrateStore, cmd/migrate-store/migrate-store.go:main)
  * `C101_disk_full_violated`: When the disk fills up during the write, the store is lost: what is left is a strict prefix of the new file, and for a write that stops at once it is an empty file, on which both readers panic.
  * `C101_short_violated`: A file shorter than a salt makes the program panic instead of reporting an error.
* **C104 passcrypt packs everything or fails** (cmd/passcrypt/passcrypt.go:packFiles)
  * `C104_errors_ignored_violated`: An error reported by the walk, such as a directory that cannot be read, makes no difference to anything passcrypt does.
  * `C104_unreadable_violated`: Nothing but the directory a cannot be read; passcrypt reports success, and the archive is without the file a/b.
* **C107 otpc -s never replaces a token** (cmd/otpc/otpc.go:addSecret, cmd/otpc/otpc.go:main)
  * `C107_alias_violated`: Storing a token under "\xff" replaces the one under U+FFFD.
* **C108 otpc displays each HOTP code at most once** (cmd/otpc/otpc.go:showSecret, cmd/otpc/otpc.go:printHOTP)
  * `C108_repeat_violated`: Saving fails, so that the next run displays the same code again.
* **C109 otpc -init creates an empty store and destroys none** (cmd/otpc/otpc.go:initStore, cmd/otpc/otpc.go:main)
  * `C109_init_violated`: `otpc -init` on the path of an existing store replaces it by an empty one, without being asked to; and the empty passphrase is as good as any.
* **C111 The Google authenticator code on the screen is current** (cmd/otpc/otpc.go:printGTOTP)
  * `C111_late_violated`: One wait ends a millisecond late, and for the whole of the next period the code on the screen is the old one.
* **C113 A journal entry is found under the title it was written with** (cmd/journal/journal.go:writeNew, cmd/journal/journal.go:newEntry)
  * `C113_spaces_violated`: `journal -w " b"` followed by `journal " b"` does not show the entry: the title is stored without the space.
  * `C113_utf8_violated`: A title that is not UTF-8 is not found either.
  * `C113_yes_violated`: Told that there is an entry "a", the user of `journal -w " a"` accepts to edit it; journal then says that there is none.
* **C115 Looking at a journal entry in the editor does not change it** (cmd/journal/journal.go:editEntry)
  * `C115_full_disk_violated`: If the temporary file cannot be written, as when the disk is full, the editor is started all the same, on an empty file; leaving it without doing anything replaces the entry by nothing.
* **C117 journal -init creates an empty journal and destroys none** (cmd/journal/journal.go:initStore, cmd/journal/journal.go:main)
  * `C117_init_violated`: `journal -init` on the path of an existing journal replaces it by an empty one, without being asked to; and the empty passphrase is as good as any.
* **C119 A write that failed can be repeated** (cmd/secretscli/secretscli.go:writeStore, cmd/secretscli/commands.go:cmdWriteStore)
  * `C119_violated`: "store b" is typed, then "write", which fails because the file cannot be opened, and then "quit". By then the file can be opened again, and it is overwritten: it opens with a passphrase of two zero bytes, and the secrets are zeros.
* **C120 secretscli loses no entry and its entries carry their labels** (cmd/secretscli/commands.go:storeSingleSecret, cmd/secretscli/commands.go:writeMeta)
  * `C120_violated`: `store` with a new label makes a record that does not carry the label: it carries none.
* **C121 secretscli lists the labels that match** (cmd/secretscli/commands.go:listSecrets, cmd/secretscli/commands.go:dumpKeys)
  * `C121_violated`: Whatever the width of the terminal, there are two labels that `list` runs together into one word: those that are just as long as a column is wide.
* **C123 secretscli reads and writes the same file** (cmd/secretscli/secretscli.go:writeStore, cmd/secretscli/secretscli.go:main)
  * `C123_dash_violated`: With "-f -", the store is read from a file called "-", and written to the terminal: no file changes, whatever the user does.
  * `C123_violated`: "store b" and "quit" with "-f -": the new store goes to the terminal.
* **C124 The first run of fcrypt makes a key store** (exp/fcrypt/fcrypt.go:loadStore, exp/fcrypt/fcrypt.go:main)
  * `C124_first_run_violated`: When there is no key store, every command panics (the private key is generated by a function that always does), or fails if there is not enough randomness for two keys; no file is written.
* **C125 fcrypt decrypts what it encrypted** (exp/fcrypt/fcrypt.go:encryptFile, exp/fcrypt/fcrypt.go:decryptFile)
  * `C125_notice_violated`: C125 is false of standard output when the key store has no export key: a notice precedes the file.
  * `C125_empty_file_violated`: C125 is false of the empty file: it can be encrypted, but what comes out cannot be decrypted.
  * `C125_long_file_violated`: C125 is false of files of 2 GiB and more: they can be encrypted, but decrypting what comes out crashes.
  * `C125_unlucky_violated`: C125 is false of output without armour that begins like armour, as it does for some ephemeral keys: it is then taken for armour.
* **C126 fcrypt decrypts what it signed and encrypted** (exp/fcrypt/fcrypt.go:cryptSignFile, exp/fcrypt/fcrypt.go:decryptFile)
  * `C126_stdout_violated`: C126 is false of standard output: the message is preceded by "Valid signature.".
  * `C126_empty_file_violated`: C126 is false of the empty file.
  * `C126_long_file_violated`: C126 is false of files of 2 GiB and more: they can be signed and encrypted, but not decrypted.
* **C127 What fcrypt says about a signature** (exp/fcrypt/fcrypt.go:verifyFile, exp/fcrypt/fcrypt.go:signFile)
  * `C127_status_violated`: C127 is false of the exit status: it is 0 for invalid signatures as well.
* **C128 fcrypt reports failed writes** (exp/fcrypt/fcrypt.go:cryptSignFile, exp/fcrypt/fcrypt.go:writeStore)
  * `C128_signed_violated`: C128 is false of -s with -e: if the output file cannot be opened nothing is written, and the exit status is 0.
* **C129 The files that fcrypt changes** (exp/fcrypt/fcrypt.go:main, exp/fcrypt/fcrypt.go:writeStore)
  * `C129_torn_violated`: C129 is false of writes that fail half way: when a key is removed and the disk is full, fcrypt reports an error but the key store file is left with a part of its contents, or none.
* **C130 The keys fcrypt imports** (exp/fcrypt/fcrypt.go:importVerified, exp/fcrypt/fcrypt.go:importUntrusted)
  * `C130_not_utf8_violated`: C130 is false of labels that are not UTF-8: the import succeeds and the file is replaced, but whatever key store is read from it has nothing under that label.
  * `C130_unread_violated`: C130 is false of -u: when the answer cannot be read the key is not imported, but fcrypt exits with status 0, having replaced the key store by one with the same keys.
* **C131 Removing a key with fcrypt** (exp/fcrypt/fcrypt.go:removeKey, exp/fcrypt/fcrypt.go:main)
  * `C131_dangling_violated`: C131 is false of keys that others depend on: after the key that vouches for another was removed, fcrypt -check no longer accepts the key store.
* **C132 Exported keys can be imported** (exp/fcrypt/fcrypt.go:exportSelf, exp/fcrypt/fcrypt.go:exportVerified)
  * `C132_unexported_violated`: C132 is false of key stores that hold no key to export: -export reports an error until -check has been run, which makes one.
* **C133 What fcrypt -check accepts** (exp/fcrypt/fcrypt.go:checkStore, common/store/keystore.go:KeyAudit)
  * `C133_self_record_violated`: C133 is false of files with a record under "self": whoever wrote the file can have fcrypt -check accept a key that the owner never vouched for.
  * `C133_hang_violated`: C133 is false of files with a key signed by itself: fcrypt -check does not end.
* **C135 An uploaded key is published as uploaded** (exp/keysrv/keysrv.go:checkUpload, exp/keysrv/keysrv.go:process)
  * `C135_labels_violated`: C135 is false of files that keep a record under another's label: the server comes up with such a file; a key is uploaded and accepted; and whoever asks for it gets a statement that differs from the one uploaded: it names another signer. This is for every two keys confused in this way.
* **C136 What the key server publishes is genuine** (exp/keysrv/keysrv.go:process, exp/keysrv/keysrv.go:getPublic)
  * `C136_labels_violated`: C136 is false of files that keep a record under another's label: after such an upload the server publishes a statement on which the signature does not verify (unless the signature happens to be one on two statements).
* **C137 The key server's own key** (exp/keysrv/keysrv.go:serverPublic, exp/keysrv/keysrv.go:process)
  * `C137_foreign_export_violated`: C137 is false of a file with somebody else's export key: the server comes up and hands it out as its own.
* **C138 The key server stays up** (exp/keysrv/keysrv.go:keystoreDispatch, exp/keysrv/keysrv.go:process)
  * `C138_mislabelled_violated`: C138 is false of a file with a record stored under a label other than its own: the server comes up, all keys having chains to its own, and the holder of that key makes it panic with one upload.
* **C139 Every request is answered** (exp/keysrv/keysrv.go:sendCommand, exp/keysrv/keysrv.go:keystoreDispatch)
  * `C139_circle_violated`: Two uploads, of B's key signed by A and of A's key, which is on record already, signed by B, can make the next audit endless. From then on no request is answered, and nothing is written to the file.
* **C140 A restarted key server has all its keys** (exp/keysrv/keysrv.go:loadStore, exp/keysrv/keysrv.go:keystoreDispatch)
  * `C140_not_utf8_violated`: A key uploaded under a label that is not UTF-8 is accepted and served, the store is dumped to the file, and no server that is started with the file has the key.
* **C141 The key server's file is always complete** (exp/keysrv/keysrv.go:keystoreDispatch)
  * `C141_torn_violated`: When the disk is full, all that is left is an empty file, with which no server comes up. (`json.Unmarshal` rejects the empty input.)
* **C142 The first start of the key server** (exp/keysrv/keysrv.go:loadStore, exp/keysrv/keysrv.go:main)
  * `C142_first_start_violated`: If there is no file, then whatever the passphrase, the server panics while it generates its key, or, if randomness runs out, ends with an error.
* **C143 Users that register can log in** (common/auth/examples/login/login.go:register, common/auth/examples/login/login.go:login)
  * `C143_blank_name_violated`: C143 is false for a blank name: it is registered, but typing it at the prompt ends the program.
  * `C143_not_utf8_violated`: C143 is false for a name that is not UTF-8: it is registered, but the right password is refused.
  * `C143_spaces_violated`: C143 is false for a password with white space at an end, if the prompt at which it is chosen keeps that: the one at which it is asked for does not, and what is left is refused, unless bcrypt takes the one for the other.
* **C144 Registering and logging in concern one user** (common/auth/examples/login/login.go:register, common/auth/examples/login/login.go:login)
  * `C144_takeover_violated`: Registering a name that is taken needs no password, and whoever does so is let in afterwards with the password they chose, which was refused before.
  * `C144_not_utf8_violated`: A name that is not UTF-8 replaces the user whose name is the replacement character.
* **C145 Restarting the login program changes nothing** (common/auth/examples/login/login.go:login, common/auth/examples/login/login.go:writeStore)
  * `C145_code_violated`: C145 is false if the YubiKey library takes a code that is not UTF-8: typed twice to one process the code is refused the second time; but if the program is started again in between, it is accepted twice.
* **C146 The login program accepts a code once** (common/auth/examples/login/login.go:login, common/auth/examples/login/login.go:writeStore)
  * `C146_older_violated`: C146 is false for older codes: with codes `p` of the step before and `q` of the current step, the program accepts `p`, then `q`, then `p` again.
* **C147 All listed types of authentication can be registered** (common/auth/examples/login/login.go:register, common/auth/examples/login/login.go:regPassword)
  * `C147_listed_violated`: "yubikey" is among the types the program lists, but answering it is as good as not answering.
* **C148 The login program does not panic** (common/auth/examples/login/login.go:register, common/auth/examples/login/login.go:login)
  * `C148_null_violated`: With the file "null" every registration that gets as far as storing the user panics.
  * `C148_nobody_violated`: There is a file, the JSON {"u":null}, with which typing the name u panics.
* **C149 Files of the login program** (common/auth/examples/login/login.go:writeStore, common/auth/examples/login/login.go:regTOTP)
  * `C149_torn_violated`: C149 is false when a write breaks off: all users are lost, and the program does not start any more.
* **C151 The QR code carries the token** (common/auth/totp.go:TOTPConfig.ExportQR, common/auth/totp.go:ExportUserTOTP)
  * `C151_slash_violated`: C151 is false for labels that begin with a slash: whatever the token, `/x` and `x` give the same picture.
  * `C151_empty_label_violated`: C151 is false for an empty label, which `ExportQR` accepts: the text has no label part and is not in the format.
* **C152 An app that scans the QR code shows codes that are accepted** (common/auth/totp.go:TOTPConfig.ExportQR, common/auth/totp.go:NewGoogleTOTP)
  * `C152_lost_violated`: Start, step and hash are not in the text, so that tokens that differ in them give the same picture.
  * `C152_step_violated`: For a token with a step of a minute the app shows, an hour after the epoch, the code of count 120, while the token's count is 60. Unless the code happens to be that of count 60 or 59, it is refused.
* **C153 The QR code names the provider** (common/auth/totp.go:TOTPConfig.ExportQR)
  * `C153_issuer_violated`: C153 is false whenever there is a provider: the text names it under `provider`, which is not a parameter of the format, and has no `issuer`, so that the app knows of none.
* **C155 Two sessions on one store lose nothing** (cmd/secretscli/secretscli.go:main, cmd/secretscli/secretscli.go:writeStore)
  * `C155_violated`: A file with one secret is opened in two sessions. In the first "b" is stored, it is ended with quit, and nothing goes wrong; then "c" is stored in the other, which is ended with quit as well. The file can then be opened with the passphrase, and "b" is not in it.
* **C156 Labels survive the URL** (exp/keysrv/keysrv.go:main, exp/keysrv/keysrv.go:getPublic)
  * `C156_violated`: A key server comes up with a key on record under the label "a/b", which has a chain to the server's key. No request at all is about that label, so that nobody gets the key or its fingerprint: for every other label but "self" the answer is an error.
* **C157 Requests that read change nothing** (exp/keysrv/keysrv.go:main, exp/keysrv/keysrv.go:addPublic)
  * `C157_violated`: A request with the method GET makes the server add a key.
* **C159 The server's own fingerprint has a URL without a label** (exp/keysrv/keysrv.go:main, exp/keysrv/keysrv.go:getFingerprint)
  * `C159_violated`: At /fingerprint/ there is nothing, although the handler has a default for it; at /public/ there is the server's key.
* **C160 Files packed together are restored apart** (cmd/passcrypt/passcrypt.go:packFiles, cmd/passcrypt/passcrypt.go:packFile)
  * `C160_violated`: In the directory /h, passcrypt /x x packs two files, of the contents 1 2 3 and 9. Unpacking the archive succeeds and yields a single file n/x, with the content 9 2 3.
* **C161 An idle session locks itself** (cmd/secretscli/secretscli.go:main, cmd/secretscli/secretscli.go:inputLoop)
  * `C161_violated`: "passwd" is typed, and then nothing. However long that lasts, the process does not end, and the secrets and the passphrase stay in memory.
* **C162 A session in use is not locked** (cmd/secretscli/secretscli.go:inputLoop, cmd/secretscli/secretscli.go:readCommands)
  * `C162_violated`: A user who presses the enter key all the time is locked out all the same: empty lines are typed at every moment, and the timer fires.
* **C164 The examples of the documentation work** (cmd/secrets/secrets.go:main, cmd/secretscli/secretscli.go:main)
  * `C164_unpack_violated`: The README of passcrypt gives passcrypt -o tmp passcrypt.enc for unpacking. It unpacks nothing, and replaces the archive with one that holds only the old archive, under any password typed.
  * `C164_remove_violated`: The README of fcrypt says that -r asks for a label. It does not: without an argument it is refused.
* **C165 Options are never taken for something else** (cmd/secrets/secrets.go:main, cmd/secretscli/secretscli.go:main)
  * `C165_after_violated`: Options after the first argument are arguments: secrets -f f -r a -f g, with exit status 0, removes a from the file f, and ignores g.
  * `C165_value_violated`: A value after a switch is an argument: secrets -i false switches -i on and looks for the secret false.
  * `C165_ignored_violated`: Secretscli other.db opens the default store: its arguments are ignored.
* **C166 Contradicting actions are refused** (cmd/secrets/secrets.go:main, cmd/journal/journal.go:main)
  * `C166_secrets_violated`: Secrets -r -s b does not refuse, and removes nothing: it is secrets -s b.
  * `C166_fcrypt_violated`: Fcrypt -d -e is fcrypt -e.
* **C168 The journal runs the editor that was asked for** (cmd/journal/journal.go:main, cmd/journal/journal.go:newEntry)
  * `C168_violated`: Two spaces, or one at the end, give the editor an empty argument, which editors take for the name of a file.
* **C171 The list of labels is complete and readable** (cmd/secrets/secrets.go:list)
  * `C171_violated`: With newlines in labels, the lists of different stores can be the same: the store with the labels "a" and "b\n\tc" is listed as the store with the labels "a\n\tb" and "c".
* **C172 A merge reports what it took over** (cmd/secrets/secrets.go:merge, common/store/secretstore.go:Merge)
  * `C172_violated`: A record stored by `secretscli` carries no label; its merge is reported with an empty name, although the entry "b" was taken over.
* **C173 What is reported as removed is removed** (cmd/secrets/secrets.go:remove, cmd/secrets/secrets.go:removeMeta)
  * `C173_violated`: When the file cannot be written, "Removed" is printed all the same, and the entry is still there.
  * `C173_key_violated`: "Deleted key" is printed for a key that never was.
* **C174 What is shown of an entry can be read back** (cmd/secrets/secrets.go:showSecret)
  * `C174_violated`: With a colon in a name, different metadata is shown the same: "a: b" with the value "c", and "a" with the value "b: c".
* **C175 passcrypt -l lists what the archive holds** (cmd/passcrypt/passcrypt.go:main, cmd/passcrypt/passcrypt.go:packFiles)
  * `C175_newline_violated`: C175 is false of names with ends of lines: the list of one file looks like the list of two.
  * `C175_slash_violated`: C175 is false of archives made otherwise: a file whose name ends in a slash is listed as a directory.
* **C177 Without -v passcrypt is quiet** (cmd/passcrypt/passcrypt.go:packFiles, cmd/passcrypt/passcrypt.go:unpackFiles)
  * `C177_directories_violated`: Directories are named while unpacking, with or without -v.
* **C179 otpc prints codes and no keys** (cmd/otpc/otpc.go:addSecret, cmd/otpc/otpc.go:showSecret)
  * `C179_mistyped_violated`: With the last letter of the key mistyped, the key is printed, which was typed at a prompt that does not echo it.
* **C180 otpc says when a Google code expires** (cmd/otpc/otpc.go:printGTOTP, cmd/otpc/otpc.go:showSecret)
  * `C180_boundary_violated`: The period ends after the first look at the clock: the code printed is that of the new period, which has 30 seconds left, and is said to have 1.
* **C182 The list of entries can be read** (cmd/journal/journal.go:listEntries)
  * `C182_lines_violated`: A title may have more than one line: then the list of a journal with one entry is that of a journal with two.
* **C183 journal says when it leaves the temporary file** (cmd/journal/journal.go:newEntry, cmd/journal/journal.go:editEntry)
  * `C183_gone_violated`: If the editor removes the file itself, journal asks to remove a file that is not there.
* **C184 Decoder.Zero wipes the data the decoder was given** (common/tlv/tlv.go:Decoder.Zero, common/tlv/tlv.go:NewDecoder)
  * `C184_read_violated`: Once the values are decoded, `Zero` leaves their encoding in the caller's buffer as it was; after the last value it wipes nothing at all.
* **C186 secretscli asks about the label it is going to overwrite** (cmd/secretscli/commands.go:storeSingleSecret, cmd/secretscli/secretscli.go:readCommands)
  * `C186_violated`: Label and file name are used as format strings. Of a label that ends with a percent sign, the question makes an error message of package fmt; and so does the prompt of such a file name.
  * `C186_percent_violated`: Two percent signs are shown as one.
* **C189 A refused login does not say whether there is such a user** (common/auth/examples/login/login.go:login, common/auth/authenticator.go:Validate)
  * `C189_unknown_violated`: The message for a name that is not registered is another one, so that anybody can find out who is.
* **C191 fcrypt reports every error, and only errors, on standard error** (exp/fcrypt/fcrypt.go:main, exp/fcrypt/fcrypt.go:cryptSignFile)
  * `C191_nothing_violated`: C191 is false of a run without a command: it prints an error message and exits with status 0.
  * `C191_signed_violated`: C191 is false of -s -e: when the file cannot be written, an error message is printed, and the exit status is 0.
* **C192 fcrypt shows whose key it is about to import without trust** (exp/fcrypt/fcrypt.go:importUntrusted, common/store/keystore.go:IsSelfSigned)
  * `C192_known_violated`: A key that the owner, or someone on record, has signed is announced like one that nobody known has.
* **C193 fcrypt prints nothing of messages, keys and passphrases** (exp/fcrypt/fcrypt.go:main, exp/fcrypt/fcrypt.go:encryptFile)
  * `C193_invalid_violated`: C193 is false of a key store file of another version, or without a time: all of it is printed on standard error, and so the locked private key, in decimal.
* **C194 What the audit of a key store rejects has no chain of signatures** (common/store/keystore.go:VerifyChain, common/store/keystore.go:VerifyKeySignature)
  * `C194_twice_violated`: C194 is false of files that hold a key twice: fcrypt -check can name a key that the owner trusts, by way of the first copy of a key the second copy of which has no signature.
* **C195 A wiped session is over** (common/auth/session.go:Session.Zero, common/auth/session.go:Session.OTP)
  * `C195_answers_violated`: A wiped session goes on answering. Its answer to any challenge is the proper answer under a key of 32 zeros, whoever's session it was: two people who wiped theirs give the same answers, and everybody can compute them.
* **C197 Every message in the key server's log is one line** (exp/keysrv/keysrv.go:process, exp/keysrv/keysrv.go:keystoreDispatch)
  * `C197_violated`: Whoever asks any server for the key at this URL makes it write a line of their choice.
* **C198 The key server's log tells what was asked and what came of it** (exp/keysrv/keysrv.go:process, exp/keysrv/keysrv.go:checkUpload)
  * `C198_upload_violated`: A server adds a key, or refuses one, and the log is the same.
* **C199 passcrypt restores the permissions of files** (cmd/passcrypt/passcrypt.go:unpackFile, cmd/passcrypt/passcrypt.go:unpackFiles)
  * `C199_umask_violated`: Files of mode 0644 that were packed are unpacked with mode 0600 under the umask 077; and a file of mode 0666 would come back with mode 0644 under 022.
  * `C199_existing_violated`: C199 is false of files that exist: they get the new content and keep their old mode, whatever the mode in the archive.
* **C200 Secrets in the clear are written for the owner only** (exp/fcrypt/fcrypt.go:decryptFile, cmd/otpc/otpc.go:showQR)
  * `C200_fcrypt_violated`: C200 is false of fcrypt: what it decrypts into a new file everybody can read, unless the umask says otherwise.
  * `C200_login_violated`: C200 is false of the login example: everybody can read the QR code with the TOTP key that it writes into a new file qr.png.
  * `C200_existing_violated`: C200 is false of existing files: the QR code of otpc -qr replaces the content and not the mode.
* **C201 Sealed files are for the owner only** (common/secret/crypto.go:EncryptFile, cmd/secrets/secrets.go:initStore)
  * `C201_init_violated`: C201 is false of secrets: everybody can read the store that secrets -init creates, unless the umask says otherwise.
* **C202 secrets says on standard error when it failed, and only then that it failed** (cmd/secrets/secrets.go:main, cmd/secrets/secrets.go:initStore)
  * `C202_violated`: C202 is false of -export with two arguments: the store is exported to the first, with status 0, but secrets complains that no output file was given.
* **C203 secrets replaces no secret without a warning** (cmd/secrets/secrets.go:addSecret, cmd/secrets/secrets.go:multi)
  * `C203_alias_violated`: C203 is false of a label that is not UTF-8: `secrets -s` with the label "\xff" replaces the secret stored under U+FFFD, and warns of nothing.
* **C206 secretscli says when a command failed and when it could not save the store** (cmd/secretscli/secretscli.go:processCommands, cmd/secretscli/secretscli.go:writeStore)
  * `C206_violated`: "store b c" is typed, "b" gets a password, "c" gets none, and there is no randomness left: the attempt to save "b" fails, the file is as it was, and all that is said is that no password was entered.
* **C207 Silence of secretscli means that all changes are in the file** (cmd/secretscli/secretscli.go:main, cmd/secretscli/secretscli.go:inputLoop)
  * `C207_violated`: "store b", "write", "store c" and "quit" are typed, nothing goes wrong, nothing is written to standard error, and in the file the secrets "a" and "b" are zeros, and so is the passphrase.
  * `C207_passwd_violated`: "passwd" and "quit" are typed, the new password is confirmed, nothing is written to standard error, and the file is as it was.
* **C212 journal says why an entry could not be edited, and keeps the journal** (cmd/journal/journal.go:newEntry, cmd/journal/journal.go:editEntry)
  * `C212_violated`: C212 is false when the text does not get into the temporary file: the entry is replaced by nothing, and there is not a word about it on standard output or standard error.
* **C226 otpc takes only natural numbers for the counter and the number of digits** (cmd/otpc/otpc.go:addSecret, cmd/otpc/otpc.go:main)
  * `C226_negative_violated`: "-1" is accepted, and taken for 2^64 - 1.
* **C227 What is stored with secrets can be shown in secretscli, and the reverse** (cmd/secrets/secrets.go:addSecret, cmd/secrets/secrets.go:showSecret)
  * `C227_spaces_violated`: C227 is false of labels with white space: after a successful `secrets -s label` the session has the secret, but whatever is typed, what is printed would be the same if the secret were any other.
* **C228 Two copies of a store that were changed apart can be brought together** (cmd/secrets/secrets.go:merge, common/store/secretstore.go:Merge)
  * `C228_removed_violated`: C228 is false of removed entries: an entry that is removed from one of two equal copies is there again, as it was, when the other copy is merged.
* **C229 A key can be passed on by way of a key server** (exp/fcrypt/fcrypt.go:exportVerified, exp/fcrypt/fcrypt.go:importVerified)
  * `C229_own_violated`: C229 is false of a user's own key, which -export without -l writes: a server that has not got the key already, and whose key it is not, refuses it under every label, for the user's own signature is all that vouches for it.
* **C233 A change made with journal reaches the other copies** (cmd/journal/journal.go:editEntry, cmd/journal/journal.go:writeNew)
  * `C233_edited_violated`: C233 is false of entries changed with `journal -e`: after the other copy took over what is newer in this one, it still has the text from before the change.
* **C235 fcrypt fails when the label that is given with -l stands for no key** (exp/fcrypt/fcrypt.go:encryptTo, exp/fcrypt/fcrypt.go:signcryptTo)
  * `C235_verify_violated`: C235 is false of fcrypt -v: for a label under which no key is on record it says that the signature is invalid, and exits with status 0.
* **C236 A code that was displayed from one copy of a token store is not displayed again after the copies are merged** (cmd/otpc/otpc.go:showSecret, cmd/secrets/secrets.go:merge)
  * `C236_both_violated`: C236 is false when both copies are used before they are merged: after the one that was used less, but last, has taken over what is newer in the other, it displays codes that the other has displayed before.
* **C237 What another program saves while secrets, otpc or journal is running is not lost** (cmd/secrets/secrets.go:main, cmd/secrets/secrets.go:loadStore)
  * `C237_secrets_violated`: Two runs of `secrets -s` with different labels both end with status 0, the second beginning and ending while the first is asking for the password; what the second has saved, and what could be read from the store after it, is gone after the first.
  * `C237_otpc_violated`: C237 is false of otpc: a password is stored with `secrets -s` while `otpc -s` is asking for the key of a token.
  * `C237_journal_violated`: C237 is false of journal: a password is stored with `secrets -s` while the editor is open.
* **C238 Two runs of otpc on one HOTP token at the same time display different codes** (cmd/otpc/otpc.go:showSecret, cmd/otpc/otpc.go:main)
  * `C238_same_violated`: When one run of `otpc label` begins and ends while another on the same store has read it but not written it yet, and both end with status 0, both display the same code, and the store afterwards has the counter advanced by one only.
* **C239 otpc changes no entry but that of the token it is run for** (cmd/otpc/otpc.go:addSecret, cmd/otpc/otpc.go:showSecret)
  * `C239_url_violated`: Displaying a code of a token whose URL carries another label replaces the entry under that label, here a password.
* **C242 What other programs do to a key store while fcrypt is running is not lost** (exp/fcrypt/fcrypt.go:493-593, exp/fcrypt/fcrypt.go:53-90)
  * `C242_removed_violated`: C242 is false of runs that change the store. Two runs of fcrypt -r at the same time, each of which removes a key: both exit with status 0, and the key that was removed by the run that finished first is on record again, as trusted as before.
  * `C242_deleted_violated`: Nor is the deletion of a key store kept: if the file is deleted while fcrypt exports the own key, which has no business with the store, it is there again afterwards, with all its keys.
* **C243 Stores are only ever written sealed under the passphrase that was typed** (cmd/secrets/secrets.go:writeStore, cmd/secrets/secrets.go:initStore)
  * `C243_violated`: C243, secretscli: "store b", "write", "store c" and "quit" are typed, nothing goes wrong, and the secret "c" is saved under two zeros, which nobody has typed.
* **C244 fcrypt never loses or replaces the owner's private key** (exp/fcrypt/fcrypt.go:493-593, exp/fcrypt/fcrypt.go:111-127)
  * `C244_violated`: C244, violated: `fcrypt -export` with the path of the key store as its argument reports success and leaves the exported public key there, and nothing else.

## 6. Axioms per theorem

From `#print axioms`, for the 721 theorems named in MANIFEST.json. No other axioms occur.

* no axioms (1): `C86_key_exchange`
* `propext` (16): `C02_roundtrip_violated`, `C06_overread_violated`, `C15_modes`, `C15_no_key_no_crypto`, `C17_panic_violated`, `C28_hash_violated`, `C28_size_violated`, `C51_list_violated`, `C51_null_violated`, `C61_shifted_violated`, `C66_no_private_key_violated`, `C87_zero_effect_partial`, `C87_exact_partial`, `C92_find_violated`, `C93_not_utf8_violated`, `C100_pipe_violated`
* `propext`, `Quot.sound` (95): `C02_empty_not_consumed_violated`, `C04_error_no_effect`, `C07_length`, `C08_rand_all_or_nothing`, `C09_zero`, `C10_roundtrip`, `C11_decrypt_exact`, `C11_unique_plaintext`, `C12_file_roundtrip`, `C12_succeeds`, `C13_panics_violated`, `C13_no_panic_partial`, `C13_data_or_error_partial`, `C14_not_atomic_violated`, `C14_crash_prefix_partial`, `C16_public_roundtrip`, `C18_empty_message_violated`, `C19_empty_message_violated`, `C22_hostile_ciphertext_violated`, `C22_unopened_partial`, `C23_generate_violated`, `C23_short_rng_partial`, `C24_unlock_only`, `C25_incomplete_rejected`, `C25_valid_iff`, `C26_panic_violated`, `C26_fails_closed_partial`, `C27_sign_verify`, `C27_verify_exact`, `C28_empty_key_violated`, `C29_other_hash`, `C30_unusable`, `C31_history_partial`, `C31_immediate_partial`, `C34_parsed_key`, `C38_rounds_partial`, `C38_no_session_violated`, `C41_setup_violated`, `C41_prng_partial`, `C42_password`, `C43_cost_partial`, `C43_low_cost_violated`, `C45_roundtrip_partial`, `C45_any_labels_partial`, `C45_saves`, `C45_violated`, `C45_collision_violated`, `C46_wipes`, `C47_violated`, `C47_reopened_partial`, `C48_addRecord`, `C49_updateSecret_partial`, `C49_violated`, `C50_map`, `C51_newest_partial`, `C52_associative`, `C52_ties_needed`, `C53_add_violated`, `C53_update_violated`, `C53_passphrase_partial`, `C54_old_only_if`, `C54_same_key`, `C55_violated`, `C55_opening_exact`, `C55_own_files_partial`, `C62_locked_refuses`, `C62_key_gone`, `C63_wrong_passphrase`, `C66_null_record_violated`, `C66_missing_label_violated`, `C78_restores_partial`, `C78_stale_violated`, `C79_legacy_exact`, `C79_current_exact`, `C79_migrates`, `C79_program`, `C84_fixed_encoder_wipes_all`, `C87_zero_twice_violated`, `C89_otp_memory_violated`, `C90_lockWith_partial`, `C91_other_messages_partial`, `C92_find_exact_partial`, `C100_lines_partial`, `C100_dropped_violated`, `C101_disk_full_violated`, `C101_short_violated`, `C101_unchanged_partial`, `C101_reported`, `C142_first_start_violated`, `C142_nothing_written_partial`, `C161_limit`, `C199_existing_violated`, `C200_journal_partial`, `C201_encryptFile_partial`, `C209_begins`
* `propext`, `Classical.choice`, `Quot.sound`: all others (609)
