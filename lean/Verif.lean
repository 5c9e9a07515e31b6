import Verif.Props.Tlv
import Verif.Props.Secret
import Verif.Props.Public
import Verif.Props.Totp
import Verif.Props.Auth
import Verif.Props.SecretStore
import Verif.Props.SecretHeap
import Verif.Props.KeyTrust
import Verif.Props.KeyTrustNeeds
import Verif.Props.KeyImport
import Verif.Props.KeyStore
import Verif.Props.Secrets
import Verif.Props.ReadLine
import Verif.Props.Migrate
import Verif.Props.Passcrypt
import Verif.Props.PasscryptTree
import Verif.Props.Perms
import Verif.Props.OtpcText
import Verif.Props.KeyMessages
import Verif.Props.SecretsMeta
import Verif.Props.Otpc
import Verif.Props.OtpcDisplay
import Verif.Props.Journal
import Verif.Props.JournalEntries
import Verif.Props.Secretscli
import Verif.Props.SecretscliRun
import Verif.Props.SecretscliHelp
import Verif.Props.SecretscliTwo
import Verif.Props.SecretscliMore
import Verif.Props.SecretscliTime
import Verif.Props.CommandLine
import Verif.Props.Fcrypt
import Verif.Props.FcryptFiles
import Verif.Props.FcryptKeys
import Verif.Props.FcryptOutput
import Verif.Proofs.FcryptStdout
import Verif.Proofs.Sorting
import Verif.Props.FcryptExport
import Verif.Props.Keysrv
import Verif.Props.KeysrvLabels
import Verif.Props.KeysrvLive
import Verif.Props.KeysrvDisk
import Verif.Props.KeysrvHttp
import Verif.Props.Login
import Verif.Props.TotpUrl
import Verif.Props.SecretsOutput
import Verif.Props.SecretsErrors
import Verif.Props.SecretscliErrors
import Verif.Props.PasscryptOutput
import Verif.Props.OtpcOutput
import Verif.Props.JournalOutput
import Verif.Props.TlvDecMem
import Verif.Props.SecretscliOutput
import Verif.Props.MigrateOutput
import Verif.Props.LoginOutput
import Verif.Props.KeyAudit
import Verif.Props.SessionMem
import Verif.Props.KeysrvLog
import Verif.Props.JournalErrors
import Verif.Props.OtpcErrors
import Verif.Props.PasscryptErrors
import Verif.Props.MigrateErrors
import Verif.Props.SecretsRefusals
import Verif.Props.OtpcNumbers
import Verif.Props.Together
import Verif.Props.TogetherKeys
import Verif.Props.TogetherStores
import Verif.Props.TogetherMessages
import Verif.Props.TogetherTokens
import Verif.Props.Meanwhile
import Verif.Props.OtpcEntries
import Verif.Props.Randomness
import Verif.Props.RandomnessStores
import Verif.Props.MeanwhileKeys
import Verif.Props.SealedStores
import Verif.Props.OwnKey
import Verif.Props.KeysrvOwn
import Verif.Props.LoginHash
import Verif.Props.FcryptCases
import Verif.Props.SecretscliCases
