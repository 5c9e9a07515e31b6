import Verif.Go.Url
import Verif.Model.Auth
/-! Model of the QR codes of common/auth/totp.go. -/

namespace Verif.Model.Auth
open Verif Verif.Go

/-- `generateURL` (common/auth/totp.go:71-97). The values are listed in the order in which
`Encode` writes them, which is that of their names. -/
def generateURL (c : TOTPConfig) (label : Bytes) : Bytes :=
  let secret := exportKey c
  let v : List (Bytes × Bytes) :=
    (if c.size ≠ 6 then [(ascii "digits", decimalInt c.size)] else []) ++
    (if c.provider ≠ [] then [(ascii "provider", c.provider)] else []) ++
    [(ascii "secret", secret)]
  urlString (ascii "otpauth") (ascii "totp") label (encodeValues v)

/-- `ExportQR` (common/auth/totp.go:100-107). `draw` stands for `qr.Encode` with level Q (rsc.io/qr)
and `PNG`; it fails if the text is too long. -/
def exportQR (draw : Bytes → Option Bytes) (c : TOTPConfig) (label : Bytes) : Option Bytes :=
  draw (generateURL c label)

end Verif.Model.Auth
