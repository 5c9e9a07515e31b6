import Verif.Go.Fs
/-! What the properties of programs that run at the same time speak about. -/

namespace Verif.Spec.Meanwhile
open Verif.Go

/-- `fs` is what the files would be if of all changes from `before` to `after` the one of this file had not been made. -/
def Spared (path : Path) (before after fs : Fs) : Prop := fs path = before path ∧ ∀ q, q ≠ path → fs q = after q

end Verif.Spec.Meanwhile
