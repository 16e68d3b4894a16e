import Verif.Spec.Http
/-!
# What an HTTP client makes of an answer
-/

namespace Tricorder.Spec
open Go _root_.Spec

/-- status and body of an answer; like Go's `http.Client`, the client decompresses what is marked as compressed -/
def httpResult (dec : Str → Option Str) (v : Resp Str) : Option (ℕ × Str) :=
  ((if (answered v).2.get (lit "Content-Encoding") = lit "gzip" then dec v.out else some v.out)).map fun b => ((answered v).1, b)

end Tricorder.Spec
