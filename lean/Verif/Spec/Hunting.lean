/-! # Spec: what a simulated opponent sees -/

namespace MaMDP.Spec

/-- Where somebody who started at `s` and then visited `path` was before the latest of these moves (`s` itself if there
was none). -/
def beforeLatest (s : Nat) (path : List Nat) : Nat := (s :: path.dropLast).getLastD s

end MaMDP.Spec
