import Verif.Model.Ts
/-!
# The arrays behind the tables that a muxer returns
-/
namespace Verif.Ts
open Verif

/-- The functions of the muxer that return a table. -/
inductive Table where
  | sdt
  | pat
  | pmt
deriving DecidableEq

/-- muxer.go:225 `return muxer.sdt[:]`, 261 `return muxer.pat[:]`, 319 `return muxer.pmt[:]`: what `SDT`, `PAT` and `PMT` return
are slices of arrays of the muxer, so what the caller reads in them later is what these arrays contain then. -/
def held (m : Muxer) : Table → Bytes
  | .sdt => m.sdt
  | .pat => m.pat
  | .pmt => m.pmt

end Verif.Ts
