import Verif.Model.SipsMsg
/-!
# The life of a SIP object
-/
namespace Verif.Spec.Sips
open Verif Verif.Str Verif.Sips

/-- `Used U s`: the object `s` was made by `NewSIP`, by `MakeRequest` with a request URI, or by `MakeResponse`, and has since been
used in any way: `Parse` on any connections, with any outcome, `Bytes`, `SetBody`, and, once it is a request with a URI or a
response, `SetHeader` with a map that exists. -/
inductive Used (U : Unicode) : Sip → Prop
  | new : Used U Sip.new
  | request (method : UInt16) (q : Request) (header : Option Hdr) (body : Bytes) : Used U (makeRequest method (some q) header body)
  | response (code : Int) (header : Option Hdr) (body : Bytes) : Used U (makeResponse code header body)
  | parse {s} (r : Rd) : Used U s → Used U (Sips.parse U s r).2.1
  | bytes {s} (order : Hdr → Hdr) : Used U s → Used U (s.bytes U order).2
  | body {s} (b : Bytes) : Used U s → Used U (s.setBody b)
  | header {s} (h : Hdr) : Used U s → s.isResponse = true ∨ s.request ≠ none → Used U (s.setHeader (some h))

end Verif.Spec.Sips
