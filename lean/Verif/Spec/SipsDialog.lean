import Verif.Spec.SipsPeer
import Verif.Model.SipsMsg
/-!
# A request and its answer

The calls with which a program fills the header of a request, and what the other side should find in its place.
-/
namespace Verif.Spec.Sips
open Verif Verif.Sips Verif.Str

/-- Visible ASCII characters other than `"`, `,`, `:`, `;`, `<`, `=`, `>`, `@` and backslash. -/
def Word (s : Bytes) : Prop := ∀ b ∈ s, 0x21 ≤ b ∧ b ≤ 0x7e ∧ b ≠ 0x22 ∧ b ≠ 0x2c ∧ b ≠ 0x3a ∧ b ≠ 0x3b ∧ b ≠ 0x3c ∧ b ≠ 0x3d ∧ b ≠ 0x3e ∧
  b ≠ 0x40 ∧ b ≠ 0x5c

/-- Parameters: distinct names, which are words, and values, which are words or missing. -/
structure Params (a : Args) : Prop where
  distinct : (a.map Prod.fst).Nodup
  keys : ∀ e ∈ a, e.1 ≠ [] ∧ Word e.1
  values : ∀ e ∈ a, Word e.2

/-- An address made of words; the display name consists of words and blanks. -/
structure PlainUser (u : User) : Prop where
  scheme : u.uriType = text "sip" ∨ u.uriType = text "sips" ∨ u.uriType = text "tel"
  name : ∀ b ∈ u.name, 0x20 ≤ b ∧ b ≤ 0x7e ∧ b ≠ 0x22 ∧ b ≠ 0x3a ∧ b ≠ 0x3b ∧ b ≠ 0x3d ∧ b ≠ 0x5c
  user : Word u.user
  host : Word u.host
  port : Word u.port
  args : Params u.args

/-- A Via value made of words. -/
structure PlainVia (v : Via) : Prop where
  trans : v.trans = text "UDP" ∨ v.trans = text "TCP" ∨ v.trans = text "TLS" ∨ v.trans = text "SCTP"
  host : v.host ≠ [] ∧ Word v.host
  port : Word v.port
  args : Params v.args

/-- A call that sets a header. -/
inductive Put where
  | from_ (u : User)
  | to_ (u : User)
  | contact (u : User)
  | via (v : Via)
  | cseq (c : Cseq)
  | callID (x : Bytes)
  /-- `SetFirstHeader`. -/
  | header (name value : Bytes)

/-- The header map after a call. -/
def Put.apply (U : Unicode) (h : Hdr) : Put → Hdr
  | .from_ u => setSIPFrom U h u
  | .to_ u => setSIPTo U h u
  | .contact u => setSIPContact U h u
  | .via v => setSIPVia U h v
  | .cseq c => setSIPCseq U h c
  | .callID x => setCallID U h x
  | .header n v => setFirstHeader U h n v

/-- The header that is set. -/
def Put.name : Put → Bytes
  | .from_ _ => text "from"
  | .to_ _ => text "to"
  | .contact _ => text "contact"
  | .via _ => text "via"
  | .cseq _ => text "cseq"
  | .callID _ => text "call-id"
  | .header n _ => n.map lowerAscii

/-- Values the package can send on one line.  `SetFirstHeader` is used for other headers than those with a call of their own. -/
def Put.Fits (U : Unicode) : Put → Prop
  | .from_ u | .to_ u | .contact u => PlainUser u ∧ (u.bytes U).length ≤ 4000
  | .via v => PlainVia v ∧ v.bytes.length ≤ 4000
  | .cseq c => (c.id ≠ [] ∧ Word c.id) ∧ (c.method ≠ [] ∧ Word c.method) ∧ c.id.length + c.method.length ≤ 4000
  | .callID x => HeaderValue x ∧ x.length ≤ 4000
  | .header n v => (n ≠ [] ∧ ∀ b ∈ n, 0x21 ≤ b ∧ b ≤ 0x7e ∧ b ≠ 0x3a) ∧ HeaderValue v ∧ n.length + v.length ≤ 4000 ∧
      n.map lowerAscii ∉ [text "from", text "to", text "contact", text "via", text "cseq", text "call-id", text "content-length"]

/-- The call `o` is among the calls `os` and no later one sets the same header. -/
def Stands (os : List Put) (o : Put) : Prop := ∃ before after, os = before ++ o :: after ∧ ∀ x ∈ after, x.name ≠ o.name

/-- What was set is found in the message `m`: in its parsed fields and by the look-up functions.  Parameters are a map, in any order;
the display name is missing. -/
def Found (U : Unicode) (m : Sip) : Put → Prop
  | .from_ u => ∃ a, a.Perm u.args ∧ m.fromU = some { u with name := [], args := a } ∧ getSIPFrom U m.hdr = .ok { u with name := [], args := a }
  | .to_ u => ∃ a, a.Perm u.args ∧ m.toU = some { u with name := [], args := a } ∧ getSIPTo U m.hdr = .ok { u with name := [], args := a }
  | .contact u => ∃ a, a.Perm u.args ∧ m.contact = some { u with name := [], args := a } ∧ getSIPContact U m.hdr = .ok { u with name := [], args := a }
  | .via v => ∃ a, a.Perm v.args ∧ m.via = some { v with args := a } ∧ getSIPVia U m.hdr = .ok { v with args := a }
  | .cseq c => m.cseq = some c ∧ getSIPCseq U m.hdr = c
  | .callID x => getCallID U m.hdr = x
  | .header n v => getHeader U m.hdr n = [v] ∧ getFirstHeader U m.hdr n = v

end Verif.Spec.Sips
