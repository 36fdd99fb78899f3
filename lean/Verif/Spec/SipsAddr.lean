import Verif.Spec.SipsDigest
/-!
# Addresses, Via values and their parameters as other senders write them (RFC 3261, 20.10, 20.42 and 25.1)

The text is described by the choices of the sender: blanks around the separators, parameters with and without value, tokens
or quoted strings, the display name, with or without angle brackets.
-/
namespace Verif.Spec.Sips

/-- A parameter as sent: blanks, name, perhaps `=` and a value, blanks. -/
structure AParam where
  before : Bytes
  name : Bytes
  value : Option DVal
  after : Bytes

def AParam.wire (p : AParam) : Bytes :=
  p.before ++ p.name ++ (match p.value with
    | none => []
    | some v => 0x3d :: v.wire) ++ p.after

/-- Name and value meant; a parameter without value has the empty one. -/
def AParam.den (p : AParam) : Bytes × Bytes := (p.name, match p.value with
    | none => []
    | some v => v.den)

def Blanks (s : Bytes) : Prop := ∀ b ∈ s, b = 0x20 ∨ b = 9

structure AParam.Fits (p : AParam) : Prop where
  before : Blanks p.before
  after : Blanks p.after
  name : ArgKey p.name
  value : ∀ v, p.value = some v → v.Fits

/-- Every parameter is preceded by a semicolon. -/
def awire (ps : List AParam) : Bytes := (ps.map fun p => 0x3b :: p.wire).flatten

/-- Parameters a receiver can tell apart. -/
structure AParams (ps : List AParam) : Prop where
  fits : ∀ p ∈ ps, p.Fits
  distinct : (ps.map AParam.name).Nodup

/-- An address as sent: what stands before the URI (display name, opening bracket), the URI, and what stands between the URI
and the parameters (closing bracket, spaces). -/
structure Addr where
  lead : Bytes
  scheme : Bytes
  user : Bytes
  host : Bytes
  port : Bytes
  close : Bytes
  params : List AParam

def portText (p : Bytes) : Bytes := if p = [] then [] else 0x3a :: p

def Addr.wire (a : Addr) : Bytes :=
  a.lead ++ a.scheme ++ [0x3a] ++ a.user ++ [0x40] ++ a.host ++ portText a.port ++ a.close ++ awire a.params

/-- The display name may be anything without `:` and `;`; the other parts have no character that ends them. -/
structure Addr.Fits (a : Addr) : Prop where
  lead : ∀ b ∈ a.lead, b ≠ 0x3a ∧ b ≠ 0x3b
  scheme : a.scheme = text "sip" ∨ a.scheme = text "sips" ∨ a.scheme = text "tel"
  user : ∀ b ∈ a.user, b ≠ 0x20 ∧ b ≠ 0x3b ∧ b ≠ 0x3e ∧ b ≠ 0x40
  host : ∀ b ∈ a.host, b ≠ 0x20 ∧ b ≠ 0x3a ∧ b ≠ 0x3b ∧ b ≠ 0x3e
  port : ∀ b ∈ a.port, b ≠ 0x20 ∧ b ≠ 0x3b ∧ b ≠ 0x3e
  close : ∀ b ∈ a.close, b = 0x20 ∨ b = 0x3e
  params : AParams a.params

/-- A Via value as sent, with spaces around the parts (RFC 3261, 20.42). -/
structure ViaLine where
  transport : Bytes
  gap1 : Bytes
  host : Bytes
  gap2 : Bytes
  /-- `none`: no port; otherwise spaces behind the colon, port -/
  port : Option (Bytes × Bytes)
  gap3 : Bytes
  params : List AParam

def ViaLine.wire (v : ViaLine) : Bytes :=
  text "SIP/2.0/" ++ v.transport ++ v.gap1 ++ v.host ++ v.gap2 ++ (match v.port with
    | none => []
    | some (g, p) => 0x3a :: (g ++ p)) ++ v.gap3 ++ awire v.params

def Spaces (s : Bytes) : Prop := ∀ b ∈ s, b = 0x20

structure ViaLine.Fits (v : ViaLine) : Prop where
  transport : v.transport = text "UDP" ∨ v.transport = text "TCP" ∨ v.transport = text "TLS" ∨ v.transport = text "SCTP"
  gaps : Spaces v.gap1 ∧ Spaces v.gap2 ∧ Spaces v.gap3
  host : ∀ b ∈ v.host, b ≠ 0x20 ∧ b ≠ 0x3a ∧ b ≠ 0x3b
  port : ∀ g p, v.port = some (g, p) → Spaces g ∧ ∀ b ∈ p, b ≠ 0x20 ∧ b ≠ 0x3b
  params : AParams v.params

/-! ## The text to be written -/

/-- A URI; the user part with its `@` only if there is one. -/
def uriText (scheme user host port : Bytes) : Bytes :=
  scheme ++ [0x3a] ++ (if user = [] then [] else user ++ [0x40]) ++ host ++ portText port

/-- Parameters, each behind its semicolon; `=` only with a value. -/
def paramsText (ps : List (Bytes × Bytes)) : Bytes := (ps.map fun e => 0x3b :: (e.1 ++ if e.2 = [] then [] else 0x3d :: e.2)).flatten

/-- A quoted string: `"` and `\` behind a backslash, everything else as it is. -/
def quotedText (s : Bytes) : Bytes := [0x22] ++ (s.map fun b => if b = 0x22 ∨ b = 0x5c then [0x5c, b] else [b]).flatten ++ [0x22]

end Verif.Spec.Sips
