import Verif.Spec.Sips
/-!
# Header sections of other senders (RFC 3261, 7.3.1)

A header field is described by the choices of its sender: letter case of the name, spaces around the colon, trailing spaces,
CRLF or LF, and continuation lines.  Fields of the same name may be repeated.  Nothing here refers to the model.
-/
namespace Verif.Spec.Sips

/-- A continuation line: blanks, text, and whether there is a CR before the LF. -/
structure Cont where
  blanks : Bytes
  text : Bytes
  cr : Bool

/-- A header field as sent. -/
structure HField where
  name : Bytes
  /-- spaces before the colon -/
  pre : Nat
  /-- spaces after the colon -/
  post : Nat
  value : Bytes
  /-- spaces at the end of the line -/
  trail : Nat
  cr : Bool
  conts : List Cont

/-- The end of a line, without its LF. -/
def lineEnd (cr : Bool) : Bytes := if cr then [13] else []

def Cont.line (c : Cont) : Bytes := c.blanks ++ c.text ++ lineEnd c.cr

/-- The lines of a field, without LF. -/
def HField.lines (f : HField) : List Bytes :=
  (f.name ++ List.replicate f.pre 0x20 ++ 0x3a :: (List.replicate f.post 0x20 ++ f.value ++ List.replicate f.trail 0x20) ++
    lineEnd f.cr) :: f.conts.map Cont.line

/-- The value meant: a line fold counts as one space. -/
def HField.den (f : HField) : Bytes := f.value ++ (f.conts.map fun c => 0x20 :: c.text).flatten

/-- At least one blank (space or tab), then text that begins and ends with a visible ASCII character. -/
structure Cont.Fits (c : Cont) : Prop where
  blanks : c.blanks ≠ [] ∧ ∀ b ∈ c.blanks, b = 0x20 ∨ b = 9
  text : c.text ≠ [] ∧ ∀ b ∈ c.text, b ≠ 13 ∧ b ≠ 10
  first : ∀ b, c.text.head? = some b → 0x21 ≤ b ∧ b ≤ 0x7e
  last : ∀ b, c.text.getLast? = some b → 0x21 ≤ b ∧ b ≤ 0x7e

/-- The name is visible ASCII without a colon.  A value that is continued is not empty on its first line. -/
structure HField.Fits (f : HField) : Prop where
  name : f.name ≠ [] ∧ ∀ b ∈ f.name, 0x21 ≤ b ∧ b ≤ 0x7e ∧ b ≠ 0x3a
  value : HeaderValue f.value
  nonempty : f.conts ≠ [] → f.value ≠ []
  conts : ∀ c ∈ f.conts, c.Fits

/-- The values sent under a name, in the order of the fields; names are compared without regard to letter case. -/
def fieldValues (fs : List HField) (n : Bytes) : List Bytes :=
  (fs.filter fun f => f.name.map lowerAscii == n.map lowerAscii).map HField.den

/-- The lines of all the fields, without LF. -/
def fieldLines (fs : List HField) : List Bytes := (fs.map HField.lines).flatten

/-- The reason phrases of RFC 3261, section 21. -/
def reasonPhrases : List (Int × String) := [(100, "Trying"), (180, "Ringing"), (181, "Call Is Being Forwarded"), (182, "Queued"),
  (183, "Session Progress"), (200, "OK"), (300, "Multiple Choices"), (301, "Moved Permanently"), (302, "Moved Temporarily"),
  (305, "Use Proxy"), (380, "Alternative Service"), (400, "Bad Request"), (401, "Unauthorized"), (402, "Payment Required"),
  (403, "Forbidden"), (404, "Not Found"), (405, "Method Not Allowed"), (406, "Not Acceptable"),
  (407, "Proxy Authentication Required"), (408, "Request Timeout"), (410, "Gone"), (413, "Request Entity Too Large"),
  (414, "Request-URI Too Long"), (415, "Unsupported Media Type"), (416, "Unsupported URI Scheme"), (420, "Bad Extension"),
  (421, "Extension Required"), (423, "Interval Too Brief"), (480, "Temporarily Unavailable"),
  (481, "Call/Transaction Does Not Exist"), (482, "Loop Detected"), (483, "Too Many Hops"), (484, "Address Incomplete"),
  (485, "Ambiguous"), (486, "Busy Here"), (487, "Request Terminated"), (488, "Not Acceptable Here"), (491, "Request Pending"),
  (493, "Undecipherable"), (500, "Server Internal Error"), (501, "Not Implemented"), (502, "Bad Gateway"),
  (503, "Service Unavailable"), (504, "Server Time-out"), (505, "Version Not Supported"), (513, "Message Too Large"),
  (600, "Busy Everywhere"), (603, "Decline"), (604, "Does Not Exist Anywhere"), (606, "Not Acceptable")]

/-- A header value of its own line: not empty, no CR, no LF, a visible ASCII character at either end. -/
structure LineText (v : Bytes) : Prop where
  nonempty : v ≠ []
  chars : ∀ b ∈ v, b ≠ 13 ∧ b ≠ 10
  first : ∀ b, v.head? = some b → 0x21 ≤ b ∧ b ≤ 0x7e
  last : ∀ b, v.getLast? = some b → 0x21 ≤ b ∧ b ≤ 0x7e

end Verif.Spec.Sips
