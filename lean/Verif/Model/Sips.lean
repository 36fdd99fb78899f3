import Verif.Model.Str
/-!
# Model of package `sips`: the pieces of a message

Covers base.go, header_args.go, cseq.go, via.go, user.go, request.go (all but `ParseFirstLine`), auth.go,
method.go, version.go, status.go and header.go.

Conventions.  Strings are byte lists.  The parsing loops walk over `uri` with an index `pos`; the model carries the
rest `uri[pos:]` instead of the index, so `Substring(uri, pos, pos+4)` is `substring rest 0 4`.  A Go map is an
association list with distinct keys in the order in which `range` visits it.  The field `Src` (a copy of the input)
is omitted.  `Bytes` also stores its result in `Src`; that effect is omitted too.
-/
namespace Verif.Sips
open Verif.Str

/-! ## Go maps -/

/-- `m[k] = v`. -/
def mset {α} (m : List (Bytes × α)) (k : Bytes) (v : α) : List (Bytes × α) :=
  if m.any (fun e => e.1 == k) then m.map (fun e => if e.1 = k then (k, v) else e) else m ++ [(k, v)]

/-- `m[k]`; `none` if the key is missing. -/
def mget {α} : List (Bytes × α) → Bytes → Option α
  | [], _ => none
  | (k', v) :: m, k => if k' = k then some v else mget m k

/-! ## base.go -/

/-- base.go:36-55 `Substring`. -/
def substring (v : Bytes) (fr to : Int) : Res Bytes :=
  let fr := if fr < 0 then 0 else fr
  let to := if to < 0 then 0 else to
  if fr > v.length ∨ fr > to then .ok []
  else if to > v.length then goSlice v fr v.length
  else goSlice v fr to

/-! ## header_args.go -/

/-- header_args.go:14 `Args`. -/
abbrev Args := List (Bytes × Bytes)

/-- header_args.go:58-60: the local variables of `ParseList`. -/
structure ListSt where
  list : List Bytes := []
  escape : Bool := false
  quote : Bool := false
  b : Bytes := []
  deriving DecidableEq, Repr

/-- header_args.go:61-84: one iteration. -/
def listStep (s : ListSt) (r : Nat) : ListSt :=
  if s.escape then { s with b := s.b ++ encodeRune r, escape := false }
  else if s.quote then
    if r = 0x5c then { s with escape := true }
    else { s with quote := (if r = 0x22 then false else s.quote), b := s.b ++ encodeRune r }
  else if r = 0x2c ∨ r = 0x3b ∨ r = 0x0a then { s with list := s.list ++ [trimSpace s.b], b := [] }
  else if r = 0x22 then { s with quote := true, b := s.b ++ encodeRune r }
  else { s with b := s.b ++ encodeRune r }

/-- header_args.go:57-90 `ParseList`. -/
def parseList (value : Bytes) : List Bytes :=
  let s := (runes value).foldl listStep {}
  if s.b ≠ [] then s.list ++ [trimSpace s.b] else s.list

/-- header_args.go:28-36: one pair. -/
def parsePair (m : Args) (pair : Bytes) : Res Args :=
  let i := index c!"=" pair
  if i < 0 then .ok (mset m pair [])
  else do
    let v ← goSlice pair (i + 1) pair.length
    let first ← goIndex v 0
    let last ← goIndex v (v.length - 1)
    let v ← (if first = c!"\"" ∧ last = c!"\"" then goSlice v 1 (v.length - 1) else .ok v)
    let k ← goSlice pair 0 i
    .ok (mset m k v)

/-- header_args.go:27-37: the loop of `ParseArgsPairs`. -/
def pairLoop : List Bytes → Args → Res Args
  | [], m => .ok m
  | p :: ps, m => parsePair m p >>= pairLoop ps

/-- header_args.go:25-39 `ParseArgsPairs`. -/
def parseArgsPairs (value : Bytes) : Res Args := pairLoop (parseList (trimSpace value)) []

/-- header_args.go:42-49 `ParseArgs`. -/
def parseArgs (str : Bytes) : Res Args :=
  let argLocation := index c!";" str
  if argLocation < 0 then .ok []
  else do
    let r ← goSlice str (argLocation + 1) str.length
    parseArgsPairs r

/-- header_args.go:94-96 `Del`. -/
def Args.del (a : Args) (key : Bytes) : Args := a.filter (fun e => e.1 ≠ key)
/-- header_args.go:100-102 `Get`. -/
def Args.get (a : Args) (key : Bytes) : Bytes := (mget a key).getD []
/-- header_args.go:105-107 `Set`.  A nil map, on which Go panics, is not represented: every function of the package that returns an
`Args` makes the map (NewArgs, ParseArgs, ParseArgsPairs). -/
def Args.set (a : Args) (key value : Bytes) : Args := mset a key value

/-- header_args.go:113-119: one iteration. -/
def semiItem (e : Bytes × Bytes) : Bytes :=
  if e.2 = [] then b!";" ++ e.1 else b!";" ++ e.1 ++ b!"=" ++ e.2

/-- header_args.go:111-121 `SemicolonString`. -/
def semicolonString (a : Args) : Bytes := (a.map semiItem).flatten

/-- header_args.go:125-135 `CommaString`. -/
def commaString (U : Unicode) (a : Args) : Res Bytes :=
  if a.length = 0 then .ok []
  else
    let result := (a.map fun e => e.1 ++ b!"=" ++ quote U e.2 ++ b!", ").flatten
    goSlice result 0 (result.length - 2)

/-- header_args.go:138-148 `CRLFString`. -/
def crlfString (a : Args) : Bytes :=
  if a.length = 0 then [] else (a.map fun e => e.1 ++ b!"=" ++ e.2 ++ b!"\r\n").flatten

/-! ## cseq.go -/

/-- cseq.go:11-15 `SIPCseq`. -/
structure Cseq where
  id : Bytes
  method : Bytes
  deriving DecidableEq, Repr

/-- cseq.go:32-49: the loop; `inMethod` is `state == _FieldMethod`. -/
def cseqLoop : Bytes → Bool → Cseq → Cseq
  | [], _, c => c
  | b :: r, false, c => if b = c!" " then cseqLoop r true c else cseqLoop r false { c with id := c.id ++ [b] }
  | b :: r, true, c => cseqLoop r true { c with method := c.method ++ [b] }

/-- cseq.go:23-55 `NewSIPCseq`. -/
def newSIPCseq (uri : Bytes) : Cseq := cseqLoop uri false ⟨[], []⟩

/-- cseq.go:58-73 `Bytes`, `String`. -/
def Cseq.bytes (c : Cseq) : Bytes := c.id ++ b!" " ++ c.method

/-! ## request.go -/

/-- base.go:5-13: the states of the parsing loops. -/
inductive Field where
  | base | name | user | host | port
  deriving DecidableEq, Repr

/-- The parts collected by the loops of `NewSIPRequest` and `NewSIPUser`. -/
structure Parts where
  uriType : Bytes := b!"sip"
  name : Bytes := []
  user : Bytes := []
  host : Bytes := []
  port : Bytes := []
  deriving DecidableEq, Repr

/-- request.go:26-33 `SIPRequest`. -/
structure Request where
  uriType : Bytes
  user : Bytes
  host : Bytes
  port : Bytes
  args : Args
  deriving DecidableEq, Repr

/-- request.go:55-71 (and user.go:64-80): a scheme at the start of `rest`: its name and what follows. -/
def scheme (rest : Bytes) : Res (Option (Bytes × Bytes)) := do
  let s4 ← substring rest 0 4
  if s4 = b!"sip:" ∨ s4 = b!"tel:" then do
    let t ← goSlice rest 0 3
    .ok (some (t, rest.drop 4))
  else do
    let s5 ← substring rest 0 5
    if s5 = b!"sips:" then do
      let t ← goSlice rest 0 4
      .ok (some (t, rest.drop 5))
    else .ok none

/-- request.go:52-94: the loop; returns the parts and `uri[pos:]`. -/
def requestLoop : Nat → Bytes → Field → Parts → Res (Parts × Bytes)
  | 0, _, _, _ => .diverge
  | _ + 1, [], _, a => .ok (a, [])
  | fuel + 1, b :: r, st, a =>
    if b = c!";" then .ok (a, b :: r)
    else match st with
      | .base => do
        match ← scheme (b :: r) with
        | some (t, rest) => requestLoop fuel rest .user { a with uriType := t }
        | none => requestLoop fuel r .base a
      | .user =>
        if b = c!"@" then requestLoop fuel r .host a
        else requestLoop fuel r .user { a with user := a.user ++ [b] }
      | .host =>
        if b = c!":" then requestLoop fuel r .port a
        else requestLoop fuel r .host { a with host := a.host ++ [b] }
      | .port => requestLoop fuel r .port { a with port := a.port ++ [b] }
      | .name => requestLoop fuel r .name a

/-- request.go:41-105 `NewSIPRequest`. -/
def newSIPRequest (uri : Bytes) : Res Request := do
  let (a, rest) ← requestLoop (uri.length + 1) uri .base {}
  let args ← (if 0 < rest.length then parseArgs rest else .ok [])
  .ok { uriType := a.uriType, user := a.user, host := a.host, port := a.port, args := args }

/-- request.go:121-124, user.go:157-161, via.go:113-116: the optional port. -/
def portBytes (p : Bytes) : Bytes := if p.length > 0 then b!":" ++ p else []

/-- request.go:125-127, user.go:165-167, via.go:117-119: the optional arguments. -/
def argsBytes (a : Args) : Bytes := if a.length > 0 then semicolonString a else []

/-- request.go:108-136 `Bytes`, `String`. -/
def Request.bytes (s : Request) : Bytes :=
  s.uriType ++ b!":" ++ s.user ++ b!"@" ++ s.host ++ portBytes s.port ++ argsBytes s.args

/-! ## user.go -/

/-- user.go:19-27 `SIPUser`. -/
structure User where
  uriType : Bytes
  name : Bytes
  user : Bytes
  host : Bytes
  port : Bytes
  args : Args
  deriving DecidableEq, Repr

/-- user.go:55-116: the loop; returns the parts and `uri[pos:]`. -/
def userLoop : Nat → Bytes → Field → Parts → Res (Parts × Bytes)
  | 0, _, _, _ => .diverge
  | _ + 1, [], _, a => .ok (a, [])
  | fuel + 1, b :: r, st, a =>
    if b = c!";" then .ok (a, b :: r)
    else if b = c!">" ∨ (b = c!" " ∧ st ≠ .name) then userLoop fuel r .base a
    else match st with
      | .base => do
        match ← scheme (b :: r) with
        | some (t, rest) => userLoop fuel rest .user { a with uriType := t }
        | none =>
          if b = c!"\"" ∨ a.uriType = [] then userLoop fuel (b :: r) .name a
          else userLoop fuel r .base a
      | .name =>
        if b = c!"\"" ∨ b = c!"<" then userLoop fuel r .base a
        else userLoop fuel r .name { a with name := a.name ++ [b] }
      | .user =>
        if b = c!"@" then userLoop fuel r .host a
        else userLoop fuel r .user { a with user := a.user ++ [b] }
      | .host =>
        if b = c!":" then userLoop fuel r .port a
        else userLoop fuel r .host { a with host := a.host ++ [b] }
      | .port => userLoop fuel r .port { a with port := a.port ++ [b] }

/-- user.go:44-132 `NewSIPUser`.  One character may take two iterations (user.go:82-84). -/
def newSIPUser (uri : Bytes) : Res User := do
  let (a, rest) ← userLoop (2 * uri.length + 1) uri .base {}
  let args ← (if 0 < rest.length then parseArgs rest else .ok [])
  .ok { uriType := a.uriType, name := if a.name.length > 0 then trimSpace a.name else a.name,
        user := a.user, host := a.host, port := a.port, args := args }

/-- user.go:139-148: the display name. -/
def nameBytes (U : Unicode) (n : Bytes) : Bytes :=
  if n.length > 0 then (if n = b!"Anonymous" then n else quote U n) ++ b!" " else []

/-- user.go:135-176 `Bytes`, `String`. -/
def User.bytes (U : Unicode) (s : User) : Bytes :=
  nameBytes U s.name ++ b!"<" ++ s.uriType ++ b!":" ++ s.user ++ b!"@" ++ s.host ++ portBytes s.port ++ b!">" ++
    argsBytes s.args

/-- user.go:179-190 `ToRequest`. -/
def User.toRequest (s : User) : Request := ⟨s.uriType, s.user, s.host, s.port, s.args⟩
/-- request.go:139-150 `ToUser`. -/
def Request.toUser (s : Request) : User := ⟨s.uriType, [], s.user, s.host, s.port, s.args⟩

/-! ## via.go -/

/-- via.go:16-22 `SIPVia`. -/
structure Via where
  trans : Bytes
  host : Bytes
  port : Bytes
  args : Args
  deriving DecidableEq, Repr

/-- via.go:62-74, with `89` for an unknown transport: the transport and what follows.  `pos++` beyond the end only
ends the loop. -/
def viaTrans (old : Bytes) (rest : Bytes) : Res (Bytes × Bytes) := do
  let s3 ← substring rest 0 3
  if s3 = b!"UDP" ∨ s3 = b!"TCP" ∨ s3 = b!"TLS" then .ok (s3, rest.drop 3)
  else do
    let s4 ← substring rest 0 4
    if s4 = b!"SCTP" then .ok (s4, rest.drop 4) else .ok (old, rest.drop 1)

/-- via.go:40-90: the loop; returns the parts and `uri[pos:]`. -/
def viaLoop : Nat → Bytes → Field → Via → Res (Via × Bytes)
  | 0, _, _, _ => .diverge
  | _ + 1, [], _, a => .ok (a, [])
  | fuel + 1, b :: r, st, a =>
    if b = c!";" then .ok (a, b :: r)
    else if b = c!" " then viaLoop fuel r st a
    else match st with
      | .base => do
        let s8 ← substring (b :: r) 0 8
        if s8 = b!"SIP/2.0/" then do
          let (t, rest) ← viaTrans a.trans ((b :: r).drop 8)
          viaLoop fuel rest .host { a with trans := t }
        else viaLoop fuel r .base a
      | .host =>
        if b = c!":" then viaLoop fuel r .port a
        else viaLoop fuel r .host { a with host := a.host ++ [b] }
      | .port => viaLoop fuel r .port { a with port := a.port ++ [b] }
      | .name => viaLoop fuel r .name a
      | .user => viaLoop fuel r .user a

/-- via.go:30-100 `NewSIPVia`. -/
def newSIPVia (uri : Bytes) : Res Via := do
  let (a, rest) ← viaLoop (uri.length + 1) uri .base ⟨[], [], [], []⟩
  let args ← (if 0 < rest.length then parseArgs rest else .ok [])
  .ok { a with args := args }

/-! ## method.go, version.go, status.go -/

/-- method.go:33-68 `SIPMethod.String`. -/
def methodString : UInt16 → Bytes
  | 1 => b!"INVITE"
  | 2 => b!"ACK"
  | 3 => b!"BYE"
  | 4 => b!"CANCEL"
  | 5 => b!"OPTIONS"
  | 6 => b!"REGISTER"
  | 7 => b!"PRACK"
  | 8 => b!"SUBSCRIBE"
  | 9 => b!"NOTIFY"
  | 10 => b!"PUBLISH"
  | 11 => b!"INFO"
  | 12 => b!"REFER"
  | 13 => b!"MESSAGE"
  | 14 => b!"UPDATE"
  | 15 => b!"PING"
  | _ => b!"Unknown method"

/-- method.go:72-107 `GetSIPMethod`: the switch. -/
def methodOf (m : Bytes) : Res UInt16 :=
  if m = b!"INVITE" then .ok 1
  else if m = b!"ACK" then .ok 2
  else if m = b!"BYE" then .ok 3
  else if m = b!"CANCEL" then .ok 4
  else if m = b!"OPTIONS" then .ok 5
  else if m = b!"REGISTER" then .ok 6
  else if m = b!"PRACK" then .ok 7
  else if m = b!"SUBSCRIBE" then .ok 8
  else if m = b!"NOTIFY" then .ok 9
  else if m = b!"PUBLISH" then .ok 10
  else if m = b!"INFO" then .ok 11
  else if m = b!"REFER" then .ok 12
  else if m = b!"MESSAGE" then .ok 13
  else if m = b!"UPDATE" then .ok 14
  else if m = b!"PING" then .ok 15
  else .err .other

/-- method.go:72-107 `GetSIPMethod`. -/
def getSIPMethod (U : Unicode) (method : Bytes) : Res UInt16 := methodOf (toUpper U method)

/-- version.go:18-28 `SIPVersion.String`. -/
def versionString (v : UInt8) : Bytes := if v = 1 then b!"SIP/1.0" else b!"SIP/2.0"

/-- version.go:31-40 `GetSIPVersion`: the switch. -/
def versionOf (v : Bytes) : Res UInt8 :=
  if v = b!"SIP/1.0" then .ok 1 else if v = b!"SIP/2.0" then .ok 2 else .err .other

/-- version.go:31-40 `GetSIPVersion`. -/
def getSIPVersion (U : Unicode) (version : Bytes) : Res UInt8 := versionOf (toUpper U version)

/-- via.go:103-128 `Bytes`, `String`. -/
def Via.bytes (s : Via) : Bytes :=
  versionString 2 ++ b!"/" ++ s.trans ++ b!" " ++ s.host ++ portBytes s.port ++ argsBytes s.args

/-- status.go:73-124 `statusTexts`. -/
def statusTexts : List (Int × Bytes) := [
  (100, b!"Trying"),
  (180, b!"Ringing"),
  (181, b!"Call Is Being Forwarded"),
  (182, b!"Queued"),
  (183, b!"Session Progress"),
  (200, b!"OK"),
  (300, b!"Multiple Choices"),
  (301, b!"Moved Permanently"),
  (302, b!"Moved Temporarily"),
  (305, b!"Use Proxy"),
  (380, b!"Alternative Service"),
  (400, b!"Bad Request"),
  (401, b!"Unauthorized"),
  (402, b!"Payment Required"),
  (403, b!"Forbidden"),
  (404, b!"Not Found"),
  (405, b!"Method Not Allowed"),
  (406, b!"Not Acceptable"),
  (407, b!"Proxy Authentication Required"),
  (408, b!"Request Timeout"),
  (410, b!"Gone"),
  (413, b!"Request Entity Too Large"),
  (414, b!"Request-URI Too Long"),
  (415, b!"Unsupported Media Type"),
  (416, b!"Unsupported URI Scheme"),
  (420, b!"Bad Extension"),
  (421, b!"Extension Required"),
  (423, b!"Interval Too Brief"),
  (480, b!"No Response"),
  (481, b!"Call/Transaction Does Not Exist"),
  (482, b!"Loop Detected"),
  (483, b!"Too Many Hops"),
  (484, b!"Address Incomplete"),
  (485, b!"Ambiguous"),
  (486, b!"Busy Here"),
  (487, b!"Request Terminated"),
  (488, b!"Not Acceptable Here"),
  (491, b!"Request Pending"),
  (493, b!"Undecipherable"),
  (500, b!"Server Internal Error"),
  (501, b!"Not Implemented"),
  (502, b!"Bad Gateway"),
  (503, b!"Service Unavailable"),
  (504, b!"Server Timeout"),
  (505, b!"Version Not Supported"),
  (513, b!"Message Too Large"),
  (600, b!"Busy Everywhere"),
  (603, b!"Decline"),
  (604, b!"Does Not Exist Anywhere"),
  (606, b!"Not Acceptable")]

/-- status.go:127-129 `Text`. -/
def statusText (s : Int) : Bytes := (statusTexts.lookup s).getD []
/-- status.go:132-139 `Int`, `String`. -/
def statusString (s : Int) : Bytes := itoa s

/-! ## auth.go -/

/-- auth.go:21-34 `NewSIPAuth`: the arguments. -/
def newSIPAuth (U : Unicode) (src : Bytes) : Res Args := do
  if src.length ≥ 8 then
    let h ← goSlice src 0 7
    if toLower U h = b!"digest " then do
      let r ← goSlice src 7 src.length
      parseArgsPairs r
    else .ok []
  else .ok []

/-! ## header.go -/

/-- header.go:12-32 `compactSipHeadersCorrespondence`. -/
def compactForms : List (Bytes × Bytes) := [
  (b!"accept-contact", b!"a"),
  (b!"allow-events", b!"u"),
  (b!"call-id", b!"i"),
  (b!"contact", b!"m"),
  (b!"content-encoding", b!"e"),
  (b!"content-length", b!"l"),
  (b!"content-type", b!"c"),
  (b!"event", b!"o"),
  (b!"from", b!"f"),
  (b!"identity", b!"y"),
  (b!"refer-to", b!"r"),
  (b!"referred-by", b!"b"),
  (b!"reject-contact", b!"j"),
  (b!"request-disposition", b!"d"),
  (b!"session-expires", b!"x"),
  (b!"subject", b!"s"),
  (b!"supported", b!"k"),
  (b!"to", b!"t"),
  (b!"via", b!"v")]

/-- header.go:35 `SIPHeader`. -/
abbrev Hdr := List (Bytes × List Bytes)

/-- `s[k]` for a map of slices: nil if the key is missing. -/
def vals (s : Hdr) (k : Bytes) : List Bytes := (mget s k).getD []

/-- `compactSipHeadersCorrespondence[k]`: the empty string if the key is missing. -/
def compactOf (k : Bytes) : Bytes := (mget compactForms k).getD []

/-- header.go:50-61 `GetHeader`. -/
def getHeader (U : Unicode) (s : Hdr) (headerName : Bytes) : List Bytes :=
  let n := toLower U headerName
  if (mget s n).isSome then
    if (vals s n).length > 0 then vals s n
    else if (vals s (compactOf n)).length > 0 then vals s (compactOf n)
    else []
  else []

/-- header.go:66-76 `GetFirstHeader`. -/
def getFirstHeader (U : Unicode) (s : Hdr) (headerName : Bytes) : Bytes :=
  let n := toLower U headerName
  if (mget s n).isSome then
    match vals s n with
    | v :: _ => v
    | [] => match vals s (compactOf n) with
      | v :: _ => v
      | [] => []
  else []

/-- header.go:79-82 `SetFirstHeader` (on a map that is not nil). -/
def setFirstHeader (U : Unicode) (s : Hdr) (headerName header : Bytes) : Hdr :=
  mset s (toLower U headerName) [header]

/-- header.go:97-104: one header. -/
def headerItem (e : Bytes × List Bytes) : Bytes :=
  e.1 ++ b!":" ++ (e.2.map fun v => b!" " ++ v ++ b!"\r\n").flatten

/-- header.go:92-112 `SIPHeader.Bytes`, `String`, visiting the map in the order of the list. -/
def hdrBytes (s : Hdr) : Bytes := (s.map headerItem).flatten

/-- header.go:115-117 `GetSIPFrom`. -/
def getSIPFrom (U : Unicode) (s : Hdr) : Res User := newSIPUser (getFirstHeader U s b!"from")
/-- header.go:120-122 `GetSIPTo`. -/
def getSIPTo (U : Unicode) (s : Hdr) : Res User := newSIPUser (getFirstHeader U s b!"to")
/-- header.go:125-127 `GetSIPContact`. -/
def getSIPContact (U : Unicode) (s : Hdr) : Res User := newSIPUser (getFirstHeader U s b!"contact")
/-- header.go:130-132 `GetSIPCseq`. -/
def getSIPCseq (U : Unicode) (s : Hdr) : Cseq := newSIPCseq (getFirstHeader U s b!"cseq")
/-- header.go:135-137 `GetSIPVia`. -/
def getSIPVia (U : Unicode) (s : Hdr) : Res Via := newSIPVia (getFirstHeader U s b!"via")
/-- header.go:140-142 `GetContentLength`. -/
def getContentLength (U : Unicode) (s : Hdr) : Res Int := atoi (getFirstHeader U s b!"content-length")
/-- header.go:145-147 `GetCallID`. -/
def getCallID (U : Unicode) (s : Hdr) : Bytes := getFirstHeader U s b!"call-id"
/-- header.go:150-152 `GetAuthorization`. -/
def getAuthorization (U : Unicode) (s : Hdr) : Res Args := newSIPAuth U (getFirstHeader U s b!"authorization")
/-- header.go:155-157 `GetExpires`. -/
def getExpires (U : Unicode) (s : Hdr) : Bytes := getFirstHeader U s b!"expires"

/-- header.go:160-164 `CopyFrom`.  Simplification: `src` is a map other than `s`
(`Maps.copy` of Model/SipsShare also covers the same map). -/
def copyFrom (U : Unicode) (s src : Hdr) : List Bytes → Hdr
  | [] => s
  | v :: names => copyFrom U (setFirstHeader U s v (getFirstHeader U src v)) src names

/-- header.go:167-169 `SetContentLength`. -/
def setContentLength (U : Unicode) (s : Hdr) (size : Int) : Hdr := setFirstHeader U s b!"content-length" (itoa size)
/-- header.go:172-174 `SetCallID`. -/
def setCallID (U : Unicode) (s : Hdr) (v : Bytes) : Hdr := setFirstHeader U s b!"call-id" v
/-- header.go:177-179 `SetMaxForwards`. -/
def setMaxForwards (U : Unicode) (s : Hdr) (max : Int) : Hdr := setFirstHeader U s b!"max-forwards" (itoa max)
/-- header.go:182-184 `SetReasonPhrase`. -/
def setReasonPhrase (U : Unicode) (s : Hdr) (v : Bytes) : Hdr := setFirstHeader U s b!"reason-phrase" v
/-- header.go:187-189 `SetSupported`. -/
def setSupported (U : Unicode) (s : Hdr) (v : Bytes) : Hdr := setFirstHeader U s b!"supported" v
/-- header.go:192-194 `SetSubject`. -/
def setSubject (U : Unicode) (s : Hdr) (v : Bytes) : Hdr := setFirstHeader U s b!"subject" v
/-- header.go:197-199 `SetContentType`. -/
def setContentType (U : Unicode) (s : Hdr) (v : Bytes) : Hdr := setFirstHeader U s b!"content-type" v
/-- header.go:202-204 `SetAllow`. -/
def setAllow (U : Unicode) (s : Hdr) (v : Bytes) : Hdr := setFirstHeader U s b!"allow" v
/-- header.go:207-209 `SetSIPFrom`. -/
def setSIPFrom (U : Unicode) (s : Hdr) (u : User) : Hdr := setFirstHeader U s b!"from" (u.bytes U)
/-- header.go:212-214 `SetSIPTo`. -/
def setSIPTo (U : Unicode) (s : Hdr) (u : User) : Hdr := setFirstHeader U s b!"to" (u.bytes U)
/-- header.go:217-219 `SetSIPContact`. -/
def setSIPContact (U : Unicode) (s : Hdr) (u : User) : Hdr := setFirstHeader U s b!"contact" (u.bytes U)
/-- header.go:222-224 `SetSIPCseq`. -/
def setSIPCseq (U : Unicode) (s : Hdr) (c : Cseq) : Hdr := setFirstHeader U s b!"cseq" c.bytes
/-- header.go:227-229 `SetSIPVia`. -/
def setSIPVia (U : Unicode) (s : Hdr) (v : Via) : Hdr := setFirstHeader U s b!"via" v.bytes

end Verif.Sips
