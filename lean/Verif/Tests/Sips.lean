import Verif.Model.SipsMsg
/-! # Vectors of the Go tests of `sips` (tests of the model, not proofs)

user_test.go also expects display names (`at.Equal("Bob", u.Name)`); `NewSIPUser` as it stands returns none (see C75), so
those assertions are left out here and below the name is empty. -/
namespace Verif.Tests.Sips
open Verif.Sips Verif.Str

def b (s : String) : Bytes := s.toUTF8.toList
def U : Unicode := ⟨id, id, id⟩

/-- auth_test.go TestNewSIPAuth -/
example : newSIPAuth U (b "Digest username=\"Alice\", realm=\"atlanta.com\",\n nonce=\"84a4cc6f3082121f32b42a2187831a9e\",\n response=\"7587245234b3434cc3412213e5f113a5432\"") =
    .ok [(b "username", b "Alice"), (b "realm", b "atlanta.com"), ([], []), (b "nonce", b "84a4cc6f3082121f32b42a2187831a9e"),
      (b "response", b "7587245234b3434cc3412213e5f113a5432")] := by decide +kernel

/-- cseq_test.go -/
example : newSIPCseq (b "4711 INVITE") = ⟨b "4711", b "INVITE"⟩ ∧ (⟨b "4711", b "INVITE"⟩ : Cseq).bytes = b "4711 INVITE" := by
  decide +kernel

/-- header_test.go TestSIPHeader_Bytes -/
example : hdrBytes (setFirstHeader U [] (b "Via") (b "SIP/2.0/UDP 192.168.1.102:5060;rport;branch=z9hG4bK1135200957")) =
    b "via: SIP/2.0/UDP 192.168.1.102:5060;rport;branch=z9hG4bK1135200957\r\n" ∧
  getFirstHeader U (setFirstHeader U [] (b "Via") (b "SIP/2.0/UDP 192.168.1.102:5060;rport;branch=z9hG4bK1135200957")) (b "via") =
    b "SIP/2.0/UDP 192.168.1.102:5060;rport;branch=z9hG4bK1135200957" ∧
  hdrBytes (setFirstHeader U [] (b "Call-ID") (b "1808031968@192.168.1.102")) = b "call-id: 1808031968@192.168.1.102\r\n" ∧
  hdrBytes [(b "Contact", [b "\"Mr. Watson\" <sip:watson@worcester.bell-telephone.com>", b " ;q=0.7; expires=3600,",
    b " \"Mr. Watson\" <mailto:watson@bell-telephone.com> ;q=0.1"])] =
    b "Contact: \"Mr. Watson\" <sip:watson@worcester.bell-telephone.com>\r\n  ;q=0.7; expires=3600,\r\n  \"Mr. Watson\" <mailto:watson@bell-telephone.com> ;q=0.1\r\n" := by
  decide +kernel

/-- request_test.go TestRequest_ParseURI -/
example : newSIPRequest (b "sip:01798300765@87.252.61.202:5060;user=phone") =
    .ok ⟨b "sip", b "01798300765", b "87.252.61.202", b "5060", [(b "user", b "phone")]⟩ ∧
  newSIPRequest (b "sip:01798300765@87.252.61.202:5060") = .ok ⟨b "sip", b "01798300765", b "87.252.61.202", b "5060", []⟩ ∧
  newSIPRequest (b "sip:0179@8300765@87.252.61.202:5060") = .ok ⟨b "sip", b "0179", b "8300765@87.252.61.202", b "5060", []⟩ ∧
  newSIPRequest (b "sip:user:password@host:port;uri-parameters?headers") =
    .ok ⟨b "sip", b "user:password", b "host", b "port", [(b "uri-parameters?headers", [])]⟩ := by decide +kernel

/-- request_test.go TestRequest_String -/
example : (⟨b "sip", b "01798300765", b "87.252.61.202", b "5060", [(b "user", b "phone")]⟩ : Request).bytes =
    b "sip:01798300765@87.252.61.202:5060;user=phone" ∧
  (⟨b "sip", b "01798@300765", b "87.252.61.202", b "5060", []⟩ : Request).bytes = b "sip:01798@300765@87.252.61.202:5060" := by
  decide +kernel

/-- request_test.go TestSIP_ParseFirstLine -/
example : parseFirstLine U (b "INVITE sip:01798300765@87.252.61.202:5060;user=phone SIP/2.0") Sip.new =
    (.ok (), { Sip.new with method := 1, version := 2, request := some ⟨b "sip", b "01798300765", b "87.252.61.202", b "5060", [(b "user", b "phone")]⟩ }) ∧
  parseFirstLine U (b "SIP/2.0 200 OK") Sip.new =
    (.ok (), { Sip.new with isResponse := true, version := 2, responseCode := 200, responseStatus := b "OK" }) ∧
  statusText 200 = b "OK" := by decide +kernel

/-- user_test.go TestNewSIPUser, TestNewSIPUser2, TestNewSIPUser1 (without the display names) -/
example : newSIPUser (b "\"Bob bb\" <sips:bob@biloxi.com> ;tag=a48s") =
    .ok ⟨b "sips", [], b "bob", b "biloxi.com", [], [(b "tag", b "a48s")]⟩ ∧
  newSIPUser (b "sip:+12125551212@phone2net.com;tag=887s") =
    .ok ⟨b "sip", [], b "+12125551212", b "phone2net.com", [], [(b "tag", b "887s")]⟩ ∧
  newSIPUser (b "Anonymous <sip:c8oqz84zk7z@privacy.org>;tag=hyh8") =
    .ok ⟨b "sip", [], b "c8oqz84zk7z", b "privacy.org", [], [(b "tag", b "hyh8")]⟩ ∧
  newSIPUser (b " <sip:34020000001320000001@192.168.1.102:5060> ;tag=1086912856 ") =
    .ok ⟨b "sip", [], b "34020000001320000001", b "192.168.1.102", b "5060", [(b "tag", b "1086912856")]⟩ ∧
  newSIPUser (b "<sips:bob@192.0.2.4>;expires=60") = .ok ⟨b "sips", [], b "bob", b "192.0.2.4", [], [(b "expires", b "60")]⟩ ∧
  newSIPUser (b "\"Mr. Watson\" <sip:watson@worcester.bell-telephone.com> ;q=0.7; expires=3600, \"Mr. Watson\" <mailto:watson@bell-telephone.com> ;q=0.1") =
    .ok ⟨b "sip", [], b "watson", b "worcester.bell-telephone.com", [],
      [(b "q", b "0.1"), (b "expires", b "3600"), (b "\"Mr. Watson\" <mailto:watson@bell-telephone.com>", [])]⟩ := by
  decide +kernel

/-- user_test.go TestSIPUser_Bytes -/
example : (⟨b "sip", b "Anonymous", b "c8oqz84zk7z", b "privacy.org", [], [(b "tag", b "hyh8")]⟩ : User).bytes U =
    b "Anonymous <sip:c8oqz84zk7z@privacy.org>;tag=hyh8" ∧
  (⟨b "sips", b "Bob", b "bob", b "biloxi.com", [], [(b "tag", b "a48s")]⟩ : User).bytes U =
    b "\"Bob\" <sips:bob@biloxi.com>;tag=a48s" ∧
  (⟨b "sip", [], b "34020000001320000001", b "192.168.1.102", b "5060", [(b "tag", b "1086912856")]⟩ : User).bytes U =
    b "<sip:34020000001320000001@192.168.1.102:5060>;tag=1086912856" := by decide +kernel

/-- via_test.go -/
example : newSIPVia (b "SIP/2.0/UDP 192.168.1.102:5060;rport;branch=z9hG4bK352699498") =
    .ok ⟨b "UDP", b "192.168.1.102", b "5060", [(b "rport", []), (b "branch", b "z9hG4bK352699498")]⟩ ∧
  (⟨b "UDP", b "192.168.1.102", b "5060", [(b "branch", b "z9hG4bK352699498")]⟩ : Via).bytes =
    b "SIP/2.0/UDP 192.168.1.102:5060;branch=z9hG4bK352699498" ∧
  (⟨b "UDP", b "192.168.1.102", b "5060", [(b "rport", [])]⟩ : Via).bytes = b "SIP/2.0/UDP 192.168.1.102:5060;rport" := by
  decide +kernel

/-- easy_test.go -/
example :
  ((makeRequest 3 (some ⟨b "sip", b "01798300765", b "87.252.61.202", [], []⟩) none []).bytes U id).1 =
    .ok (b "BYE sip:01798300765@87.252.61.202 SIP/2.0\r\ncontent-length: 0\r\n") ∧
  ((makeRequest 3 (some ⟨b "sip", b "01798300765", b "87.252.61.202", [], []⟩) none [1, 2, 3]).bytes U id).1 =
    .ok (b "BYE sip:01798300765@87.252.61.202 SIP/2.0\r\ncontent-length: 3\r\n\r\n\x01\x02\x03") ∧
  ((makeResponse 200 (some (setContentLength U [] 1024)) []).bytes U id).1 = .ok (b "SIP/2.0 200 OK\r\ncontent-length: 0\r\n") := by
  decide +kernel

/-- sips_test.go TestSIP_Parse -/
def message : Bytes := b "MESSAGE sip:34020000002000000001@10.104.157.255:5060 SIP/2.0
Via: SIP/2.0/UDP 192.168.1.102:5060;rport;branch=z9hG4bK1135200957
From: <sip:34020000001320000001@192.168.1.102:5060>;tag=1086912856
To: <sip:34020000002000000001@10.104.157.255:5060>
Call-ID: 1808031968@192.168.1.102
CSeq: 20 MESSAGE
Max-Forwards: 70
User-Agent: SIP UAS V2.1.4.500306
Content-Type: Application/MANSCDP+xml
Content-Length:   180

<?xml version=\"1.0\" encoding=\"GB2312\" ?>
<Notify>
    <CmdType>Keepalive</CmdType>
    <SN>204</SN>
    <DeviceID>34020000001320000001</DeviceID>
    <Status>OK</Status>
</Notify>"

/-- What the test looks at. -/
structure Seen where
  err : Res Unit
  method : UInt16
  isResponse : Bool
  parts : List (Option Bytes)
  payload : Nat
  deriving DecidableEq

def seen (r : Res Unit × Sip) : Seen :=
  ⟨r.1, r.2.method, r.2.isResponse, [r.2.fromU.map (·.user), r.2.toU.map (·.user), r.2.via.map (·.host), r.2.cseq.map (·.method)],
    r.2.payload.length⟩

example : seen (parseBytes U Sip.new message) = ⟨.ok (), 13, false, [some (b "34020000001320000001"),
    some (b "34020000002000000001"), some (b "192.168.1.102"), some (b "MESSAGE")], 180⟩ := by decide +kernel

end Verif.Tests.Sips
