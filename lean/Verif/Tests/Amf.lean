import Verif.Model.Amf0
/-! # Vectors of the Go tests of `amf` (tests of the model, not proofs) -/
namespace Verif.Tests.Amf
open Verif Verif.Amf

/-- `new(EnDecAMF0).Decode(bytes.NewReader(b))` -/
def d0 (b : Bytes) : Res Val := (Amf0.decode (St.reader b)).1
/-- `new(EnDecAMF3).Decode(bytes.NewReader(b))` -/
def d3 (b : Bytes) : Res Val := (Amf3.decode (fun _ => none) (St.reader b)).1
/-- `new(EnDecAMF0).Encode(buf, v)`: count and bytes -/
def e0 (v : Val) : Res Nat × Bytes := let r := Amf0.encode v Sink.mem; (r.1, r.2.out)
/-- `new(EnDecAMF3).Encode(buf, v)`: count and bytes -/
def e3 (v : Val) : Res Nat × Bytes := let r := Amf3.encode v Sink.mem; (r.1, r.2.out)
/-- amf0_test.go `encodeAndDecodeAMF0` -/
def rt0 (v : Val) : Res Val := (Amf0.decode (St.buffer (e0 v).2)).1
/-- amf3_test.go `encodeAndDecodeAMF3` -/
def rt3 (v : Val) : Res Val := (Amf3.decode (fun _ => none) (St.buffer (e3 v).2)).1

/-- amf0_test.go TestEnDecAMF0_Decode_String -/
example : d0 [0x02, 0x00, 0x03, 0x66, 0x6f, 0x6f] = .ok (.str [0x66, 0x6f, 0x6f]) := by decide +kernel

/-- amf0_test.go TestEnDecAMF0_Decode_Object -/
example : d0 [0x03, 0x00, 0x03, 0x66, 0x6f, 0x6f, 0x02, 0x00, 0x03, 0x62, 0x61, 0x72, 0x00, 0x00, 0x09] = .ok (.obj [([0x66, 0x6f, 0x6f], .str [0x62, 0x61, 0x72])]) := by decide +kernel

/-- amf0_test.go TestEnDecAMF0_Decode_Number -/
example : d0 [0x00, 0x3f, 0xf3, 0x33, 0x33, 0x33, 0x33, 0x33, 0x33] = .ok (.f64 0x3ff3333333333333) := by decide +kernel

/-- amf0_test.go TestEnDecAMF0_Decode_True -/
example : d0 [1, 1] = .ok (.bool true) := by decide +kernel

/-- amf0_test.go TestEnDecAMF0_Decode_False -/
example : d0 [1, 0] = .ok (.bool false) := by decide +kernel

/-- amf0_test.go TestEnDecAMF0_Decode_Null -/
example : d0 [5] = .ok .nil := by decide +kernel

/-- amf0_test.go TestEnDecAMF0_Decode_Undefined -/
example : d0 [6] = .ok .nil := by decide +kernel

/-- amf0_test.go TestEnDecAMF0_Decode_Reference (the value under "foo" is the object itself) -/
example : d0 [0x03, 0x00, 0x03, 0x66, 0x6f, 0x6f, 0x07, 0x00, 0x00, 0x00, 0x00, 0x09] = .ok (.obj [([0x66, 0x6f, 0x6f], .shared 0)]) := by decide +kernel

/-- amf0_test.go TestEnDecAMF0_Decode_EcmaArray -/
example : d0 [0x08, 0x00, 0x00, 0x00, 0x01, 0x00, 0x03, 0x66, 0x6f, 0x6f, 0x02, 0x00, 0x03, 0x62, 0x61, 0x72, 0x00, 0x00, 0x09] = .ok (.obj [([0x66, 0x6f, 0x6f], .str [0x62, 0x61, 0x72])]) := by decide +kernel

/-- amf0_test.go TestEnDecAMF0_Decode_StrictArray -/
example : d0 [0x0a, 0x00, 0x00, 0x00, 0x03, 0x00, 0x40, 0x14, 0x00, 0x00, 0x00, 0x00, 0x00, 0x00, 0x02, 0x00, 0x03, 0x66, 0x6f, 0x6f, 0x05] = .ok (.arr [.f64 0x4014000000000000, .str [0x66, 0x6f, 0x6f], .nil]) := by decide +kernel

/-- amf0_test.go TestEnDecAMF0_Decode_Date -/
example : d0 [0x0b, 0x40, 0x14, 0x00, 0x00, 0x00, 0x00, 0x00, 0x00, 0x00, 0x00] = .ok (.f64 0x4014000000000000) := by decide +kernel

/-- amf0_test.go TestEnDecAMF0_Decode_LongString -/
example : d0 [0x0c, 0x00, 0x00, 0x00, 0x03, 0x66, 0x6f, 0x6f] = .ok (.str [0x66, 0x6f, 0x6f]) := by decide +kernel

/-- amf0_test.go TestEnDecAMF0_Decode_Unsupported -/
example : d0 [0x0d] = .ok .nil := by decide +kernel

/-- amf0_test.go TestEnDecAMF0_Decode_XmlDocument -/
example : d0 [0x0f, 0x00, 0x00, 0x00, 0x03, 0x66, 0x6f, 0x6f] = .ok (.str [0x66, 0x6f, 0x6f]) := by decide +kernel

/-- amf0_test.go TestEnDecAMF0_Decode_TypedObject -/
example : d0 [0x10, 0x00, 0x0f, 0x6f, 0x72, 0x67, 0x2e, 0x61, 0x6d, 0x66, 0x2e, 0x41, 0x53, 0x43, 0x6c, 0x61, 0x73, 0x73, 0x00, 0x03, 0x62, 0x61, 0x7a, 0x05, 0x00, 0x03, 0x66, 0x6f, 0x6f, 0x02, 0x00, 0x03, 0x62, 0x61, 0x72, 0x00, 0x00, 0x09] = .ok (.typed [0x6f, 0x72, 0x67, 0x2e, 0x61, 0x6d, 0x66, 0x2e, 0x41, 0x53, 0x43, 0x6c, 0x61, 0x73, 0x73] [([0x62, 0x61, 0x7a], .nil), ([0x66, 0x6f, 0x6f], .str [0x62, 0x61, 0x72])]) := by decide +kernel

/-- amf0_test.go TestEnDecAMF0_Encode_Number -/
example : e0 (.f64 0x3ff3333333333333) = (.ok 9, [0x00, 0x3f, 0xf3, 0x33, 0x33, 0x33, 0x33, 0x33, 0x33]) := by decide +kernel

/-- amf0_test.go TestEnDecAMF0_Encode_True -/
example : e0 (.bool true) = (.ok 2, [1, 1]) := by decide +kernel

/-- amf0_test.go TestEnDecAMF0_Encode_False -/
example : e0 (.bool false) = (.ok 2, [1, 0]) := by decide +kernel

/-- amf0_test.go TestEnDecAMF0_Encode_String -/
example : e0 (.str [0x66, 0x6f, 0x6f]) = (.ok 6, [0x02, 0x00, 0x03, 0x66, 0x6f, 0x6f]) := by decide +kernel

/-- amf0_test.go TestEnDecAMF0_Encode_Object -/
example : e0 (.obj [([0x66, 0x6f, 0x6f], .str [0x62, 0x61, 0x72])]) = (.ok 15, [0x03, 0x00, 0x03, 0x66, 0x6f, 0x6f, 0x02, 0x00, 0x03, 0x62, 0x61, 0x72, 0x00, 0x00, 0x09]) := by decide +kernel

/-- amf0_test.go TestEnDecAMF0_Encode_EcmaArray -/
example : (Amf0.encodeEcmaArray [([0x66, 0x6f, 0x6f], .str [0x62, 0x61, 0x72])] Sink.mem).2.out = [0x08, 0x00, 0x00, 0x00, 0x01, 0x00, 0x03, 0x66, 0x6f, 0x6f, 0x02, 0x00, 0x03, 0x62, 0x61, 0x72, 0x00, 0x00, 0x09] := by decide +kernel

/-- amf0_test.go TestEnDecAMF0_Encode_StrictArray -/
example : (e0 (.arr [.f64 0x4014000000000000, .str [0x66, 0x6f, 0x6f], .nil])).2 = [0x0a, 0x00, 0x00, 0x00, 0x03, 0x00, 0x40, 0x14, 0x00, 0x00, 0x00, 0x00, 0x00, 0x00, 0x02, 0x00, 0x03, 0x66, 0x6f, 0x6f, 0x05] := by decide +kernel

/-- amf0_test.go TestEnDecAMF0_Encode_Null -/
example : e0 .nil = (.ok 1, [5]) := by decide +kernel

/-- amf0_test.go TestEnDecAMF0_Number -/
example : rt0 (.f64 0x400921f9f01b866e) = .ok (.f64 0x400921f9f01b866e) := by decide +kernel

/-- amf0_test.go TestEnDecAMF0_Number -/
example : rt0 (.f64 0x419db30548000000) = .ok (.f64 0x419db30548000000) := by decide +kernel

/-- amf0_test.go TestEnDecAMF0_Number -/
example : rt0 (.f64 0xc04119999999999a) = .ok (.f64 0xc04119999999999a) := by decide +kernel

/-- amf0_test.go TestEnDecAMF0_String -/
example : rt0 (.str [0x61, 0x20, 0x70, 0x75, 0x70, 0x21]) = .ok (.str [0x61, 0x20, 0x70, 0x75, 0x70, 0x21]) := by decide +kernel

/-- amf0_test.go TestEnDecAMF0_String -/
example : rt0 (.str [0xe6, 0x97, 0xa5, 0xe6, 0x9c, 0xac, 0xe8, 0xaa, 0x9e]) = .ok (.str [0xe6, 0x97, 0xa5, 0xe6, 0x9c, 0xac, 0xe8, 0xaa, 0x9e]) := by decide +kernel

/-- amf0_test.go TestEnDecAMF0_Bool -/
example : [rt0 (.bool true), rt0 (.bool false)] = [.ok (.bool true), .ok (.bool false)] := by decide +kernel

/-- amf0_test.go TestEnDecAMF0_Null -/
example : rt0 .nil = .ok .nil := by decide +kernel

/-- amf0_test.go TestEnDecAMF0_Object -/
example : rt0 (.obj [([0x64, 0x6f, 0x67], .str [0x61, 0x6c, 0x66, 0x69, 0x65]), ([0x63, 0x6f, 0x66, 0x66, 0x65, 0x65], .bool true), ([0x64, 0x72, 0x75, 0x67, 0x73], .bool false), ([0x70, 0x69], .f64 0x400921f9f01b866e)]) = .ok (.obj [([0x64, 0x6f, 0x67], .str [0x61, 0x6c, 0x66, 0x69, 0x65]), ([0x63, 0x6f, 0x66, 0x66, 0x65, 0x65], .bool true), ([0x64, 0x72, 0x75, 0x67, 0x73], .bool false), ([0x70, 0x69], .f64 0x400921f9f01b866e)]) := by decide +kernel

/-- amf0_test.go TestEnDecAMF0_Array -/
example : rt0 (.arr [.f64 0x3ff0000000000000, .f64 0x4000000000000000, .f64 0x4008000000000000, .f64 0x4010000000000000, .f64 0x4014000000000000]) = .ok (.arr [.f64 0x3ff0000000000000, .f64 0x4000000000000000, .f64 0x4008000000000000, .f64 0x4010000000000000, .f64 0x4014000000000000]) := by decide +kernel

/-- amf0_test.go TestEnDecAMF0_RealCase1 -/
example : (Amf0.decodeBatch (St.buffer [0x02, 0x00, 0x07, 0x70, 0x75, 0x62, 0x6c, 0x69, 0x73, 0x68, 0x00, 0x00, 0x00, 0x00, 0x00, 0x00, 0x00, 0x00, 0x00, 0x05, 0x02, 0x00, 0x09, 0x63, 0x61, 0x6d, 0x73, 0x74, 0x72, 0x65, 0x61, 0x6d, 0x02, 0x00, 0x04, 0x6c, 0x69, 0x76, 0x65])).1 = .ok ([.str [0x70, 0x75, 0x62, 0x6c, 0x69, 0x73, 0x68], .f64 0, .nil, .str [0x63, 0x61, 0x6d, 0x73, 0x74, 0x72, 0x65, 0x61, 0x6d], .str [0x6c, 0x69, 0x76, 0x65]], none) := by decide +kernel

/-- amf3_test.go u29TestCases -/
def u29TestCases : List (UInt32 × Bytes) :=
  [(0x1, [0x01]),
   (0x2, [0x02]),
   (0x7f, [0x7f]),
   (0x80, [0x81, 0x00]),
   (0xff, [0x81, 0x7f]),
   (0x100, [0x82, 0x00]),
   (0x3fff, [0xff, 0x7f]),
   (0x4000, [0x81, 0x80, 0x00]),
   (0x7fff, [0x81, 0xff, 0x7f]),
   (0x8000, [0x82, 0x80, 0x00]),
   (0x1fffff, [0xff, 0xff, 0x7f]),
   (0x200000, [0x80, 0xc0, 0x80, 0x00]),
   (0x3fffff, [0x80, 0xff, 0xff, 0xff]),
   (0x400000, [0x81, 0x80, 0x80, 0x00]),
   (0xfffffff, [0xbf, 0xff, 0xff, 0xff])]

/-- amf3_test.go TestDecodeU29 -/
example : u29TestCases.map (fun c => (Amf3.readUint29 (St.buffer c.2)).1) = u29TestCases.map (fun c => .ok c.1) := by decide +kernel

/-- amf3_test.go TestEnDecAMF3_Encode_Integer -/
example : u29TestCases.map (fun c => (e3 (.uint false c.1.toNat)).2) = u29TestCases.map (fun c => 0x04 :: c.2) := by decide +kernel

/-- amf3_test.go TestEnDecAMF3_Encode_Integer, last case -/
example : e3 (.uint false 4194303) = (.ok 5, [0x04, 0x80, 0xff, 0xff, 0xff]) := by decide +kernel

/-- amf3_test.go TestEnDecAMF3_Decode_Undefined, _Null, _alse, _True -/
example : [d3 [0], d3 [1], d3 [2], d3 [3]] = [.ok .nil, .ok .nil, .ok (.bool false), .ok (.bool true)] := by decide +kernel

/-- amf3_test.go TestEnDecAMF3_Decode_Integer -/
example : d3 [0x04, 0xff, 0xff, 0x7f] = .ok (.uint false 2097151) := by decide +kernel

/-- amf3_test.go TestEnDecAMF3_Decode_Double -/
example : d3 [0x05, 0x3f, 0xf3, 0x33, 0x33, 0x33, 0x33, 0x33, 0x33] = .ok (.f64 0x3ff3333333333333) := by decide +kernel

/-- amf3_test.go TestEnDecAMF3_Decode_String -/
example : d3 [0x06, 0x07, 0x66, 0x6f, 0x6f] = .ok (.str [0x66, 0x6f, 0x6f]) := by decide +kernel

/-- amf3_test.go TestEnDecAMF3_Decode_Array -/
example : d3 [0x09, 0x13, 0x01, 0x06, 0x03, 0x31, 0x06, 0x03, 0x32, 0x06, 0x03, 0x33, 0x06, 0x03, 0x34, 0x06, 0x03, 0x35, 0x06, 0x03, 0x36, 0x06, 0x03, 0x37, 0x06, 0x03, 0x38, 0x06, 0x03, 0x39] = .ok (.ecma [.str [0x31], .str [0x32], .str [0x33], .str [0x34], .str [0x35], .str [0x36], .str [0x37], .str [0x38], .str [0x39]] []) := by decide +kernel

/-- amf3_test.go TestEnDecAMF3_Decode_Object -/
example : d3 [0x0a, 0x23, 0x1f, 0x6f, 0x72, 0x67, 0x2e, 0x61, 0x6d, 0x66, 0x2e, 0x41, 0x53, 0x43, 0x6c, 0x61, 0x73, 0x73, 0x07, 0x62, 0x61, 0x7a, 0x07, 0x66, 0x6f, 0x6f, 0x01, 0x06, 0x07, 0x62, 0x61, 0x72] = .ok (.obj [([0x62, 0x61, 0x7a], .nil), ([0x66, 0x6f, 0x6f], .str [0x62, 0x61, 0x72])]) := by decide +kernel

/-- amf3_test.go TestEnDecAMF3_Encode_EmptyString -/
example : e3 (.str []) = (.ok 2, [0x06, 0x01]) := by decide +kernel

/-- amf3_test.go TestEnDecAMF3_Encode_Undefined -/
example : (let r := Amf3.encodeMarker 0x00 Sink.mem; (r.1, r.2.out)) = (.ok 1, [0x00]) := by decide +kernel

/-- amf3_test.go TestEnDecAMF3_Encode_Null, _False, _True -/
example : [e3 .nil, e3 (.bool false), e3 (.bool true)] = [(.ok 1, [1]), (.ok 1, [2]), (.ok 1, [3])] := by decide +kernel

/-- amf3_test.go TestEnDecAMF3_Encode_Double -/
example : (e3 (.f64 0x3ff3333333333333)).2 = [0x05, 0x3f, 0xf3, 0x33, 0x33, 0x33, 0x33, 0x33, 0x33] := by decide +kernel

/-- amf3_test.go TestEnDecAMF3_Encode_String -/
example : (e3 (.str [0x66, 0x6f, 0x6f])).2 = [0x06, 0x07, 0x66, 0x6f, 0x6f] := by decide +kernel

/-- amf3_test.go TestEnDecAMF3_Encode_Array -/
example : (e3 (.arr [.str [0x31], .str [0x32], .str [0x33], .str [0x34], .str [0x35], .str [0x36], .str [0x37], .str [0x38], .str [0x39]])).2 = [0x09, 0x13, 0x01, 0x06, 0x03, 0x31, 0x06, 0x03, 0x32, 0x06, 0x03, 0x33, 0x06, 0x03, 0x34, 0x06, 0x03, 0x35, 0x06, 0x03, 0x36, 0x06, 0x03, 0x37, 0x06, 0x03, 0x38, 0x06, 0x03, 0x39] := by decide +kernel

/-- amf3_test.go TestEnDecAMF3_Encode_Object -/
example : (e3 (.typed [0x6f, 0x72, 0x67, 0x2e, 0x61, 0x6d, 0x66, 0x2e, 0x41, 0x53, 0x43, 0x6c, 0x61, 0x73, 0x73] [([0x66, 0x6f, 0x6f], .str [0x62, 0x61, 0x72]), ([0x62, 0x61, 0x7a], .nil)])).2 = [0x0a, 0x23, 0x1f, 0x6f, 0x72, 0x67, 0x2e, 0x61, 0x6d, 0x66, 0x2e, 0x41, 0x53, 0x43, 0x6c, 0x61, 0x73, 0x73, 0x07, 0x62, 0x61, 0x7a, 0x07, 0x66, 0x6f, 0x6f, 0x01, 0x06, 0x07, 0x62, 0x61, 0x72] := by decide +kernel

/-- amf3_test.go TestRWUint29 -/
example : (Amf3.readUint29 (St.buffer (Amf3.writeUint29 100 Sink.mem).2.out)).1 = .ok 100 := by decide +kernel

/-- amf3_test.go TestCodeUint29 -/
example : (Amf3.decodeUint29 (St.buffer (Amf3.encodeUint29 100 Sink.mem).2.out)).1 = .ok (false, 100) := by decide +kernel

/-- amf3_test.go TestEnDecAMF3_Integer -/
example : rt3 (.uint false 0) = .ok (.uint false 0) := by decide +kernel

/-- amf3_test.go TestEnDecAMF3_Integer -/
example : rt3 (.uint false 1245) = .ok (.uint false 1245) := by decide +kernel

/-- amf3_test.go TestEnDecAMF3_Integer -/
example : rt3 (.uint false 123456) = .ok (.uint false 123456) := by decide +kernel

/-- amf3_test.go TestEnDecAMF3_Double -/
example : rt3 (.f64 0x400921f9f01b866e) = .ok (.f64 0x400921f9f01b866e) := by decide +kernel

/-- amf3_test.go TestEnDecAMF3_Double -/
example : rt3 (.f64 0x41d26580b4800000) = .ok (.f64 0x41d26580b4800000) := by decide +kernel

/-- amf3_test.go TestEnDecAMF3_Double -/
example : rt3 (.f64 0xc0c81c8000000000) = .ok (.f64 0xc0c81c8000000000) := by decide +kernel

/-- amf3_test.go TestEnDecAMF3_String -/
example : rt3 (.str [0x61, 0x20, 0x70, 0x75, 0x70, 0x21]) = .ok (.str [0x61, 0x20, 0x70, 0x75, 0x70, 0x21]) := by decide +kernel

/-- amf3_test.go TestEnDecAMF3_String -/
example : rt3 (.str [0xe6, 0x97, 0xa5, 0xe6, 0x9c, 0xac, 0xe8, 0xaa, 0x9e]) = .ok (.str [0xe6, 0x97, 0xa5, 0xe6, 0x9c, 0xac, 0xe8, 0xaa, 0x9e]) := by decide +kernel

/-- amf3_test.go TestEnDecAMF3_Bool, _Null -/
example : [rt3 (.bool true), rt3 (.bool false), rt3 .nil] = [.ok (.bool true), .ok (.bool false), .ok .nil] := by decide +kernel

/-- amf3_test.go TestEnDecAMF3_Date (t2) -/
example : rt3 (.time 431525048) = .ok (.time 431525048) := by decide +kernel

/-- amf3_test.go TestEnDecAMF3_Array -/
example : rt3 (.arr [.str [0x61, 0x6d, 0x66], .f64 0x4000000000000000, .f64 0xc04179999999999a, .bool true, .bool false]) = .ok (.ecma [.str [0x61, 0x6d, 0x66], .f64 0x4000000000000000, .f64 0xc04179999999999a, .bool true, .bool false] []) := by decide +kernel

/-- amf3_test.go TestEnDecAMF3_ByteArray -/
example : rt3 (.bytes [1, 2, 3, 4, 5, 0]) = .ok (.bytes [1, 2, 3, 4, 5, 0]) := by decide +kernel

/-- Dates out of the range of `int64` (on amd64). -/
example : d3 ([8, 1] ++ be64 0x7E37E43C8800759C) = .ok (.time (-(2 ^ 63))) ∧ d3 ([8, 1] ++ be64 0xFE37E43C8800759C) = .ok (.time (-(2 ^ 63))) ∧
    d3 ([8, 1] ++ be64 0x7FF8000000000000) = .ok (.time (-(2 ^ 63))) ∧ d3 ([8, 1] ++ be64 0x7FF0000000000000) = .ok (.time (-(2 ^ 63))) := by
  decide +kernel

/-- metadata.go: a packet that does not begin with a string. -/
example : Amf0.delMetaHeader Amf0.decode (St.reader []) [5] = .err .other ∧ Amf0.addMetaHeader Amf0.decode (St.reader []) [5] = .err .other ∧
    Amf0.delMetaHeader Amf0.decode (St.reader []) [] = .err .eof ∧ Amf0.addMetaHeader Amf0.decode (St.reader []) [] = .err .eof := by
  decide +kernel

end Verif.Tests.Amf
