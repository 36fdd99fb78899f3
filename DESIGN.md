# Formal model of goav — design

Subject: the Go sources in `/repo` (packages `packet`, `gop`, `amf`, `container/flv`,
`container/ts`, `container/ts/table`, `parser`, `parser/aac`, `parser/h264`,
`parser/mp3`, `sips`).  Tool: Lean 4.33.0; Mathlib is imported module by module, only where it helps.

## 1. Layout

* `lean/Verif/Model/*`  — the model, one definition per Go function, each citing file and lines.
* `lean/Verif/Spec/*`   — small specifications that do not use the model (FLV reader, TS
  demultiplexer, bit-serial CRC, ADTS reader, ...).
* `lean/Verif/Lemmas/*` — helper lemmas.
* `lean/Verif/Props/*`  — the property theorems, one section per property id, with `example`s
  that meet the hypotheses non-trivially.
* `lean/Verif/Tests/*`  — sample evaluations against the vectors of the repo's own Go tests.
  They are tests of the model, not proofs.
* `properties.jsonl`, `MANIFEST.json` (property -> theorems), `seeded/LOG.jsonl` (bug seeding).

## 2. Trusted base

* Lean's kernel, and of Lean's axioms only `propext`, `Classical.choice`, `Quot.sound`.
  No own axioms, no `sorry`, no `native_decide`, no `bv_decide`.
* The reading of Go below, and that the model transcribes the source. Nothing is extracted from
  Go; the correspondence is by the citations on each definition plus the sample tests.

### Go semantics used
* Machine integers are `UInt8/16/32/64` with wrap-around where the code relies on widths; `int` is
  64 bit and modelled by `Int`/`Nat` where a bound makes overflow impossible (stated per definition).
* Outcomes are explicit: `Res.ok`, `Res.err` (a returned `error`), `Res.panic`
  (index/slice out of range, nil dereference, failed type assertion, division by zero), and
  `Res.diverge` (loop fuel exhausted; proved unreachable).
* Effects are a state next to the outcome, so partial output and state changes before an error are visible.
* `io.Writer` is a sink with an arbitrary failure plan: at its k-th call it may fail after accepting any
  prefix of the bytes. `bytes.Buffer` is the plan without failures.
* `io.Reader` in `amf` is an in-memory reader: remaining bytes, the `bytes.Reader`/`bytes.Buffer`
  difference for zero-length reads at the end, and an arbitrary short-read function.
* Go maps are association lists with distinct keys listed in the order in which `range` visits them.
  Theorems quantify over all lists, hence over all iteration orders. Model/SipsShare puts header maps in a
  store, so that several messages can hold the same one; Model/SipsArgs does so for argument maps.
* `float64` is its 64-bit pattern; int->float and the date arithmetic use an exact integer softfloat.
* Strings are byte lists.

### Not modelled
* Memory allocation failure, stack overflow on deep nesting, integer width other than 64 bit.
* Error texts (`fmt`, `pkg/errors`); only which class of error (EOF matters to `DecodeBatch`).
* Concurrency: the code starts no goroutine and uses no lock; all types are single-threaded.
* Unicode case mapping, `unicode.IsPrint` and time zones: uninterpreted parameters where they occur.

## 3. Method per property

Round trip = encode/decode identity by structural induction; invariant = induction over an arbitrary
list of calls; refinement = equality with an abstract function of the history; exact = the function
equals a closed-form specification.  "Refuted" means the natural property is false for the code: the
negation is proved with a concrete witness and a `_partial` theorem gives the exact guard under which
it holds.

| Id | Modelled | Method |
|----|----------|--------|
| C01 | packet.Types | refinement to "marked since last reset" |
| C02 | gop package, all functions | refinement: ring buffer = last n groups of the history |
| C03 | same | corollary of C02 invariant |
| C04 | same | corollary of C02 on the abstract side |
| C05 | same | exact error condition plus state equality |
| C06 | same, with a failing packet writer | exact: accepted = prefix |
| C07-C08 | flv tag.go, demuxer.go | exact against a field-level spec |
| C09 | same | case analysis over all byte strings |
| C10 | same | refuted (no sign extension); partial for non-negative times |
| C11 | flv muxer.go | exact |
| C12 | flv mixer.go, muxer.go | round trip with an independent FLV reader, forwards and backwards |
| C13 | same | invariant over call histories |
| C14 | muxer + amf metadata + AMF0 decoder | exact |
| C15 | muxer with failing sink | prefix lemma |
| C16 | same | refuted (24-bit mask); partial below 2^24 |
| C17,C18,C20,C21,C26 | amf0.go | round trip / prefix lemma by mutual structural induction |
| C19 | both reader kinds | refuted for every batch on a bytes.Reader with a trailing empty string; proved for every other batch |
| C22 | DecodeBatch | refuted for every batch followed by the first byte of any longer value; partial |
| C23 | Decode, DecodeBatch | termination by fuel bound; refuted; the panics are characterised by `Spec/AmfEarly` (a reference to the next complex value at any depth): every panic has this cause, and every such reference behind values of the specification panics |
| C24 | encodeDate/decodeDate | refuted (extra number marker) |
| C25 | decodeReference | refuted for every array and typed object, at any later state; partial for objects |
| C27 | softfloat | exact value of the bit pattern |
| C28 | metadata.go | round trip |
| C29-C31,C34,C37-C39 | amf3.go | round trip / induction |
| C32 | amf3 Encode | refuted (negative ints); partial for non-negative |
| C33 | decodeObject, amf3_external.go | refuted (flag test `==1` never true); sealed members proved for all handlers |
| C35 | decodeObject, decodeArray | refuted (placeholder cached); partial for strings, dates, XML, byte arrays |
| C36 | decodeByteArray, decodeXmlDoc | refuted (zero padding) |
| C40-C41 | crc32.go | equality with bit-serial CRC by linearity; residue; injectivity |
| C42-C44 | PAT/PMT/SDT | independent section parser applied to the packet |
| C45 | SaveMetadata/SDT | refuted (long names panic); partial with length bound |
| C46 | PMT | refuted when both streams are present; partial |
| C47-C48 | Mux | independent TS demultiplexer; refuted for key frames with PES < 184 bytes; partial otherwise |
| C49 | Mux histories | invariant |
| C50-C53 | pes.go | exact numeric decode; C51 refuted (2^33-1 subtracted) |
| C54-C55 | sync.go | invariant over timestamp histories |
| C56 | Update | refuted (32-bit wrap); partial below 47721859 ms |
| C57 | descriptor.go | exact |
| C58 | Mux with failing sink | prefix |
| C59-C63 | h264 parser | exact against a NAL-list spec; C63 refuted (append) |
| C64-C65 | aac parser | independent ADTS reader |
| C66,C68 | parser.go | invariant over Parse histories |
| C67 | mp3 parser | refuted (wrong bits) |
| C69 | cseq.go | round trip over all ids without space and all methods |
| C70 | base.go Substring | exact |
| C71 | method.go, version.go | both directions over all ASCII texts, table in the specification |
| C72-C74 | request.go, via.go, user.go | round trip for every order of the argument map |
| C75 | user.go | refuted for every name: the display name is always lost; addresses without one proved |
| C76-C77 | header_args.go, UTF-8 decoding and trimming of the Go library | round trip for text of any alphabet; exact characterisation of the panics of all constructors, refuted for `;k=` |
| C78 | Parse, ParseHeader | refuted (continuation line first; empty parameter values); partial over all fragmentations; exact characterisation of the panics of well-formed requests and responses |
| C79 | GetHeader, GetFirstHeader | letter case proved; compact forms refuted |
| C80 | MakeRequest/MakeResponse, Bytes, Parse | round trip of everything but the body, for every order of the header map |
| C81 | Parse, fillBody over a model of bufio.Reader | refuted for every message; exact payload |
| C82 | Parse over two fragmentations of the same bytes | relational induction over the reads |
| C83 | SetFirstHeader, GetFirstHeader, CopyFrom | map laws |
| C84 | SIP.Bytes | exact output; refuted when the caller uses another spelling or a nil map |
| C85-C87 | ts mixer | composition of the above; C86 refuted for every small key frame; C87 refuted, and proved PID by PID for histories that save no sequence header for the PID after its first packet |
| C88 | AMF3 DecodeBatch | batch round trip on one decoder |
| C89 | AMF3 Decode on truncated encodings | every proper prefix of an encoding without byte arrays is rejected |
| C90 | pes.go encodeTs | exact prefix bits; refuted when PTS and DTS are both present |
| C91 | descriptor.go CountryAvailability | refuted by exact output (length byte 4, five bytes follow) |
| C92 | SDT histories | refuted: the counter nibble is 0 in every call |
| C93 | addADTSToFrame | refuted for frames over 8184 bytes and object types over 4; partial: what is rejected |
| C94 | h264 parseSpecificInfo/annexbLoop | refuted: the configured NAL length size is ignored; partial for size 4 |
| C95 | parsers with failing writers | output is a prefix of the reliable output |
| C96 | AMF3 Decode/DecodeBatch on messages described by a tree of producer choices | simulation: decoder tables match what was sent so far; mutual recursion over the tree; of repeated member names the last value counts (`lastWins`) |
| C97 | AMF3 integers vs signed U29 | partial below 2^28, refuted for every other integer |
| C98 | AMF0 Decode/DecodeBatch on messages described by a tree of producer choices, references (also cyclic) included | as C96, with embedded AMF3 and the invariant that the reference table holds the objects sent so far; refuted for every flag byte 2..255 |
| C99 | DelMetaHeader | exact for the short string; refuted for every payload after the long string |
| C100 | NewSIPAuth, ParseList, CommaString on credentials described by their sender's choices | induction over characters and parameters; refuted for control characters |
| C101 | Parse on header sections described by their sender's choices (letter case, spaces, line ends, folds, repetition) | the header map shows exactly the fields read so far; then the addresses |
| C102 | status.go, SIP.Bytes | whole table compared with RFC 3261; refuted for 480, 504 and received phrases |
| C103 | SIPHeader.Bytes, Parse | what is written is a field with continuation lines, so C101 applies |
| C104 | ToRequest, ToUser | through the round trips C72 and C74 |
| C105 | Parse into a used object | C101 from a non-empty header map; requests after responses refuted |
| C106 | Parse, bufio.Reader.ReadSlice | C101 for lines that fit; refuted for every line that fills the buffer |
| C107 | both AMF decoders on readers with an arbitrary bound on every single Read | third law of the codec combinators (`Codec.frag`); refuted for strings and AMF3 byte arrays |
| C108 | all AMF encoders on arbitrary failing writers | one induction over the encoder combinators (`Emitting`); refuted for EncodeWithAMF3 and EncodeXmlDocument |
| C109 | whole sessions: Demux, Update, Mux, SetTsHeader and all silent calls in any interleaving | receiver in Spec/TsStream.lean (tables, reassembly per PID, PES); appending one PES packet appends one unit; C85 and C86 for each step; refuted for every session with a small key frame |
| C110 | all typed setters and getters of SIPHeader | one look-up law (`Puts`) for setFirstHeader, instantiated for every setter with the literal header name |
| C111 | NewSIPRequest, NewSIPUser on URIs without user part | refuted for all of them; scheme and parameters proved right |
| C112 | NewSIPRequest, NewSIPVia with a colon in the host | refuted; partial: the text survives |
| C113 | scheme and transport recognition | refuted for all of the inputs described; lower-case schemes and the four transports proved |
| C114 | repeated Parse on one reader | C101 for an arbitrary reader; exact reader state for messages in one read; refuted for following bytes in the same read and short bodies |
| C115 | SIP.Bytes, Parse on an open connection | written message as list of non-blank lines; Parse succeeds only if a blank line was there |
| C116 | Bytes then Parse of any object | as C80 from any state and version; exact payload after one hop |
| C117 | Parse | invariant of the line loop and the body loop: buffer ++ rest of reader = input |
| C118 | Parse, GetContentLength | inversion of Parse: success gives a number in the header; refuted; header fields proved readable afterwards |
| C119 | Parse, ParseHeader | only spaces are trimmed; refuted for tabs; two messages that differ in spaces only report the same |
| C120 | Parse, GetContentLength, strconv.Atoi | inversion of Parse, exact description of Atoi; refuted for negative numbers |
| C121 | header.go getters | from the C101 description of received headers; credentials by C100 |
| C122 | args.go Set, Get, Del | association list laws, wire part by C76 |
| C123 | CRLFString, ParseArgsPairs | induction over the lines; refuted for empty values |
| C124 | Parse, ParseHeader | write to a nil map at the first field line; refuted; every object with an empty map proved |
| C125 | metadata.go with AMF3 decoder | exact output of both functions; refuted for AMF3, proved for AMF0 |
| C126 | NewSIPUser, NewSIPVia, ParseArgs | texts described by the sender's choices (Spec/SipsAddr); big-step lemmas for the loops |
| C127 | NewSIPUser | exact result for two addresses; refuted; one address proved |
| C128 | Bytes, String of the header value types | equality with an independent writer (Spec/SipsAddr); refuted without user part |
| C129 | Demux of video tags of all codecs | media compared with the format (`videoMedia`); refuted universally for key and inter frames of other codecs and for short tags |
| C130 | Demux, Cache, SendTo | the replay with and without the end-of-sequence tag compared; refuted for every full cache |
| C131 | Demux, Cache, Mixer together (Spec/Relay: server with shared packets) | invariant over all sequences of messages and subscriptions: the store holds each packet as sent or without @setDataFrame, the cache is the run of the history; result stated on the sent bytes only and read back with the FLV reader |
| C132 | Demux, UpdateTimeStamp, Mux, parser/mp3 | PES packet read back from the stream (`Carries`); its data is always empty |
| C133 | Demux, then Mux (or SaveAVCHeader / SaveAACHeader) of two mixers on the same packet | both streams read back with the receiver; refuted universally for AAC frames and sequence headers |
| C134 | mixers and packets with shared buffers (Model/TsBuf) | simulation between the world with shared buffers (every growth, every division into writes) and a world of values (Spec/TsShare) for calls in time; refuted for every two packets of which the second is not longer, and end to end for video |
| C135 | FLV mixer and the packet (Model/Flv) | packet after `mux` computed for every reachable mixer and writer; non-script packets and other strings kept; refuted for every packet with "@setDataFrame" and, with the header twice, for what two mixers write |
| C136 | transport stream mixer given sequence headers (Model/Ts, Model/Parser) | configuration carried to the next frame by C85/C86 over the history of the mixer; refuted for every valid H.264 and AAC sequence header: `Mux` sends bytes for it |
| C137 | server with cache, FLV subscribers and transport stream viewers that share the packets (Spec/RelayTs on Model/Gop, Flv, TsMixer) | invariant of the shared store as in C131; every packet a viewer is given still holds the publisher's bytes; induction over the messages a viewer sees with the history of their mixer, then C109; refuted for every small key frame |
| C138 | decoder state kept between calls (Model/Amf), messages without references (Spec/AmfReuse) | the meaning of such a message does not depend on what has been sent before (mutual induction); then C96/C98 from an arbitrary state; universal refutations for messages with references |
| C139 | float64 conversion (Model/Float64), encoders and decoders | `ofRatio` is proved to be IEEE 754 rounding to nearest, ties to even, against a specification that compares with every other finite pattern; then the codec theorems |
| C140 | `decodeDate` (amf3.go) with float64 division and truncation (Model/Float64) | the rounded quotient lies between two representable numbers (from C139's rounding theorem), so the whole part is right; patterns of integers are unique |
| C141 | SetHeader, MakeRequest, MakeResponse, Bytes, CopyFrom with header maps in a store (Model/SipsShare) | a write changes one entry of one map, and that entry is set again before every write |
| C142 | CopyFrom, MakeResponse, Bytes, Parse | what `Parse` shows of the request (C101) are headers that survive (C80) |
| C143 | RegisterExternalHandler, NewEnDecAMF3, NewEnDecAMF0 (Model/AmfReg.lean) | induction over the registrations; the map of AMF0 decoders is nil |
| C144 | SaveAVCHeader, SaveAACHeader, SetTsHeader | `Accepted` counts successful calls only; compared with what the mixer announces (C46) |
| C145 | Mux, SetTsHeader of the mixer | three writes as chunks; C58 and C95 for `Mux` |
| C146 | Decode, DecodeBatch of both packages | `Read`/`Read0` (Spec/AmfAccept) are inductive relations between bytes, values and what has been sent, written from the two specifications; soundness by induction over the fuel, with `Holds` (decoder tables = what has been sent) as invariant |
| C147 | Decode, DecodeBatch of both packages | completeness for the same relations with `strict = true`, by induction over the derivation; uniqueness of the meaning follows |
| C148 | Parse, ParseFirstLine, ParseHeader of a new object | relations `Section` (lines of the header section), `Says` (first line), `Heads` (header lines) of `Spec/SipsAccept.lean`; soundness by induction over the read loop and over the lines; a rejection theorem for the first line |
| C149 | Decode, DecodeBatch of both decoders | `count`, `Fits` of `Spec/AmfSize.lean`; induction over the derivations of `Read`/`Read0` that C146 gives for what is returned |
| C150 | Decode of both decoders; Encode on values with shared maps (`Model/Amf0Shared.lean`, recursion depth as fuel) | `Stands` of `Spec/AmfShared.lean` (which tree a value with shared maps is); invariant of the reference table over all of `Decode`; a value is a tree or its encoding diverges for every depth; AMF3 by induction over `Read` and C30 |
| C151 | Parse with every outcome | frame lemma over the read loop for text and body; rejected first lines computed from the words of the line; the fields that stay by C101 from a non-empty header map; refutations for every message without content length, every unknown version, every status line without a number |
| C152 | both encoders | grammar of the two formats without references, with the meaning of the bytes (`Spec/AmfEncode`: signed 29-bit integers, nearest doubles, milliseconds); structural recursion over the value through the `Emits` lemmas, for maps through the sorting permutation; refutations for all integers from 2^28 on, all dates of AMF0, all empty and too long names |
| C153 | the setters and getters of the header map, MakeRequest, MakeResponse, CopyFrom, Bytes, Parse | the calls as data (`Spec/SipsDialog`: `Put`, the last call for a header `Stands`, what is `Found`); invariant over the calls: distinct names, sendable single values, the standing calls are in the map; then C80 twice, C69/C73/C74 for the typed values and C79 for the look-ups |
| C154 | Decode of both decoders; the AMF3 encoder and EncodeWithAMF3 on values with shared maps (`Model/Amf3Shared.lean`, recursion depth as fuel) | `Stands` as for C150: with enough depth the encoder for shared maps is the one for the tree, which C152 covers; conversely, an encoding that succeeds makes the value a tree (induction over the depth). AMF3 to AMF0: the derivation of C146 gives the sizes, `ShortNames` the names, then C152 |
| C155 | both encoders on all values, supported or not | `Supported`, `Tree`, `Short` of `Spec/AmfReject.lean`; structural recursion with a predicate that decides success of each action (`Decides`, `Starts`); what a receiver makes of the next message by C17 and C97 |
| C156 | MakeRequest, MakeResponse, Bytes, Parse | corollary of C80 for plain values; for a value with a line break: the text of the message is, for some map iteration order, that of the message with both headers, to which C80 applies |
| C157 | ToUser, ToRequest, NewSIPUser, NewSIPRequest, Set, Del with argument maps in a store (`Model/SipsArgs.lean`) | calls as data (`ArgCall`), induction over the calls; what the receiver of the origin finds by C72 and C74 |
| C158 | the decoders of C96, C98 and C146 and the parser of C59, used again and again (`session`, `announced`) | induction over the session: the meaning of a message without references adds the same number of entries whatever was sent before (`Lemmas/AmfReuse.lean`); bound by induction over the grammar of C146 (`Lemmas/AmfHold.lean`) |
| C159 | Parse, Bytes, SetBody, SetHeader, MakeRequest, MakeResponse on an object with any history (`Used`) | invariant of the life of the object: the header map exists, and it is empty unless the start line is known |
| C160 | Parse, LayerContents, LayerPayload with the arrays behind the slices (`Model/SipsSlice.lean`) | the two slices are adjacent windows of one array; frame lemmas for `append` and assignment; refuted for every message with a body |
| C161 | SDT, PAT, PMT, Mux; the returned slices are the arrays of the muxer (`Model/TsHeld.lean`) | frame lemmas for all calls (`Since`); the counters (C42, C43) or descriptors (C44) show that the next packet is another one |
| C162 | MakeRequest, Bytes, Parse, ParseFirstLine | a request with such an address is written like another request with a further header (and another iteration order), to which C80 applies; spaces by C148 |
| C163 | NewPes, GeneratePesHeader (`Pes.generate`) on one object | state of the object after any calls (`PesUsed` counts the headers with both stamps); the header for `k = 0` is that of C50, for `k > 0` the flags stay 0xc0 |
| C164 | WriteStuff, WritePcr on a part of a packet | exact result for every prefix, length and clock, read back with `parseAdaptation`; induction over the stuffing loop, also for the panics |
| C165 | Parse, ParseHeader, fillHeader, fillBody on any object and input | a header section as a list of fields with their continuation lines (`Block`); each field changes the lookups of one key only, so neighbours of different names commute; what follows the section depends on the lookups alone (`Alike`) |
| C166 | SetBody, MakeRequest, MakeResponse, Bytes, Parse with slices and arrays (`SipsBody`) | the body of a message is a window of an array; frame lemmas for append, single writes, new buffers; induction over what happens in between (`Meanwhile`) |
| C167 | Cache.Write, SendTo with packet objects (`Model/Gop.lean` is generic in the pointers) | objects with contents over time; the replay commutes with a map of the pointers (`replay_map`); refuted for every loop with one object |
| C168 | AMF0 Encode, SIP Bytes | induction over `MapEq` (values equal up to the order of maps); permutations of the header map; refuted by moving one member to the front |
| C169 | ts Mixer: all methods, `SetWriter` in particular | every operation of the muxer depends on the writer only through what it appends (`Blind`, closed under bind); segments by induction; one segment by C109 from any reachable mixer |
| C170 | flv Mixer: all methods, `SetWriter` in particular | every call depends on the writer only through what it appends (`BlindTo`, closed under bind); parts by induction; one file by the account of C12/C13 restarted at the new writer, read back by the independent reader |
| C171 | flv Mixer.Mux, amf DelMetaHeader | induction over the tags with C11 and C14 for each, from any reached mixer; refuted for every script value that is no string and for every doubled `@setDataFrame` |
| C172 | ts Mixer.Mux, Update, SetTsHeader; Muxer.Mux | induction over sessions (`Broadcast`) with C53 for each frame and the parsed table packets; the clock references of the whole stream are exactly the decoding times of the key frames |
| C173 | ts Mixer.Mux, Update, SetTsHeader; Muxer.Mux | from C109: cutting the parsed packets at any place drops exactly the PES packets that began before; `Frames`: none of the muxed packets is on the PIDs of the tables, so the next tables are found from everywhere, and without tables there are none |
| C174 | AMF3 decodeDate, encodeDate | bit patterns of float64 as in C140; the conversion of NaN and infinities to int64 is the one of amd64 (simplification stated at `F64.toInt64`) |
| C175 | ts Mixer.SetTsHeader, Mux; Muxer.PMT, SDT | `follow`: a receiver that takes a section only if its version differs; induction over sessions (`Sent`): every table in the stream has version 0, so the first one stays |

Findings (places where the code disagrees with a property) are collected in section 4 as they are proved.

## 4. Findings

Each item is a place where the code disagrees with the property as stated. The theorem named `_refuted` proves the
disagreement for the model (most of them universally, over all inputs of a class, not only for one witness); the
theorem named `_partial` proves what does hold.

### packet, gop
`NewCache` with a negative number panics (`C02_newCache_total` states exactly when).
* An AVC end-of-sequence tag counts as a key frame, so it begins a group of its own and displaces the oldest group of a
  full cache: `C130_end_of_sequence_refuted`.
* The cache keeps the pointers it is given: a program that reads every packet into the same object, as the interface
  `packet.Reader` suggests, serves every new subscriber the last packet over and over (`C167_one_object_refuted`).

### amf
* An AMF0 object that refers to itself (`03 00 01 61 07 00 00 00 00 09`) is decoded to a Go map that contains itself; `Encode` of it
  never ends (stack overflow): `C150_amf0_self_refuted`, `C150_amf0_infinite_refuted`. AMF3 arrays are decoded to a struct that
  neither encoder accepts: `C150_amf3_array_refuted`.
* The same holds for `EncodeWithAMF3` and the AMF3 encoder (`C154_self_refuted`, `C154_infinite_refuted`). An AMF3 object with a
  member that has an empty name is decoded and then written as AMF0 without an error, but as bytes that are no AMF0 value:
  `C154_empty_name_refuted`. An array that `EncodeWithAMF3` has written is decoded from AMF0 as a value that none of the three
  encoders accepts (`C154_embedded_array_refuted`).
* Six bytes make the AMF3 decoder return a byte array or text of up to 2^28 - 1 bytes: the buffer is allocated with the declared
  length and a short read is accepted (`C149_length_refuted`).
* `RegisterExternalHandler` panics on every decoder made by `NewEnDecAMF0`: the handler map is nil (`C143_amf0_refuted`).
* `DecodeReference` (AMF0) lets an index equal to the table length through and then indexes out of range: the input
  `07 00 00` makes `Decode` panic. `C23_amf0_total_refuted`, partial `C23_amf0_total_partial`. Through
  `DelMetaHeader` the same bytes make the FLV muxer panic on a metadata packet: `C14_panic_refuted`.
* Strict arrays are cached as a nil array and typed objects as an empty one plus a second entry, so later references
  resolve to the wrong value: `C25_amf0_references_refuted`.
* `encodeDate` (AMF0) writes a number marker inside the date, so a date does not survive: `C24_amf0_dates_refuted`; what is written
  is no AMF0 value at all (`C152_amf0_dates_refuted`).
* `Encode` writes while it walks through the value: for every array or object with an unsupported part it returns an error
  after it has written the beginning (`C155_amf0_refuted`, `C155_amf3_refuted`). Negative integers of at most 32 bits leave one
  byte in AMF3 (`C155_amf3_integer_refuted`). The next message becomes part of the rejected one
  (`C155_amf0_next_refuted`).
* A member with an empty name is written by the AMF0 encoder as it is and then reads as the end of the object
  (`C152_amf0_empty_name_refuted`).
* Keys and class names longer than 65535 bytes are written with a truncated length and a wrong count:
  `C20_amf0_count_refuted`.
* `DecodeBatch` reads an end of input inside a value as the end of the batch (`05 02` gives one value and no error):
  `C22_amf0_batch_truncated_refuted`; on a `bytes.Reader` a trailing empty string is lost silently:
  `C19_amf0_batch_reader_refuted`, `C19_amf0_lost_value_refuted`.
* `EncodeWithAMF3` and `EncodeXmlDocument` report success with count 0 if the marker cannot be written
  (`swallowMarker` in the model).
* AMF3: negative integers fail after the marker has been written (`C32_amf3_negative_refuted`); the dynamic and
  externalizable flags are never recognised and external handlers never called (`C33_amf3_flags_refuted`,
  `C33_amf3_handlers_refuted`); object references return nil and array references an empty array
  (`C35_amf3_references_refuted`; every one at any time: `C35_amf3_object_refuted`, `C35_amf3_array_refuted`); short byte arrays and XML are padded with zeros instead of rejected
  (`C36_amf3_truncated_refuted`).
* AMF3 integers are treated as unsigned: every negative integer of another producer is decoded as a positive one
  (`C97_amf3_negative_refuted`) and every integer from 2^28 on is sent as what others read as a negative number
  (`C97_amf3_large_refuted`). Empty byte arrays and XML documents take no place in the reference table, which shifts
  all later references (`C35_amf3_empty_refuted`).
* AMF0 booleans other than 0 and 1 are decoded as false (`C98_amf0_bool_refuted`, `C146_amf0_refuted`); AMF3 integers from 2^28 on
  are accepted as positive ones (`C146_amf3_refuted`).
* `DelMetaHeader` cuts the length of the short encoding even if the header was a long string, leaving "me" in front
  of the metadata (`C99_del_long_header_refuted`).
* The AMF decoders read strings with a single `Read`: on a connection that delivers in pieces every string of two or more
  bytes may fail (`C107_amf0_short_reads_refuted`, `C107_amf3_string_refuted`), and AMF3 byte arrays are silently filled
  with zeros while the rest of their bytes is taken for the next value (`C107_amf3_short_reads_refuted`).
* `EncodeWithAMF3` and `EncodeXmlDocument` swallow the error of their first `Write` and report success
  (`C108_amf0_writer_refuted`).
* The reference tables live as long as the decoder and nothing resets them: the second message decoded with a decoder
  resolves its references among the values of the first: `C138_amf3_reuse_refuted`, `C138_amf0_reuse_refuted`.
* Map iteration decides the bytes: every AMF0 object with two members, and every SIP message with a header besides `Content-Length`, may
  be written in two ways (`C168_amf0_refuted`, `C168_sip_refuted`).
* For the same reason a decoder that is kept for a whole session grows with every message: `C158_amf3_refuted`,
  `C158_amf0_refuted`.
* AMF3 dates lose their milliseconds, before 1970 towards the future: `C140_amf3_dates_refuted`.
* A number that is no date (NaN, infinity) is decoded from AMF3 as a date and sent on as one (`C174_invalid_refuted`), and so is
  every number of milliseconds from 2^63 seconds on (`C174_remote_refuted`); the milliseconds are
  lost on the way (`C174_milliseconds_refuted`).

### container/flv
* The composition time is not sign extended, and a reused tag accumulates it: `C10_flv_composition_refuted`.
* `DelMetaHeader` strips 16 bytes whatever form the string had; the long-string form leaves two bytes:
  `C14_long_string_refuted`, `C14_long_header_refuted` (for all data).
* Data of 2^24 bytes and more is written with a truncated length: `C16_flv_large_refuted`.
* Key and inter frames of codecs other than AVC lose their first four bytes of media (`C129_other_codecs_refuted`); if the
  first is 0, a key frame is taken for a sequence header and replaces it in the cache (`C129_sequence_header_refuted`).
  Video tags of less than five bytes, such as video commands, are refused (`C129_short_refuted`).
* `Mux` cuts "@setDataFrame" off the packet it is given, which the cache and other mixers share
  (`C135_header_lost_refuted`); if the data has it twice, two mixers write different tags (`C135_two_mixers_refuted`).
* Script tags that the mixer writes are not always accepted by it again (`C171_value_refuted`, `C171_twice_refuted`): what stands behind `@setDataFrame` is not looked at, and may be no string, or `@setDataFrame` once more.

### container/ts
* A sequence header that `SaveAVCHeader` or `SaveAACHeader` rejects is announced in the PMT all the same (`C144_rejected_refuted`).
* Key frames whose PES packet is shorter than 176 bytes: the stuffing goes behind the adaptation field and is read as
  payload (`C47_small_key_frame_refuted`); 176 to 183 bytes panic (`C48_key_frame_panics_refuted`).
  Through the mixer the same happens (`C86_small_key_frame_refuted`), and a receiver cannot read the video of the session
  (`C109_small_key_frame_refuted`), nor can any viewer of a relay (`C137_small_key_frame_refuted`).
* Time stamps of 2^33 and more are one too large (`C51_wrap_refuted`, `C51_dts_wrap_refuted`); the prefix nibbles are
  wrong when PTS and DTS are both present (`C90_stamp_prefix_refuted`).
* The PMT announces PCR PID 0x101 once audio is announced although the PCR is sent on 0x100
  (`C46_pcr_pid_refuted`).
* Service and provider names longer than 158 bytes together make `SetTsHeader` panic (`C45_long_names_refuted`).
* Time stamps of 47721859 ms and more overflow `uint32` (`C56_overflow_refuted`).
* The country descriptor has a wrong length (`C91_country_refuted`), the SDT counter never advances
  (`C92_sdt_counter_refuted`). Only 12 of the 24 bits of the country code are kept (`C91_letters_refuted`).
* `SaveAVCHeader`/`SaveAACHeader` consume a continuity counter value although nothing is sent
  (`C87_saved_header_refuted`).
* A segment with a small key frame cannot be played (`C169_small_key_frame_refuted`, from C47 and C48).
* Clock references are sent with key frames only, so seconds apart, and never in a stream of sound (`C172_interval_refuted`, `C172_no_clock_refuted`).
* `Mux` never repeats the tables: a receiver that begins after the last `SetTsHeader` call never learns what the program consists of (`C173_tables_refuted`).
* All tables have version 0, also when their contents change: a stream that is announced or a name that is saved after the first
  `SetTsHeader` is ignored by receivers that are tuned in (`C175_tables_refuted`, `C175_streams_refuted`).
* MP3 frames are accepted but sent as empty PES packets, since `parser/mp3` writes nothing: `C132_mp3_refuted`.
* `Mux`, `SaveAVCHeader` and `SaveAACHeader` replace the media of the packet by their output. A second mixer that gets the
  same packet puts a second ADTS header in front of an AAC frame (`C133_aac_refuted`) and refuses a sequence header
  (`C133_sequence_header_refuted`).
* The media of a packet after `Mux` is a slice of the mixer's buffer, so it changes when the mixer muxes the next packet
  (`C134_media_refuted`); a second mixer that gets the first packet only then sends the second one in its place
  (`C134_stream_refuted`). Programs that use every packet once are not affected (`C134_once_partial`).
* `Mux` given a sequence header sends something for it: an undecodable packet on the video PID
  (`C136_video_refuted`), an empty frame on the audio PID (`C136_audio_refuted`).
* `SDT`, `PAT` and `PMT` return slices of arrays of the muxer: the next call of the same function overwrites the packet returned
  before (`C161_pat_refuted`, `C161_pmt_refuted`, `C161_sdt_refuted`).
- `GeneratePesHeader` adds to the flags and the length of the object and never takes back: a `Pes` object that has made a header with
  PTS and DTS announces a DTS in all later headers, also for audio (`C163_audio_refuted`), and the second such header is said to have
  24 bytes although the object holds 19 (`C163_length_refuted`). `Mux` makes a new object for every frame and is not affected.
- `WriteStuff(src, 0)` writes 256 bytes or panics instead of writing nothing (`C164_stuff_zero_refuted`); `Mux` never calls it so.

### parser
* The H.264 parameter sets of successive sequence headers accumulate (`C63_replace_refuted`; `n` copies
  of the same one before every key frame: `C158_h264_refuted`); the PPS takes all the
  remaining bytes, extension included (`C62_extension_refuted`); the NAL length size is ignored
  (`C94_length_size_refuted`; packets with one- or two-byte lengths are rejected: `C94_short_lengths_refuted`).
* AAC frames over 8184 bytes and object types over 4 get a wrong ADTS header (`C93_long_frame_refuted`,
  `C93_object_type_refuted`); the sample rate reads 96000 after a rejected frame (`C66_rejected_refuted`).
* The MP3 sample rate is read from the wrong bits (`C67_mp3_rate_refuted`).

### sips
* `Bytes` writes header values as they are: a value with CR LF in it becomes two header fields for the receiver
  (`C156_request_refuted`, `C156_response_refuted`, for every message and every such value).
  So are the parts of a request address: a line break in them adds a header field (`C162_header_refuted`), and a space makes the
  request unreadable for every receiver of this package (`C162_space_refuted`).
* `ToUser` and `ToRequest` hand on the argument map instead of copying it: a tag set in the address made from a request URI is
  then also an argument of the request line (`C157_to_user_refuted`, `C157_to_request_refuted`).
* `Parse`: `Contents` is `buffer[:offset]` and keeps the capacity of the whole buffer, so `append(sip.LayerContents(), x...)`
  writes `x` over the beginning of the body (`C160_contents_refuted`). `buffer[:offset:offset]` would prevent it.
* `SetBody` (and with it `MakeRequest` and `MakeResponse`) keeps the slice of the caller: when the program uses its buffer for
  something else before the message is written, the new bytes are sent (`C166_refuted`).
* A message that `Parse` rejects stays in the object: all header fields of a message without content length
  (`C151_headers_refuted`), method and address of a request of an unknown version (`C151_request_refuted`); after a status line
  without a number every request is taken for a response (`C151_response_refuted`).
* `Parse` ignores header lines without a colon (`C148_no_colon_refuted`), takes any decimal number for a status code and accepts
  messages without From, To, Via, CSeq and Call-ID: a content length is enough (`C148_bare_refuted`).
* `NewSIPUser` starts with the URI type "sip", so the branch that collects the display name is never useful: the name is
  always empty (`C75_display_name_refuted`; in whole messages: `C153_display_name_refuted`). The repository's own user_test.go expects the name.
* An argument `k=` without a value (or with a lone quote) makes `ParseArgs` and every constructor built on it panic
  (`C77_args_panic_refuted`, exactly when: `C77_args_panic_iff`); through the request URI and the
  first From, To, Contact and Via values this reaches `Parse`, and by nothing else in a well-formed message
  (`C78_response_panics_iff`, `C78_request_panics_iff`, `C78_empty_parameter_refuted`).
* A first header line that begins with a space or tab makes `Parse` panic (`C78_fold_panics_refuted`; whatever the start line and
  fragmentation: `C78_fold_first_refuted`).
* Compact header names are not found unless the long name is present with an empty list (`C79_compact_refuted`).
* The payload begins with the blank line, and the blank line is counted as part of the content length: bodies come back
  two bytes late, bodies of one or two bytes are lost, and whatever arrives in the same read as the last byte (the next
  message) is swallowed (`C81_payload_refuted`, exactly: `C81_payload_partial`; `C80_body_refuted`).
* `Bytes` writes a second content length if the caller stored one under another spelling, and panics without header map
  or request URI (`C84_two_lengths_refuted`, `C84_nil_panics_refuted`).
* Reason phrases: 480 is "No Response" instead of "Temporarily Unavailable" and 504 "Server Timeout" instead of "Server
  Time-out" (`C102_phrases_refuted`); the phrase of a received response is not written again (`C102_own_phrase_refuted`).
* A header with several values is written with continuation lines, so all its values come back as one
  (`C103_values_joined_refuted`); a header with an empty list is glued to the next one (`C103_empty_list_refuted`).
* `Parse` clears nothing: in a reused object the headers of both messages are mixed, the first message's values win, and
  a request parsed after a response is still taken for a response (`C105_reuse_refuted`).
* Lines that do not fit the buffer of the reader (4096 bytes) are rejected (`C106_long_line_refuted`).
* `CommaString` quotes like Go source text, so control characters come back as other text (`C100_control_refuted`).
* `CopyFrom` keeps only the first value of a header and creates missing headers with an empty value
  (`C83_copy_one_value`); so an answer has only the first `Via` of its request (`C142_first_via_refuted`).
* `MakeRequest` and `MakeResponse` keep the map they are given: writing a response made with the headers of a request gives the
  request the content length of the response (`C141_request_changes_refuted`).
* A URI without user part: the host is taken for the user, and an `@` is added when it is written
  (`C111_request_without_user_refuted`, `C111_address_without_user_refuted`).
* IPv6 hosts are cut at the first colon (`C112_colon_host_refuted`).
* A scheme with a capital letter is not recognised and the whole URI is lost (`C113_scheme_case_refuted`); an unknown or
  lower-case transport becomes part of the host, and one that begins with a known name is cut
  (`C113_transport_refuted`, `C113_transport_prefix_refuted`).
* On a connection, whatever arrives in the same read as a message with a body is swallowed (`C114_together_refuted`), and
  a body of one or two bytes stays in front of the next message (`C114_short_body_refuted`).
* A message without payload is written without the blank line, so no receiver on an open connection ever gets it
  (`C115_no_payload_refuted`).
* A forwarded message grows by two bytes per hop (`C116_payload_grows_refuted`).
* A message without Content-Length is rejected, also over UDP where RFC 3261 lets it be left out (`C118_no_length_refuted`).
* A tab between the colon and the value becomes part of the value (`C119_tab_refuted`), and before the content length it
  makes the message unreadable (`C119_length_refuted`).
* A negative content length is accepted and the body is left in front of the next message (`C120_negative_refuted`).
* `CRLFString` writes `name=` for an argument without value, and the parser of such lines panics on it
  (`C123_crlf_empty_refuted`).
* URI parameters inside the angle brackets are mixed with the header parameters, and the closing bracket becomes part of
  the last value: `<sip:a@b;transport=tcp>` has the transport `tcp>` (`C126_uri_params_refuted`). Blanks around `=` become
  part of name and value (`C126_blanks_at_equals_refuted`). The Via example of RFC 3261, 20.42 (`SIP / 2.0 / UDP ...`) is
  read as an empty Via without error (`C126_via_slashes_refuted`).
* Of a Contact header with two addresses the users, hosts and ports are joined (`C127_two_addresses_refuted`), or the first
  address gets the parameters of the second (`C127_shared_params_refuted`).
* A URI without user part is written with an `@` (`C128_no_user_refuted`).
* `Parse` on a SIP object not made by `NewSIP` panics at the first header field (`C124_zero_value_refuted`).

### metadata.go with the AMF3 decoder
* `AddMetaHeader` always writes the header in AMF0, so `DelMetaHeader` with the AMF3 decoder refuses its output
  (`C125_amf3_del_add_refuted`); on a header that is AMF3, one byte too many is cut off, and it panics if nothing follows
  (`C125_amf3_del_refuted`).
