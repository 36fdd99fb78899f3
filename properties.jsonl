{"id": "C01", "title": "Media type set reports exactly what was marked", "statement": "After any sequence of IsVideo/IsAudio/Reset calls on packet.Types, ToSlice returns PktVideo iff IsVideo was called since the last Reset, PktAudio iff IsAudio was called since the last Reset, in that order and without duplicates.", "quantifier": "every finite sequence of Types method calls", "why_tests_cant": "sequences are unbounded; tests run a handful of them", "anchors": ["packet/types.go: Types.IsVideo, Types.IsAudio, Types.Reset, Types.ToSlice"]}
{"id": "C02", "title": "GOP cache replays the newest groups, oldest first", "statement": "For a cache created with NewCache(n), n>=1, after any history of Write calls SendTo delivers, in this order: the last metadata packet, the last video sequence header, the last AAC sequence header, and then the packets of the newest n groups of pictures, oldest group first and every group in arrival order, where a group starts at each video key frame and holds the key frame and the inter frames that followed it, cut after its first 1025 packets.", "quantifier": "every capacity n>=1 and every finite history of packets (video/audio/metadata/unknown types, any headers)", "why_tests_cant": "the ring index wraps and groups are recycled; only a history-indexed invariant shows that no wrap position reorders, duplicates or loses a group", "anchors": ["gop/cache.go: NewCache, Cache.Write, Cache.SendTo", "gop/gop.go: gopCache.Write, gopCache.SendTo", "gop/array.go: array.write, array.reset, array.sendTo", "gop/frame.go: frameCache"]}
{"id": "C03", "title": "GOP cache memory is bounded", "statement": "Whatever is written, a cache of n GOPs never holds more than n groups and never more than 1025 packets in a group, so a replay never sends more than 1025*n+3 packets.", "quantifier": "every capacity and every write history", "why_tests_cant": "needs an invariant over unbounded histories", "anchors": ["gop/gop.go: gopCache.Write", "gop/array.go: array.write, maxGop"]}
{"id": "C04", "title": "Every replayed group is decodable from its first packet", "statement": "In a replay the frame packets form consecutive groups, each of which begins with a key frame and contains no other key frame; no inter frame is ever delivered before a key frame.", "quantifier": "every capacity and every write history", "why_tests_cant": "quantifies over histories, including those with rejected writes", "anchors": ["gop/gop.go: gopCache.Write, gopCache.SendTo"]}
{"id": "C05", "title": "Write to the cache fails exactly when the frame cannot be stored, and then changes nothing", "statement": "Cache.Write returns an error iff n>=1 and the packet is a video inter frame (not a sequence header) that arrives before any key frame or when the current group already holds 1025 packets; after an error the cache replays exactly what it would have replayed before. With n=0 frames are silently discarded and Write never fails.", "quantifier": "every capacity, reachable cache state and packet", "why_tests_cant": "error paths must be checked in every reachable state", "anchors": ["gop/cache.go: Cache.Write, Cache.WriteVideo", "gop/gop.go: gopCache.Write", "gop/array.go: array.write"]}
{"id": "C06", "title": "A failing subscriber gets a prefix and does not disturb the cache", "statement": "If the writer given to Cache.SendTo fails at its k-th call, SendTo stops there and returns that error, the packets accepted are exactly the first k-1 packets of the full replay, and the cache is unchanged, so the next subscriber gets the full replay.", "quantifier": "every reachable cache and every failure point", "why_tests_cant": "a failure point for every position of every replay", "anchors": ["gop/cache.go: Cache.SendTo", "gop/gop.go: gopCache.SendTo", "gop/array.go: array.sendTo", "gop/frame.go: frameCache.SendTo"]}
{"id": "C07", "title": "FLV video tag header is decoded field by field", "statement": "Demux of a video packet whose data is frameType<<4|codec, avcType, 24-bit composition time, payload yields a header whose IsKeyFrame/IsInterFrame/IsSeqHdr/IsEndOfSeq/IsCodecAvc/CodecID/CompositionTime answers follow from those fields, and Media equal to the payload; for other frame types only the first byte is consumed.", "quantifier": "every byte string of length >=5", "why_tests_cant": "2^40 headers times every payload", "anchors": ["container/flv/tag.go: Tag.parseVideoHeader and accessors", "container/flv/demuxer.go: Demuxer.Demux"]}
{"id": "C08", "title": "FLV audio tag header is decoded field by field", "statement": "Demux of an audio packet yields SoundFormat = high nibble of byte 0; AAC (format 10) consumes two bytes and exposes AACType = byte 1; MP3 (format 2) consumes one byte; every other format is an error.", "quantifier": "every byte string of length >=2", "why_tests_cant": "every payload and header byte", "anchors": ["container/flv/tag.go: Tag.parseAudioHeader and accessors", "container/flv/demuxer.go: Demuxer.Demux"]}
{"id": "C09", "title": "Demux never panics and fails cleanly", "statement": "Demux terminates without panic for every packet; it fails exactly for unknown packet types, video data shorter than 5 bytes, audio data shorter than 2 bytes or an unsupported sound format, and on failure leaves the packet's Header and Media untouched.", "quantifier": "every packet type and every byte string", "why_tests_cant": "input space is unbounded; includes truncated input of every length", "anchors": ["container/flv/demuxer.go: Demuxer.Demux", "container/flv/tag.go: Tag.ParseMediaTagHeader"]}
{"id": "C10", "title": "FLV composition time follows the FLV specification (signed 24 bit)", "statement": "CompositionTime of an AVC NALU tag is the signed 24-bit value (SI24) of bytes 2..4.", "quantifier": "every AVC NALU video tag", "why_tests_cant": "the negative half of the range is a corner tests do not reach", "anchors": ["container/flv/tag.go: Tag.parseVideoHeader, Tag.CompositionTime"]}
{"id": "C11", "title": "FLV tag framing is exact", "statement": "Mixer.Mux of a packet with fewer than 2^24 payload bytes appends exactly: tag type (9 video, 8 audio, 18 script), 24-bit payload length, low 24 bits of the timestamp, high 8 bits of the timestamp, three zero bytes, the payload, and the 32-bit value 11+length.", "quantifier": "every packet, timestamp and payload below 2^24 bytes", "why_tests_cant": "every length and every 32-bit timestamp", "anchors": ["container/flv/muxer.go: muxer.mux", "container/flv/mixer.go: Mixer.Mux"]}
{"id": "C12", "title": "A muxed FLV stream demultiplexes to what was written", "statement": "After any sequence of successful Mixer calls starting with SetFlvHeader, an independent FLV reader recovers from the bytes written the header and the exact sequence of tags (type, timestamp, payload), and walking backwards through the PreviousTagSize fields visits the same tags.", "quantifier": "every finite history of Mixer calls with payloads below 2^24 bytes", "why_tests_cant": "unbounded histories and payload contents that look like headers", "anchors": ["container/flv/mixer.go: Mixer", "container/flv/muxer.go: muxer"]}
{"id": "C13", "title": "FLV file header advertises exactly the streams whose sequence headers were saved", "statement": "SetFlvHeader writes the 13-byte FLV header with the video flag set iff SaveAVCHeader was called and the audio flag set iff SaveAACHeader was called, followed by the last saved metadata, AVC and AAC tags, in that order, each present iff saved.", "quantifier": "every history of Save*/SetFlvHeader/Mux calls", "why_tests_cant": "the header buffer is shared and mutated across calls", "anchors": ["container/flv/mixer.go: Mixer.SetFlvHeader, SaveMetadata, SaveAVCHeader, SaveAACHeader", "container/flv/muxer.go: muxer.header"]}
{"id": "C14", "title": "Script data never carries @setDataFrame", "statement": "Muxing a metadata packet whose data is the AMF0 string \"@setDataFrame\" followed by D produces a script tag with payload D; data beginning with any other AMF0 string is kept unchanged; data whose first AMF0 value is not a string, or does not decode, is an error and nothing is written. The packet's Data is left stripped, and muxing it again yields the same bytes when D does not itself begin with @setDataFrame.", "quantifier": "every metadata payload", "why_tests_cant": "every payload byte string", "anchors": ["container/flv/muxer.go: muxer.mux, muxer.metadata", "amf/metadata.go: DelMetaHeader"]}
{"id": "C15", "title": "A failing FLV writer is reported and leaves a prefix", "statement": "If the underlying writer fails, Mux/SetFlvHeader return an error and the bytes accepted are a prefix of the bytes a non-failing writer would have received.", "quantifier": "every packet and every failure point (including partial writes)", "why_tests_cant": "every crash point", "anchors": ["container/flv/muxer.go: muxer.mux", "container/flv/mixer.go: Mixer.SetFlvHeader"]}
{"id": "C16", "title": "FLV payloads of 16 MiB and more are framed consistently", "statement": "The length field of a tag and the bytes that follow it agree for every payload size.", "quantifier": "every payload size, including >= 2^24", "why_tests_cant": "needs 16 MiB inputs; the field is masked to 24 bits", "anchors": ["container/flv/muxer.go: muxer.mux"]}
{"id": "C17", "title": "AMF0 encode/decode round trip", "statement": "For every value built from nil, booleans, float64, strings, Objects, Arrays and TypedObjects (strings below 2^32 bytes, object keys and type names 1..65535 resp. 0..65535 bytes, arrays below 2^32 elements), Decode(Encode(v)) succeeds, returns v, and consumes exactly the encoded bytes whatever follows them, in whatever order the map iteration enumerates the keys (reading from a bytes.Buffer; for bytes.Reader see C19).", "quantifier": "every value tree of any depth and size, every map iteration order, every trailing input, every prior decoder state", "why_tests_cant": "unbounded recursive values and nondeterministic map order", "anchors": ["amf/amf0.go: EnDecAMF0.Encode, EnDecAMF0.Decode and helpers"]}
{"id": "C18", "title": "AMF0 batches round trip", "statement": "DecodeBatch(EncodeBatch(v1..vn)) on a bytes.Buffer returns v1..vn.", "quantifier": "every finite list of encodable values", "why_tests_cant": "unbounded lists", "anchors": ["amf/amf0.go: EncodeBatch, DecodeBatch"]}
{"id": "C19", "title": "AMF0 batches round trip through every in-memory reader", "statement": "DecodeBatch(EncodeBatch(v1..vn)) returns v1..vn for bytes.Reader as well as bytes.Buffer.", "quantifier": "every list of values and both standard in-memory readers", "why_tests_cant": "the difference shows only for an empty string in last position", "anchors": ["amf/amf0.go: DecodeBatch, decodeString", "amf/helper.go: readBytes"]}
{"id": "C20", "title": "AMF0 Encode reports the number of bytes it wrote", "statement": "When Encode succeeds its count equals the number of bytes appended to the writer.", "quantifier": "every encodable value", "why_tests_cant": "unbounded recursive values", "anchors": ["amf/amf0.go: Encode and encode* helpers"]}
{"id": "C21", "title": "A truncated AMF0 value is never accepted", "statement": "Decode of any proper prefix of Encode(v) returns an error (never a value, never a panic).", "quantifier": "every value and every cut point", "why_tests_cant": "every cut point of every encoding", "anchors": ["amf/amf0.go: Decode", "amf/helper.go: readBytes"]}
{"id": "C22", "title": "AMF0 DecodeBatch reports truncated input", "statement": "DecodeBatch returns an error when the input ends inside a value.", "quantifier": "every input that ends inside a value", "why_tests_cant": "only particular cut points are misreported", "anchors": ["amf/amf0.go: DecodeBatch"]}
{"id": "C23", "title": "AMF0 decoder terminates without panic on arbitrary bytes", "statement": "Decode terminates and returns a value or an error for every byte string.", "quantifier": "every byte string and every prior decoder state", "why_tests_cant": "arbitrary untrusted input", "anchors": ["amf/amf0.go: Decode, decodeReference"]}
{"id": "C24", "title": "AMF0 dates round trip", "statement": "Decoding an encoded time.Time yields its time in milliseconds and consumes the whole encoding.", "quantifier": "every time", "why_tests_cant": "all times", "anchors": ["amf/amf0.go: encodeDate, decodeDate"]}
{"id": "C25", "title": "AMF0 references denote the referenced complex value", "statement": "Decoding reference index n yields the n-th complex value decoded so far.", "quantifier": "every decoder state and reference index", "why_tests_cant": "depends on decode history", "anchors": ["amf/amf0.go: decodeReference, decodeObject, decodeStrictArray, decodeTypedObject"]}
{"id": "C26", "title": "AMF0 auxiliary encoders are decoded as their types", "statement": "Decode inverts EncodeEcmaArray (as Object), EncodeXmlDocument (as string), EncodeUndefined and EncodeUnsupported (as nil), and EncodeWithAMF3 (as the AMF3 value).", "quantifier": "every argument of these encoders", "why_tests_cant": "unbounded arguments", "anchors": ["amf/amf0.go: EncodeEcmaArray, EncodeXmlDocument, EncodeUndefined, EncodeUnsupported, EncodeWithAMF3"]}
{"id": "C27", "title": "Integers up to 2^53 survive AMF0", "statement": "An int or uint of magnitude at most 2^53 is encoded as the float64 with exactly that numerical value.", "quantifier": "every integer of magnitude <= 2^53", "why_tests_cant": "2^54 integers", "anchors": ["amf/amf0.go: Encode (int/uint cases), encodeNumber"]}
{"id": "C28", "title": "Metadata header add/delete are inverse and idempotent", "statement": "For AMF0 data p that begins with a string other than @setDataFrame, DelMetaHeader(AddMetaHeader(p)) = p; AddMetaHeader is idempotent; AddMetaHeader leaves data that already begins with @setDataFrame unchanged; DelMetaHeader leaves data without it unchanged.", "quantifier": "every byte string p whose first AMF0 value is a string", "why_tests_cant": "every payload", "anchors": ["amf/metadata.go: AddMetaHeader, DelMetaHeader"]}
{"id": "C29", "title": "AMF3 U29 integers round trip", "statement": "Every integer below 2^29 is written as 1 to 4 bytes and read back unchanged, whatever follows; the encoding has the minimal length (1 byte below 2^7, 2 below 2^14, 3 below 2^21, else 4); integers >= 2^29 are rejected and nothing is written.", "quantifier": "every uint32 and every trailing input", "why_tests_cant": "2^32 values times trailing input", "anchors": ["amf/amf3.go: writeUint29, readUint29"]}
{"id": "C30", "title": "AMF3 encode/decode round trip", "statement": "For every value built from nil, booleans, uint32 below 2^29-1, float64, dates (within 2^53 milliseconds of 1970, to the second), strings and byte strings below 2^28 bytes, Objects and Arrays (below 2^25 keys, 2^28 elements), Decode(Encode(v)) succeeds, consumes exactly the encoding and returns v (Arrays come back as the dense part of an EcmaArrayAMF3).", "quantifier": "every value tree, every trailing input, every prior state of the reference tables", "why_tests_cant": "unbounded recursive values", "anchors": ["amf/amf3.go: EnDecAMF3.Encode, EnDecAMF3.Decode"]}
{"id": "C31", "title": "AMF3 object encoding is deterministic", "statement": "Two Objects with the same key/value mapping encode to identical bytes regardless of map iteration order, at every nesting level.", "quantifier": "every value and every pair of iteration orders", "why_tests_cant": "map order is randomised per run", "anchors": ["amf/amf3.go: encodeObject"]}
{"id": "C32", "title": "AMF3 integers of the advertised range are encodable", "statement": "Encode accepts every int in [-536870911, 536870910] as an AMF3 integer.", "quantifier": "every int in that range", "why_tests_cant": "the whole negative half fails", "anchors": ["amf/amf3.go: Encode (int case), encodeInteger, writeUint29"]}
{"id": "C33", "title": "AMF3 dynamic and externalizable objects are honoured", "statement": "Decode of an object with the dynamic flag reads its dynamic members, and of one with the externalizable flag dispatches to the registered handler.", "quantifier": "every AMF3 object with those trait flags", "why_tests_cant": "flag combinations times streams", "anchors": ["amf/amf3.go: decodeObject", "amf/amf3_external.go"]}
{"id": "C34", "title": "AMF3 string references resolve to the string first sent", "statement": "A decoder fed a stream whose producer replaces repeated non-empty strings by references to the string table recovers the original strings.", "quantifier": "every sequence of strings and every choice of which repeats are sent as references", "why_tests_cant": "decoder table state depends on whole history", "anchors": ["amf/amf3.go: decodeString"]}
{"id": "C35", "title": "AMF3 object references resolve to the object first sent", "statement": "Decoding an object reference yields the object decoded earlier at that table index.", "quantifier": "every decode history and reference", "why_tests_cant": "depends on history", "anchors": ["amf/amf3.go: decodeObject, decodeArray, decodeDate, decodeXmlDoc, decodeByteArray"]}
{"id": "C36", "title": "Truncated AMF3 byte arrays are rejected", "statement": "Decode of a byte array or XML document whose declared length exceeds the remaining input returns an error.", "quantifier": "every declared length and remaining input", "why_tests_cant": "every cut point", "anchors": ["amf/amf3.go: decodeByteArray, decodeXmlDoc"]}
{"id": "C37", "title": "AMF3 Encode reports the number of bytes it wrote", "statement": "When Encode succeeds its count equals the number of bytes appended to the writer.", "quantifier": "every encodable value", "why_tests_cant": "unbounded recursive values", "anchors": ["amf/amf3.go: Encode and encode* helpers"]}
{"id": "C38", "title": "AMF3 decoder terminates without panic on arbitrary bytes", "statement": "Decode terminates and returns a value or an error for every byte string and every decoder state.", "quantifier": "every byte string and decoder state", "why_tests_cant": "arbitrary untrusted input", "anchors": ["amf/amf3.go: Decode"]}
{"id": "C39", "title": "AMF3 dates round trip to the second", "statement": "Encoding a time and decoding it yields the same instant truncated to whole seconds, for |unix seconds|*1000 <= 2^53.", "quantifier": "every such time", "why_tests_cant": "2^43 instants", "anchors": ["amf/amf3.go: encodeDate, decodeDate"]}
{"id": "C40", "title": "GenerateCrc32 is CRC-32/MPEG-2", "statement": "GenerateCrc32 equals the bit-serial CRC with polynomial 0x04C11DB7, initial value 0xFFFFFFFF, no reflection and no final xor.", "quantifier": "every byte string", "why_tests_cant": "256-entry table times unbounded input", "anchors": ["container/ts/crc32.go: crcTable, GenerateCrc32"]}
{"id": "C41", "title": "Sections with their CRC appended check to zero", "statement": "GenerateCrc32(s ++ bigEndian(GenerateCrc32(s))) = 0, and changing any single byte of s changes the CRC.", "quantifier": "every byte string and every single-byte corruption", "why_tests_cant": "unbounded input", "anchors": ["container/ts/crc32.go: GenerateCrc32"]}
{"id": "C42", "title": "PAT packets are well formed", "statement": "Every PAT call returns a 188-byte packet: sync byte, payload start, PID 0, continuity counter = call number mod 16, and one section with correct length and CRC that maps program 1 to PID 0x1001, padded with 0xff.", "quantifier": "every number of previous calls", "why_tests_cant": "counter wrap over unbounded histories", "anchors": ["container/ts/muxer.go: Muxer.PAT", "container/ts/table/pat.go"]}
{"id": "C43", "title": "PMT packets are well formed", "statement": "Every PMT call with at most 33 streams returns a 188-byte packet on PID 0x1001, with continuity counter = call number mod 16 and a section whose length and CRC are correct and whose stream list is exactly: type 0x1b on PID 0x100 per video, type 0x0f on PID 0x101 per audio, in argument order.", "quantifier": "every argument list and number of previous calls", "why_tests_cant": "unbounded argument lists and counters", "anchors": ["container/ts/muxer.go: Muxer.PMT", "container/ts/table/pmt.go", "container/ts/table/program.go"]}
{"id": "C44", "title": "SDT packets are well formed", "statement": "SDT(desc) with at most 163 descriptor bytes returns a 188-byte packet on PID 0x11 whose section length, descriptor loop length and CRC are correct and whose descriptors are desc; with more than 163 bytes it panics.", "quantifier": "every descriptor buffer", "why_tests_cant": "every length boundary", "anchors": ["container/ts/muxer.go: Muxer.SDT", "container/ts/table/sdt.go"]}
{"id": "C45", "title": "SaveMetadata followed by SetTsHeader works for every provider/service name", "statement": "For every metadata object, SaveMetadata then SetTsHeader succeed and the SDT carries the provider and service names.", "quantifier": "every pair of strings", "why_tests_cant": "length arithmetic is mod 256 and the packet is fixed size", "anchors": ["container/ts/mixer.go: Mixer.SaveMetadata, Mixer.SetTsHeader", "container/ts/table/descriptor.go: Descriptor.Service", "container/ts/muxer.go: Muxer.SDT"]}
{"id": "C46", "title": "PCR PID named by the PMT carries the PCR", "statement": "The PCR_PID announced in the PMT is a PID on which Mux puts program clock references.", "quantifier": "every saved stream combination", "why_tests_cant": "combination of tables and payload packets", "anchors": ["container/ts/muxer.go: Muxer.PMT, Muxer.Mux"]}
{"id": "C47", "title": "TS muxing preserves the PES packet", "statement": "Mux writes a whole number of 188-byte TS packets with sync byte 0x47 on PID 0x100 (video) or 0x101 (audio), payload_unit_start set exactly on the first, and the concatenation of their payloads (as any TS demultiplexer extracts them) is the PES header followed by the media.", "quantifier": "every media length and content, timestamps, frame kind and prior muxer state", "why_tests_cant": "fill/stuffing boundaries at every length mod 184", "anchors": ["container/ts/muxer.go: Muxer.Mux", "container/ts/table/pes.go"]}
{"id": "C48", "title": "TS muxing never panics", "statement": "Mux of any audio or video packet returns without panic.", "quantifier": "every media length", "why_tests_cant": "only 8 lengths of key frames fail", "anchors": ["container/ts/muxer.go: Muxer.Mux", "container/ts/table/pes.go: WriteStuff"]}
{"id": "C49", "title": "Continuity counters are continuous per PID", "statement": "Across any sequence of successful Mux calls on one Muxer, the continuity counters of the packets of each PID are consecutive mod 16.", "quantifier": "every interleaving of audio and video packets of any size", "why_tests_cant": "unbounded histories; wrap at 16", "anchors": ["container/ts/muxer.go: Muxer.Mux"]}
{"id": "C50", "title": "PES timestamps decode to the given PTS/DTS", "statement": "The PES header carries PTS = pts mod 2^33, and DTS = dts mod 2^33 exactly when the packet is video and pts != dts; header data length and flags agree.", "quantifier": "every pts, dts in [0, 2^33-1]", "why_tests_cant": "2^66 pairs", "anchors": ["container/ts/table/pes.go: GeneratePesHeader, encodeTs"]}
{"id": "C51", "title": "PES timestamps wrap at 2^33", "statement": "For timestamps >= 2^33 the encoded value is the timestamp mod 2^33.", "quantifier": "every non-negative int64 timestamp", "why_tests_cant": "26.5 h of 90 kHz ticks before the first wrap", "anchors": ["container/ts/table/pes.go: encodeTs"]}
{"id": "C52", "title": "PES length field is exact or zero", "statement": "PES_packet_length equals the number of bytes that follow it, or 0 when that exceeds 65535.", "quantifier": "every media length", "why_tests_cant": "boundary at 65535", "anchors": ["container/ts/table/pes.go: GeneratePesHeader"]}
{"id": "C53", "title": "Key frames carry the PCR", "statement": "The first TS packet of a video key frame has an adaptation field with the random access flag and PCR base = dts mod 2^33, extension 0; no other packet carries a PCR.", "quantifier": "every key frame and dts", "why_tests_cant": "all dts values", "anchors": ["container/ts/muxer.go: Muxer.Mux", "container/ts/table/pes.go: WritePcr"]}
{"id": "C54", "title": "Audio timestamps stay within the sync window", "statement": "After Update for an audio packet the output timestamp differs from the packet's by at most 10 ms (900 ticks); while in sync at a constant sample rate consecutive outputs advance by exactly 92160000/sampleRate ticks; on a larger gap the output is the packet's own timestamp.", "quantifier": "every sequence of audio timestamps and sample rates", "why_tests_cant": "error accumulates over unbounded histories", "anchors": ["container/ts/sync.go: sync.syncAudioTs", "container/ts/mixer.go: Mixer.Update"]}
{"id": "C55", "title": "Audio timestamps never step back more than the sync window", "statement": "If packet timestamps are non-decreasing and the sample rate is constant, successive output timestamps never decrease by more than 900 ticks.", "quantifier": "every non-decreasing sequence", "why_tests_cant": "unbounded histories", "anchors": ["container/ts/sync.go: sync.syncAudioTs"]}
{"id": "C56", "title": "Timestamp arithmetic does not overflow", "statement": "Update computes dts = 90*pktTs and pts = dts + 90*avcTs.", "quantifier": "every uint32 millisecond timestamp", "why_tests_cant": "wraps only after 13 hours of stream time", "anchors": ["container/ts/mixer.go: Mixer.Update"]}
{"id": "C57", "title": "Service descriptors are well formed", "statement": "Descriptor.Service(t,p,n) appends tag 0x48, a length byte equal to the number of bytes that follow, type t, and length-prefixed p and n.", "quantifier": "every pair of strings with total length <= 252", "why_tests_cant": "byte arithmetic boundaries", "anchors": ["container/ts/table/descriptor.go: Descriptor.Service, NetworkName, CountryAvailability"]}
{"id": "C58", "title": "A failing TS writer is reported and leaves whole packets", "statement": "If the writer fails, Mux returns the error, and the packets accepted before are a prefix of those a non-failing writer would have received.", "quantifier": "every packet and failure point", "why_tests_cant": "every crash point", "anchors": ["container/ts/muxer.go: Muxer.Mux"]}
{"id": "C59", "title": "AVCC to Annex-B conversion keeps every slice", "statement": "For a video packet that is a sequence of 4-byte-length-prefixed NAL units of types 1,5,6,7,8,9 (first unit longer than 1 byte), Parse writes the access unit delimiter, then each slice/IDR/SEI unit in order behind a start code, with the SPS/PPS of the packet seen so far (or else the saved sequence headers) immediately before the first IDR unit.", "quantifier": "every list of NAL units", "why_tests_cant": "unbounded lists and unit contents", "anchors": ["parser/h264/parser.go: Parser.Parse, getAnnexbH264, naluSize"]}
{"id": "C60", "title": "H.264 parser accepts exactly well-formed AVCC packets", "statement": "On non-sequence-header input not starting with 00 00 00 01, Parse succeeds iff the input is a non-empty concatenation of length-prefixed non-empty NAL units of the supported types; it never panics on any input.", "quantifier": "every byte string and parser state", "why_tests_cant": "arbitrary untrusted input", "anchors": ["parser/h264/parser.go: Parse, getAnnexbH264, parseSpecificInfo"]}
{"id": "C61", "title": "Annex-B input passes through unchanged", "statement": "Parse of data beginning with 00 00 00 01 (not a sequence header) writes exactly that data.", "quantifier": "every such byte string", "why_tests_cant": "every payload", "anchors": ["parser/h264/parser.go: Parse, isStartAtNaluHeader"]}
{"id": "C62", "title": "H.264 sequence header extraction", "statement": "A well-formed AVC decoder configuration record with one SPS and one PPS makes the parser emit start code+SPS+start code+PPS before an IDR; a malformed one is an error that leaves the parser unchanged.", "quantifier": "every SPS/PPS content and every malformed record", "why_tests_cant": "every length combination", "anchors": ["parser/h264/parser.go: parseSpecificInfo"]}
{"id": "C63", "title": "A new sequence header replaces the old one", "statement": "After several sequence headers only the SPS/PPS of the most recent one are emitted before an IDR.", "quantifier": "every sequence of sequence headers", "why_tests_cant": "history dependent", "anchors": ["parser/h264/parser.go: parseSpecificInfo"]}
{"id": "C64", "title": "ADTS framing of AAC", "statement": "After a 2-byte AudioSpecificConfig with object type 1..4, rate index <13 and channels <=7, Parse of a raw AAC frame of at most 8184 bytes writes a 7-byte ADTS header that decodes to MPEG-4, no CRC, that profile, rate index and channel configuration and frame length = 7 + frame size, followed by the frame.", "quantifier": "every config and frame in range", "why_tests_cant": "every length and config", "anchors": ["parser/aac/parser.go: Parser.Parse, specificInfo, addADTSToFrame"]}
{"id": "C65", "title": "AAC parser error behaviour", "statement": "Raw frames before a config, empty data and unknown packet types are errors that write nothing; no input panics.", "quantifier": "every byte string, type and state", "why_tests_cant": "arbitrary input", "anchors": ["parser/aac/parser.go: Parser.Parse"]}
{"id": "C66", "title": "Reported sample rate is always positive and from the standard table", "statement": "CodecParser.SampleRate returns an error iff no audio packet was accepted so far; otherwise one of the standard AAC/MP3 rates, so Update never divides by zero.", "quantifier": "every history of Parse calls", "why_tests_cant": "history dependent", "anchors": ["parser/parser.go: CodecParser.SampleRate", "parser/aac/parser.go: SampleRate", "parser/mp3/parser.go"]}
{"id": "C67", "title": "MP3 sampling frequency follows the MPEG header layout", "statement": "Parse sets the sample rate from the two sampling_frequency bits of the MPEG audio header (bits 3..2 of byte 2).", "quantifier": "every header byte", "why_tests_cant": "256 header bytes", "anchors": ["parser/mp3/parser.go: Parser.Parse"]}
{"id": "C68", "title": "CodecParser dispatches by packet type and codec without panic on demuxed packets", "statement": "For packets produced by flv Demux, Parse never panics, routes AVC video, AAC and MP3 audio to their parsers and rejects everything else without writing.", "quantifier": "every packet and history", "why_tests_cant": "arbitrary histories", "anchors": ["parser/parser.go: CodecParser.Parse"]}
{"id": "C69", "title": "CSeq round trip", "statement": "NewSIPCseq(c.String()) has the same ID and Method for every ID without a space; String(NewSIPCseq(s)) = s for every s containing a space.", "quantifier": "every pair of strings", "why_tests_cant": "unbounded strings", "anchors": ["sips/cseq.go: NewSIPCseq, SIPCseq.Bytes"]}
{"id": "C70", "title": "Substring is a clamped slice", "statement": "Substring(v,from,to) never panics and equals v[max(from,0):min(max(to,0),len)] when that range is valid, else the empty string.", "quantifier": "every string and every pair of ints", "why_tests_cant": "includes negative and out-of-range indices", "anchors": ["sips/base.go: Substring"]}
{"id": "C71", "title": "SIP methods and versions round trip case-insensitively", "statement": "GetSIPMethod(m.String()) = m for the 15 methods, in any letter case, and every other ASCII string is rejected; likewise versions.", "quantifier": "every ASCII string", "why_tests_cant": "unbounded strings", "anchors": ["sips/method.go", "sips/version.go"]}
{"id": "C72", "title": "Request-URI round trip", "statement": "NewSIPRequest(r.String()) recovers URIType, User, Host, Port and Args for URI types sip/sips/tel, user without @ or ;, host without : or ;, port without ;, and token arguments, in any argument order.", "quantifier": "every such request and iteration order", "why_tests_cant": "unbounded strings and map order", "anchors": ["sips/request.go: NewSIPRequest, SIPRequest.Bytes", "sips/header_args.go"]}
{"id": "C73", "title": "Via round trip", "statement": "NewSIPVia(v.String()) recovers Trans, Host, Port and Args for transports UDP/TCP/TLS/SCTP, host without space, : or ;, port without space or ;, and token arguments, in any argument order.", "quantifier": "every such Via and iteration order", "why_tests_cant": "unbounded strings and map order", "anchors": ["sips/via.go: NewSIPVia, SIPVia.Bytes"]}
{"id": "C74", "title": "From/To/Contact address round trip", "statement": "NewSIPUser(u.String()) recovers URIType, User, Host, Port and Args, for URI types sip/sips/tel, an ASCII display name without : or ;, user, host and port without space, ; or >, user without @, host without :, and token arguments.", "quantifier": "every address without reserved characters and every iteration order", "why_tests_cant": "unbounded strings and map order", "anchors": ["sips/user.go: NewSIPUser, SIPUser.Bytes"]}
{"id": "C75", "title": "Display names survive parsing", "statement": "NewSIPUser returns the display name of a From/To/Contact line.", "quantifier": "every display name", "why_tests_cant": "unbounded strings", "anchors": ["sips/user.go: NewSIPUser"]}
{"id": "C76", "title": "Header argument lists round trip", "statement": "ParseArgs(a.SemicolonString()) = a for keys and values that are UTF-8 text of any alphabet without line feed, quote, comma and semicolon and without white space at their ends (keys not empty and without =), in every iteration order.", "quantifier": "every argument map and order", "why_tests_cant": "map order", "anchors": ["sips/header_args.go: ParseArgs, ParseArgsPairs, ParseList, SemicolonString"]}
{"id": "C77", "title": "Argument parsing never panics", "statement": "ParseArgs, ParseArgsPairs, NewSIPUser, NewSIPVia, NewSIPRequest and NewSIPAuth return for every string.", "quantifier": "every string", "why_tests_cant": "arbitrary network input", "anchors": ["sips/header_args.go: ParseArgsPairs"]}
{"id": "C78", "title": "Header parsing never panics", "statement": "SIP.Parse returns a message or an error for every byte string.", "quantifier": "every byte string", "why_tests_cant": "arbitrary network input", "anchors": ["sips/sips.go: Parse, ParseHeader"]}
{"id": "C79", "title": "Header lookup is case-insensitive and understands compact forms", "statement": "GetFirstHeader(name) returns the first value of the header in any letter case and in its RFC 3261 compact form.", "quantifier": "every message and name", "why_tests_cant": "every message", "anchors": ["sips/header.go: GetHeader, GetFirstHeader, compactSipHeadersCorrespondence"]}
{"id": "C80", "title": "Message parse inverts message build", "statement": "ParseBytes(MakeRequest/MakeResponse(...).Bytes()) recovers method/URI/version or status code, every single-valued header and the body.", "quantifier": "every message with well-formed headers, every header order", "why_tests_cant": "unbounded messages and map order", "anchors": ["sips/sips.go: Bytes, Parse, fillBody", "sips/easy.go"]}
{"id": "C81", "title": "Payload is the body", "statement": "After a successful Parse, Payload() is the Content-Length bytes after the blank line.", "quantifier": "every message and every fragmentation of the input", "why_tests_cant": "length and fragmentation corners", "anchors": ["sips/sips.go: Parse, fillBody"]}
{"id": "C82", "title": "Header parsing is independent of fragmentation", "statement": "The header section parsed from a bufio.Reader does not depend on how the network fragments the bytes.", "quantifier": "every message and every fragmentation", "why_tests_cant": "unbounded schedules", "anchors": ["sips/sips.go: Parse"]}
{"id": "C83", "title": "Set then get a header", "statement": "After SetFirstHeader(n,v), GetFirstHeader(m) = v for every m equal to n ignoring case and is unchanged for every other m (a long name stored without values may find its compact form n); CopyFrom gives exactly the named headers the first value they have in the source.", "quantifier": "every header map and names", "why_tests_cant": "unbounded maps", "anchors": ["sips/header.go: SetFirstHeader, GetFirstHeader, CopyFrom"]}
{"id": "C84", "title": "Content-Length is always the payload length", "statement": "Bytes always emits a content-length header equal to the payload length, whatever the caller put there.", "quantifier": "every message", "why_tests_cant": "every payload and header map", "anchors": ["sips/sips.go: SIP.Bytes"]}
{"id": "C85", "title": "End to end: AAC frame through FLV demux, parser and TS mux", "statement": "Demux, Update and Mux of an AAC raw packet writes TS packets whose reassembled PES payload is the ADTS header and the frame, stamped with the synchronised timestamp.", "quantifier": "every frame of at most 8184 bytes, every mixer state with a config", "why_tests_cant": "composition of four layers", "anchors": ["container/ts/mixer.go: Mixer.Mux", "parser/aac/parser.go", "container/flv/demuxer.go", "container/ts/muxer.go"]}
{"id": "C86", "title": "End to end: AVC frame through FLV demux, parser and TS mux", "statement": "Demux, Update and Mux of an AVC NALU packet writes TS packets whose reassembled PES payload is the Annex-B form of the frame.", "quantifier": "every list of NAL units, every mixer state", "why_tests_cant": "composition of four layers", "anchors": ["container/ts/mixer.go: Mixer.Mux", "parser/h264/parser.go", "container/flv/demuxer.go", "container/ts/muxer.go"]}
{"id": "C87", "title": "Continuity counters at the mixer output", "statement": "The TS packets written by a Mixer have consecutive continuity counters per PID whatever sequence of Mixer calls is made.", "quantifier": "every history of Mixer calls", "why_tests_cant": "history dependent: SaveAVCHeader consumes a counter value", "anchors": ["container/ts/mixer.go: SaveAVCHeader, SaveAACHeader, Mux"]}
{"id": "C88", "title": "AMF3 batches round trip", "statement": "DecodeBatch of what EncodeBatch wrote returns all the values in order and no error, for every decoder state.", "quantifier": "every list of encodable AMF3 values, every decoder state and contiguous reader", "why_tests_cant": "unbounded lists of unbounded values; state carried between values", "anchors": ["amf/amf3.go: EncodeBatch, DecodeBatch, Encode, Decode"]}
{"id": "C89", "title": "Truncated AMF3 values are rejected", "statement": "Every proper prefix of the encoding of an AMF3 value that contains no byte array is rejected with an error, whatever the decoder was used for before.", "quantifier": "every encodable value without byte arrays, every cut position, every decoder history", "why_tests_cant": "every cut of every value; depends on the decoder tables", "anchors": ["amf/amf3.go: Decode", "amf/helper.go: readBytes"]}
{"id": "C90", "title": "PES time stamps carry the right prefix bits", "statement": "The four bits before a PES time stamp are 0010 for a PTS alone, and 0011 (PTS) and 0001 (DTS) when both are present.", "quantifier": "every packet and time stamps", "why_tests_cant": "every time stamp pair", "anchors": ["container/ts/table/pes.go: encodeTs, GeneratePesHeader"]}
{"id": "C91", "title": "Country availability descriptors are well formed", "statement": "CountryAvailability appends tag 0x49 and a length byte equal to the number of bytes that follow.", "quantifier": "every flag and country code", "why_tests_cant": "every argument", "anchors": ["container/ts/table/descriptor.go: Descriptor.CountryAvailability"]}
{"id": "C92", "title": "The SDT has a continuity counter", "statement": "The continuity counters of the packets that SDT returns are consecutive mod 16, like those of PAT and PMT.", "quantifier": "every sequence of calls", "why_tests_cant": "unbounded histories", "anchors": ["container/ts/muxer.go: Muxer.SDT"]}
{"id": "C93", "title": "What ADTS cannot express is rejected", "statement": "A configuration with an object type above 4, a reserved frequency index or more than 7 channels, and a raw frame longer than 8184 bytes, are rejected with an error.", "quantifier": "every configuration and frame", "why_tests_cant": "every configuration and length", "anchors": ["parser/aac/parser.go: specificInfo, addADTSToFrame"]}
{"id": "C94", "title": "NAL unit length size is taken from the configuration record", "statement": "After a configuration record that announces NAL unit lengths of n bytes (lengthSizeMinusOne), packets are split with n-byte lengths.", "quantifier": "every record and packet", "why_tests_cant": "every record; depends on history", "anchors": ["parser/h264/parser.go: parseSpecificInfo, naluSize"]}
{"id": "C95", "title": "Parsers with a failing writer", "statement": "If the writer fails, Parse reports its error, the bytes that reached the writer are a prefix of those a working writer would have got, and the parser is in the same state as if nothing had failed.", "quantifier": "every packet, parser state and writer failure", "why_tests_cant": "every failure position", "anchors": ["parser/parser.go: CodecParser.Parse", "parser/h264/parser.go", "parser/aac/parser.go"]}
{"id": "C96", "title": "AMF3 messages of other producers", "statement": "A fresh AMF3 decoder fed the values of any producer that follows the AMF3 specification with sealed objects, arrays with named and indexed members, strings and class descriptions in full or by reference, and references to dates, XML documents and byte arrays yields exactly the values they denote. A member sent more than once has the value sent last.", "quantifier": "every message batch a producer can build from these choices", "why_tests_cant": "unbounded nesting and reference structure; tests cover what this encoder emits", "anchors": ["amf/amf3.go: Decode, DecodeBatch, decodeString, decodeObject, decodeArray"]}
{"id": "C97", "title": "AMF3 integers mean what the specification says", "statement": "An AMF3 integer is a signed 29-bit number: negative integers sent by others are decoded as negative, and every integer encoded is read by others as that number.", "quantifier": "every integer of the 29-bit range", "why_tests_cant": "2^29 values", "anchors": ["amf/amf3.go: Decode, Encode, encodeInteger, readUint29, writeUint29"]}
{"id": "C98", "title": "AMF0 messages of other producers", "statement": "A fresh AMF0 decoder fed the values of any producer that follows the AMF0 specification (short and long strings, objects, ECMA arrays with any count, strict arrays, typed objects, dates with any time zone, XML documents, AMF3 values, references to complex values sent before, also to enclosing ones, any non-zero byte for true) yields exactly the values they denote and reads exactly to their end. A member sent more than once has the value sent last; a reference yields the very object it refers to.", "quantifier": "every message batch a producer can build from these choices", "why_tests_cant": "unbounded nesting; tests cover what this encoder emits", "anchors": ["amf/amf0.go: Decode, DecodeBatch"]}
{"id": "C99", "title": "The metadata header is deleted however it is encoded", "statement": "If script data begins with the string @setDataFrame, in either AMF0 string encoding, DelMetaHeader returns exactly what follows that string.", "quantifier": "every payload and both encodings", "why_tests_cant": "every payload", "anchors": ["amf/metadata.go: DelMetaHeader"]}
{"id": "C100", "title": "Digest credentials of other senders", "statement": "NewSIPAuth returns the parameters meant by any sender that follows RFC 3261 and RFC 2617, in any alphabet (UTF-8): any letter case of the scheme, blanks after commas, tokens or quoted strings, any character of a quoted string written with a backslash; what CommaString writes is read back.", "quantifier": "every list of distinct parameters and every choice of its sender; every argument map", "why_tests_cant": "every combination of quoting choices", "anchors": ["sips/auth.go: NewSIPAuth", "sips/header_args.go: ParseList, ParseArgsPairs, CommaString"]}
{"id": "C101", "title": "SIP messages of other senders", "statement": "Parse accepts the requests and responses of any sender, if their lines fit the buffer of the reader and their addresses have no arguments with an empty value, with any letter case of method, version and header names, spaces around the colon, CRLF or LF, continuation lines and repeated headers, in any fragmentation: method, URI, version, code and reason phrase are those of the first line, every header name (in any letter case) lists all the values sent under it in their order with a line fold read as one space, and From, To, Contact, Via and CSeq are those of the first field of their name.", "quantifier": "every header section a sender can build from these choices, every body, every fragmentation", "why_tests_cant": "unbounded combination of choices", "anchors": ["sips/sips.go: Parse, ParseHeader", "sips/request.go: ParseFirstLine", "sips/header.go: GetHeader, GetFirstHeader"]}
{"id": "C102", "title": "Status lines follow RFC 3261", "statement": "A response is written with version, code and the reason phrase of RFC 3261 for its code, or the phrase the message carries.", "quantifier": "every status code and message", "why_tests_cant": "every code; needs the RFC table", "anchors": ["sips/status.go: statusTexts, Text, String", "sips/sips.go: Bytes"]}
{"id": "C103", "title": "Headers with several values survive", "statement": "A header with several values that is written by Bytes is read back by Parse with the same values.", "quantifier": "every header map and order of iteration", "why_tests_cant": "map order; every number of values", "anchors": ["sips/header.go: SIPHeader.Bytes", "sips/sips.go: Bytes, ParseHeader"]}
{"id": "C104", "title": "Addresses and request URIs convert into each other", "statement": "An address converted with ToRequest, written and parsed has the scheme, user, host, port and arguments of the address; the same for ToUser, with no display name.", "quantifier": "every address and URI whose parts contain no separator characters, every order of the argument map", "why_tests_cant": "every combination of parts", "anchors": ["sips/user.go: ToRequest", "sips/request.go: ToUser"]}
{"id": "C105", "title": "A message object can be reused", "statement": "Parsing a second message into the same object yields that message: kind, headers and addresses are those of the second message.", "quantifier": "every pair of messages", "why_tests_cant": "depends on history", "anchors": ["sips/sips.go: Parse"]}
{"id": "C106", "title": "Lines of any length are accepted", "statement": "A message is accepted whatever the length of its lines.", "quantifier": "every message", "why_tests_cant": "needs lines beyond the buffer of the reader", "anchors": ["sips/sips.go: Parse"]}
{"id": "C107", "title": "AMF decoding does not depend on how the reader delivers", "statement": "A value is decoded to the same result from a reader whose Read calls return fewer bytes than asked for (such as a network connection) as from a buffer.", "quantifier": "every value, every surplus behind it, every bound on every single Read", "why_tests_cant": "every split of the data over Read calls", "anchors": ["amf/amf0.go: Decode", "amf/amf3.go: Decode", "amf/helper.go: readBytes"]}
{"id": "C108", "title": "AMF encoders report a failing writer", "statement": "Whatever call of the writer fails, Encode and EncodeBatch report its error, what was written is a prefix of what a buffer would have received, and success is reported only if everything was written.", "quantifier": "every value, including those that cannot be encoded, and every writer", "why_tests_cant": "every failure position in every value", "anchors": ["amf/amf0.go: Encode, EncodeBatch, EncodeWithAMF3, EncodeXmlDocument", "amf/amf3.go: Encode, EncodeBatch"]}
{"id": "C109", "title": "A transport stream delivers exactly the frames that were sent", "statement": "A receiver of the stream written by a mixer learns from the tables which streams there are, and gets on their PIDs exactly the video and audio frames that were sent as FLV tags (access units in Annex-B form, AAC frames with ADTS header) with their time stamps: all of them, in their order, and nothing else, however audio, video, tables and rejected packets are interleaved.", "quantifier": "every session: any number and interleaving of tags, sequence headers, table and metadata calls", "why_tests_cant": "unbounded sessions; needs an independent demultiplexer", "anchors": ["container/ts/mixer.go: Mux, Update, SetTsHeader", "container/ts/muxer.go: Mux", "container/flv/demuxer.go: Demux", "parser/parser.go: Parse"]}
{"id": "C110", "title": "Each typed header setter writes its own header", "statement": "After SetX of a header (From, To, Subject, Max-Forwards, Content-Length, ...) a look-up of that header under any spelling returns exactly the value, and every other header is what it was; the typed getters return what the typed setters stored (addresses without their display name, C75).", "quantifier": "every header map without empty value lists, every value and header name; addresses and Via values without separator characters in their parts", "why_tests_cant": "every pair of setter and other header", "anchors": ["sips/header.go: SetSubject, SetMaxForwards, SetSIPFrom, SetSIPTo, SetSIPContact, SetSIPVia, SetSIPCseq, SetContentLength, GetSIPFrom"]}
{"id": "C111", "title": "URIs without a user part are understood", "statement": "A URI that consists of scheme and host only (sip:registrar.biloxi.com) is read as such: no user, the right host, and it is written as it was read.", "quantifier": "every scheme, host, port and argument list", "why_tests_cant": "every host", "anchors": ["sips/request.go: NewSIPRequest", "sips/user.go: NewSIPUser"]}
{"id": "C112", "title": "Hosts that contain colons are understood", "statement": "A host in brackets (IPv6) is read as one host with its port, and written as it was read.", "quantifier": "every such host, port and argument list", "why_tests_cant": "every host", "anchors": ["sips/request.go: NewSIPRequest", "sips/via.go: NewSIPVia"]}
{"id": "C113", "title": "Schemes and transports are recognised in any letter case and none is confused with another", "statement": "The URI scheme is recognised whatever its letter case; a Via header is read to the right transport, and an unknown transport is not taken for part of the host.", "quantifier": "every URI and every Via header", "why_tests_cant": "every letter case and transport name", "anchors": ["sips/request.go: NewSIPRequest", "sips/via.go: NewSIPVia"]}
{"id": "C114", "title": "Messages that follow each other on a connection are read one by one", "statement": "A reader that calls Parse repeatedly gets exactly the messages that were sent, each with its start line, headers and body, however the bytes are cut into reads, and finds the bytes behind the last message untouched.", "quantifier": "every list of messages, every fragmentation, every continuation", "why_tests_cant": "unbounded sequences and every fragmentation", "anchors": ["sips/sips.go: Parse, fillBody"]}
{"id": "C115", "title": "Every message written ends its header section with a blank line", "statement": "What Bytes writes contains the blank line that ends the header section, so a receiver on a connection can tell that the message is complete.", "quantifier": "every message, header map and map order", "why_tests_cant": "map order, every header", "anchors": ["sips/sips.go: Bytes, Parse"]}
{"id": "C116", "title": "A message that was received can be forwarded", "statement": "Writing a message object that Parse has filled and parsing it again yields the same message: start line, headers, addresses and body.", "quantifier": "every message object with single-valued headers, every map order", "why_tests_cant": "every state of the object, repeated hops", "anchors": ["sips/sips.go: Bytes, Parse"]}
{"id": "C117", "title": "Parsing a message loses no byte", "statement": "After a successful Parse, the header section and payload that the object keeps and the bytes that stay in the reader are together exactly the input, in order.", "quantifier": "every input, state of the object, buffer size and fragmentation", "why_tests_cant": "every input and fragmentation", "anchors": ["sips/sips.go: Parse, fillBody", "sips/base.go: LayerContents, LayerPayload"]}
{"id": "C118", "title": "Messages without Content-Length are accepted", "statement": "A message that carries no Content-Length header is accepted: its body reaches to the end of the datagram, as RFC 3261 section 18.3 has it.", "quantifier": "every message without the header, every fragmentation", "why_tests_cant": "every message", "anchors": ["sips/sips.go: Parse, fillBody", "sips/header.go: GetContentLength"]}
{"id": "C119", "title": "White space around a header value is not part of the value", "statement": "Spaces and tabs between the colon and the value do not change what the header reports, nor whether the message is accepted.", "quantifier": "every header value and white space", "why_tests_cant": "every header and white space", "anchors": ["sips/sips.go: ParseHeader", "sips/header.go: GetContentLength"]}
{"id": "C120", "title": "A message with an invalid content length is rejected", "statement": "Parse succeeds only if the content length is a non-negative decimal number, and then reports this number.", "quantifier": "every message and every content length value", "why_tests_cant": "every value", "anchors": ["sips/sips.go: Parse, fillBody", "sips/header.go: GetContentLength"]}
{"id": "C121", "title": "Every typed getter reads its own header", "statement": "On a received message the getters for call id, expiry, From, To, Contact, Via, CSeq, content length and credentials report the first field of their own name, whatever its letter case, and no other.", "quantifier": "every message, every set of header fields and letter case", "why_tests_cant": "every combination of header fields", "anchors": ["sips/header.go: GetCallID, GetExpires, GetSIPFrom, GetSIPTo, GetSIPContact, GetSIPVia, GetSIPCseq, GetContentLength, GetAuthorization"]}
{"id": "C122", "title": "Argument maps behave as maps, also on the wire", "statement": "Set changes the value of one argument and Del removes one; all others keep their values. An argument that was deleted is not sent any more.", "quantifier": "every argument map, name and value, every map order", "why_tests_cant": "map order, every name", "anchors": ["sips/header_args.go: Set, Get, Del, SemicolonString"]}
{"id": "C123", "title": "Arguments written one per line are read back", "statement": "The text CRLFString writes is read back by the parser of argument lines to the same arguments.", "quantifier": "every argument map, every map order", "why_tests_cant": "map order, every value", "anchors": ["sips/header_args.go: CRLFString, ParseArgsPairs"]}
{"id": "C124", "title": "Any SIP object can parse a message", "statement": "Parse works on every SIP object, also one that was declared and not made by NewSIP.", "quantifier": "every message with at least one header field, every fragmentation", "why_tests_cant": "every message", "anchors": ["sips/sips.go: Parse, ParseHeader"]}
{"id": "C125", "title": "The metadata header works with the AMF3 decoder", "statement": "AddMetaHeader and DelMetaHeader are inverse to each other whichever of the two decoders is passed, and DelMetaHeader removes exactly the header.", "quantifier": "every metadata value, both decoders", "why_tests_cant": "every payload", "anchors": ["amf/metadata.go: AddMetaHeader, DelMetaHeader", "amf/amf3.go: Decode"]}
{"id": "C126", "title": "Addresses, Via values and parameters of other senders are understood", "statement": "NewSIPUser, NewSIPVia and ParseArgs find the scheme, user, host, port and parameters meant by any sender that follows RFC 3261: any display name without colon and semicolon, with or without angle brackets, spaces around the parts, parameters with blanks, with or without value, as token or quoted string, and URI parameters inside the brackets.", "quantifier": "every address, Via value and parameter list a sender may write", "why_tests_cant": "every choice of spaces, quoting and characters", "anchors": ["sips/user.go: NewSIPUser", "sips/via.go: NewSIPVia", "sips/header_args.go: ParseArgs"]}
{"id": "C127", "title": "Headers with several addresses are understood", "statement": "From a header that lists several addresses separated by commas, as the Contact header may, NewSIPUser returns one of the addresses.", "quantifier": "every pair of addresses", "why_tests_cant": "every pair of addresses", "anchors": ["sips/user.go: NewSIPUser"]}
{"id": "C128", "title": "URIs, addresses, Via and CSeq values are written in the syntax of RFC 3261", "statement": "String and Bytes of a request URI, address, Via and CSeq value are exactly the text RFC 3261 prescribes: user part and port only if there is one, the display name as a quoted string, parameters without = if they have no value.", "quantifier": "every field value", "why_tests_cant": "every combination of parts, map order", "anchors": ["sips/request.go: Bytes, String", "sips/user.go: Bytes, String", "sips/via.go: Bytes, String", "sips/cseq.go: Bytes, String"]}
{"id": "C129", "title": "Video of every codec passes the demuxer unchanged", "statement": "Demux accepts every video tag the FLV format allows and hands on exactly its media: behind the byte with frame type and codec for every codec, and behind the four further header bytes for AVC only; no tag of another codec is taken for an AVC sequence header.", "quantifier": "every video tag, every codec and frame type", "why_tests_cant": "every codec, frame type and payload", "anchors": ["container/flv/tag.go: parseVideoHeader, IsSeqHdr", "container/flv/demuxer.go: Demux", "gop/cache.go: WriteVideo"]}
{"id": "C130", "title": "An end-of-sequence tag displaces no pictures", "statement": "Writing an AVC end-of-sequence tag to the cache takes away none of the pictures a new subscriber receives.", "quantifier": "every capacity and history, every end-of-sequence tag", "why_tests_cant": "every history", "anchors": ["gop/cache.go: WriteVideo", "gop/gop.go: Write", "container/flv/tag.go: IsKeyFrame, IsEndOfSeq"]}
{"id": "C131", "title": "A late subscriber of a relay gets a complete FLV file", "statement": "In a server that demuxes and caches what a publisher sends, every new subscriber whose mixer muxes what the cache sends receives a readable FLV file with exactly the latest metadata without @setDataFrame, the latest video and audio headers and the newest groups of pictures, each with the bytes and the timestamp the publisher sent, however many subscribers were served before from the same packets.", "quantifier": "every sequence of valid messages and subscriptions, every capacity", "why_tests_cant": "every history; packets are shared between cache and subscribers and changed by the muxer", "anchors": ["gop/cache.go: Write, SendTo", "container/flv/demuxer.go: Demux", "container/flv/mixer.go: SetFlvHeader, Mux", "container/flv/muxer.go: mux"]}
{"id": "C132", "title": "MP3 audio is carried in the transport stream", "statement": "When FLV audio tags with MP3 are demuxed and given to a transport stream mixer and every call succeeds, the receiver of the transport stream gets each frame, in a PES packet with the time of the tag.", "quantifier": "every reachable mixer, every MP3 tag, every timestamp", "why_tests_cant": "every frame and mixer state", "anchors": ["container/ts/mixer.go: Mux, parse, Update", "parser/mp3/parser.go: Parse", "parser/parser.go: Parse"]}
{"id": "C133", "title": "A packet can be given to several transport stream mixers", "statement": "A server that gives one and the same demuxed packet to several transport stream mixers sends every receiver the same audio, video and parameter sets, as if the packet had been demuxed for each of them.", "quantifier": "every pair of reachable mixers, every audio, video and sequence header packet", "why_tests_cant": "every packet and every pair of mixer states; the effect shows only in the second stream", "anchors": ["container/ts/mixer.go: Mux, SaveAVCHeader, SaveAACHeader, parse", "container/flv/demuxer.go: Demux"]}
{"id": "C134", "title": "Muxing a packet leaves other packets alone", "statement": "With any number of transport stream mixers and packets, a call of Mux or of a Save method changes no packet but its own: what a mixer sends for a packet depends on that packet and not on what other packets have been muxed, by this mixer or another, in between.", "quantifier": "every sequence of calls on every number of mixers and packets", "why_tests_cant": "every interleaving of calls; the media of the packets share internal buffers whose growth depends on all earlier sizes", "anchors": ["container/ts/mixer.go: parse, Mux, SaveAVCHeader, SaveAACHeader"]}
{"id": "C135", "title": "A packet given to an FLV mixer is left as it was", "statement": "Mux, SaveAVCHeader and SaveAACHeader of the FLV mixer leave the packet they are given as it was, so one packet can be given to any number of mixers and each writes the same tag.", "quantifier": "every reachable mixer, every packet and time stamp, every writer", "why_tests_cant": "every packet; the effect shows only in the second file", "anchors": ["container/flv/mixer.go: Mux, SaveAVCHeader, SaveAACHeader", "container/flv/muxer.go: mux"]}
{"id": "C136", "title": "Sequence headers given to the transport stream mixer configure it and send nothing", "statement": "When a sequence header reaches Mux of the transport stream mixer like every other packet, the parameter sets or the AAC configuration are used for the following frames and nothing is sent for the header itself: it is no frame.", "quantifier": "every reachable mixer, every valid sequence header, every following frame", "why_tests_cant": "every header and every state of the mixer", "anchors": ["container/ts/mixer.go: Mux, parse", "container/ts/muxer.go: Mux", "parser/h264/parser.go: Parse", "parser/aac/parser.go: Parse"]}
{"id": "C137", "title": "A late viewer of a relayed transport stream gets the newest pictures and everything after", "statement": "In a server that demuxes and caches what a publisher sends and gives every viewer a transport stream mixer, a viewer who joins at any time receives a transport stream whose tables name the streams and which contains exactly the newest groups of pictures, with the parameter sets, and then every video and audio frame sent after they joined, in order and with its time, whatever other viewers and FLV subscribers, who share the packets, are served in between.", "quantifier": "every sequence of messages, FLV subscribers and viewers before and after the viewer joins, every capacity", "why_tests_cant": "every history and interleaving; the packets are shared between cache, viewers and subscribers and changed by their mixers", "anchors": ["gop/cache.go: Write, SendTo", "container/flv/demuxer.go: Demux", "container/ts/mixer.go: SaveAVCHeader, SaveAACHeader, SetTsHeader, Update, Mux"]}
{"id": "C138", "title": "A decoder can be used for one message after the other", "statement": "A decoder that has been used for any messages decodes the next message to the values it denotes: references in a message count from the beginning of that message, as both AMF specifications demand, so what was decoded before has no influence.", "quantifier": "every message of other producers, every decoder whatever it was used for before", "why_tests_cant": "every history of the decoder and every message", "anchors": ["amf/amf3.go: EnDecAMF3, decodeString, decodeObject, DecodeBatch", "amf/amf0.go: EnDecAMF0, decodeReference, DecodeBatch"]}
{"id": "C139", "title": "Integers of every size are sent as the nearest number", "statement": "Encode sends every integer that does not fit an AMF3 integer, and every integer in AMF0, as the float64 nearest to it (ties to the even one), and Decode returns exactly this float64.", "quantifier": "every 64-bit signed or unsigned integer of every kind, every decoder", "why_tests_cant": "all 2^65 integers; rounding errors show only for integers above 2^53", "anchors": ["amf/amf0.go: Encode, encodeNumber, decodeNumber", "amf/amf3.go: Encode, encodeDouble"]}
{"id": "C140", "title": "Dates of other producers keep their time", "statement": "An AMF3 date sent by another producer, any whole number of milliseconds since 1970, is decoded to that instant.", "quantifier": "every whole number of milliseconds within 100 million days of 1970 (all dates of ECMAScript), every decoder", "why_tests_cant": "every number of milliseconds; float64 division and truncation", "anchors": ["amf/amf3.go: decodeDate"]}
{"id": "C141", "title": "Writing one message does not change another", "statement": "Bytes of a message has no influence on any other message: a response made with the headers of a request, once written, leaves the request as it was received, and every message is written with its own headers and its own length, whatever was written before.", "quantifier": "every number of messages, however they share their headers, written in any order", "why_tests_cant": "every sharing and every order of calls; SetHeader, MakeRequest and MakeResponse keep the caller's map", "anchors": ["sips/sips.go: Bytes, SetHeader", "sips/easy.go: MakeRequest, MakeResponse", "sips/header.go: CopyFrom, SetContentLength"]}
{"id": "C142", "title": "An answer carries the headers of its request", "statement": "A response made by MakeResponse with headers that CopyFrom took from a received request, written by Bytes and parsed by the other side, has all the values of the request under the copied names, and the same From, To, Contact, Via and CSeq.", "quantifier": "every received request, every choice and spelling of names, every status code and body, every map order", "why_tests_cant": "all requests of other senders and all sets of copied names", "anchors": ["sips/header.go: CopyFrom, GetFirstHeader, Bytes", "sips/easy.go: MakeResponse", "sips/sips.go: Bytes, Parse"]}
{"id": "C143", "title": "External handlers can be registered with every decoder", "statement": "RegisterExternalHandler succeeds on every decoder that NewEnDecAMF3 or NewEnDecAMF0 returns, and the handler in force for a name is the one registered last for it.", "quantifier": "every sequence of names and handlers, both constructors", "why_tests_cant": "every sequence of registrations", "anchors": ["amf/amf3.go: NewEnDecAMF3, RegisterExternalHandler", "amf/amf0.go: NewEnDecAMF0"]}
{"id": "C144", "title": "The transport stream tables list exactly the streams whose sequence headers were accepted", "statement": "The PMT written by SetTsHeader lists H.264 video iff some SaveAVCHeader call has succeeded and AAC audio iff some SaveAACHeader call has succeeded.", "quantifier": "every history of mixer calls, with whatever outcomes", "why_tests_cant": "every history, also with rejected headers", "anchors": ["container/ts/mixer.go: SaveAVCHeader, SaveAACHeader, SetTsHeader", "packet/types.go: IsVideo, IsAudio, ToSlice"]}
{"id": "C145", "title": "A transport stream mixer reports a failing writer", "statement": "Mux and SetTsHeader of the mixer return the error of the writer exactly if one of its Writes failed; what the writer accepted is a prefix of what a working writer would have received, and with a working writer the outcome does not depend on the writer.", "quantifier": "every reachable mixer, every packet, every failure point (including partial writes)", "why_tests_cant": "every failure point", "anchors": ["container/ts/mixer.go: Mux, SetTsHeader", "container/ts/muxer.go: Mux"]}
{"id": "C146", "title": "Only AMF is accepted", "statement": "Decode and DecodeBatch return a value only for bytes that are an AMF value according to the specification, and they return the value that the specification assigns to those bytes: unknown markers, references to something that has not been sent, class references without a class, objects without an end marker and strings that are cut off are never turned into values.", "quantifier": "every byte string, every reader, every fragmentation, AMF0 and AMF3, a new decoder", "why_tests_cant": "every byte string; most of them are malformed", "anchors": ["amf/amf0.go: Decode, DecodeBatch", "amf/amf3.go: Decode, DecodeBatch, decodeString, decodeObject, decodeArray"]}
{"id": "C147", "title": "Lengths, references and integers may be longer than necessary", "statement": "Every sequence of values that the specification allows is decoded completely, to the values the specification assigns to it, whichever number of bytes another producer uses for the variable-length integers in it.", "quantifier": "every message of the specification (without the deviations named at C146), every spelling of its U29 numbers, AMF0 with embedded AMF3 values and AMF3", "why_tests_cant": "all spellings; the package itself always writes the shortest", "anchors": ["amf/amf0.go: Decode, DecodeBatch", "amf/amf3.go: Decode, DecodeBatch, readUint29"]}
{"id": "C148", "title": "Only SIP messages are accepted", "statement": "Parse returns nil only for a text that is a SIP message: its first line consists of a known method, a URI and a SIP version, or of a SIP version, a three-digit status code and a phrase; each further line up to the blank line is a header field or continues one; the fields that RFC 3261 demands are there, and the content length is a number. What the message then reports is what these lines say.", "quantifier": "every byte string, every reader and fragmentation, a new object", "why_tests_cant": "every byte string; most of them are no SIP messages", "anchors": ["sips/sips.go: Parse, ParseFirstLine, ParseHeader", "sips/method.go: GetSIPMethod", "sips/version.go: GetSIPVersion"]}
{"id": "C149", "title": "Decoded values are not larger than the message", "statement": "The values that Decode and DecodeBatch return for a message of n bytes consist, with everything inside them, of at most n values, and no string, name or byte array in them is longer than n bytes: a short message cannot make the receiver build a large value.", "quantifier": "every byte string, every reader and fragmentation, AMF0 and AMF3, a new decoder", "why_tests_cant": "every byte string, also the malicious ones; lengths and element counts in a message can be lies", "anchors": ["amf/amf0.go: Decode, DecodeBatch, decodeStrictArray, decodeString", "amf/amf3.go: Decode, DecodeBatch, decodeArray, decodeObject, decodeXmlDoc, decodeByteArray"]}
{"id": "C150", "title": "Decoded values can be sent on", "statement": "A value returned by Decode can be given to Encode of the same package: Encode returns, and what it writes is decoded to the same value. An application can forward or record what it receives.", "quantifier": "every byte string for which Decode succeeds, every value in it, also with references to objects that are sent only once, AMF0 (without embedded AMF3 values) and AMF3", "why_tests_cant": "every message; messages with references make values that share maps or contain themselves", "anchors": ["amf/amf0.go: Decode, decodeReference, decodeObject, Encode, encodeObject, encodeStrictArray, encodeTypeObject", "amf/amf3.go: Decode, Encode"]}
{"id": "C151", "title": "A rejected message leaves nothing behind", "statement": "After Parse has returned an error the object is as it was before the call: it shows neither first line nor header fields nor body of the rejected message, and the next message that is parsed into it is recovered as if the rejected one had never arrived.", "quantifier": "every rejected text, every reader, every object, every message parsed afterwards", "why_tests_cant": "every way in which a message can be rejected, followed by every message", "anchors": ["sips/sips.go: Parse, ParseFirstLine, ParseHeader, fillBody"]}
{"id": "C152", "title": "What is encoded is AMF for every receiver", "statement": "The bytes that Encode, EncodeBatch and the further encoders of AMF0 write for a value they accept are, according to the specification, exactly one value that stands for the value given: integers for that number (or the nearest double), dates for that instant, texts, byte arrays, arrays and objects for their contents with all members under their names, typed objects with their type name. Receivers need not be this package.", "quantifier": "every value, nested to any depth, AMF0 and AMF3", "why_tests_cant": "all values; tests that decode with the same package do not see errors both sides share", "anchors": ["amf/amf0.go: Encode, EncodeBatch, EncodeEcmaArray, EncodeXmlDocument, EncodeReference, EncodeWithAMF3, encodeDate, encodeObject", "amf/amf3.go: Encode, EncodeBatch, encodeInteger, encodeDate, encodeArray, encodeObject"]}
{"id": "C153", "title": "A request and its answer keep what was set", "statement": "A program fills the header of a request with SetSIPFrom, SetSIPTo, SetSIPContact, SetSIPVia, SetSIPCseq, SetCallID and SetFirstHeader, in any order and several times, and sends it. The other side parses it and finds, in the parsed fields and by the Get functions, what the last call for each header has set. It copies headers into an answer with CopyFrom and sends that; the first side parses it and finds the same values.", "quantifier": "every sequence of calls with plain values of at most about 4000 bytes, every method, request address, status code and body, every selection of copied names in any letter case, every map iteration order", "why_tests_cant": "arbitrary sequences of calls with arbitrary values, through four functions that write or read text and two map iteration orders", "anchors": ["sips/header.go: SetSIPFrom, SetSIPTo, SetSIPContact, SetSIPVia, SetSIPCseq, SetCallID, SetFirstHeader, CopyFrom, GetSIPFrom, GetSIPTo, GetSIPContact, GetSIPVia, GetSIPCseq, GetCallID, GetHeader, GetFirstHeader", "sips/sips.go: MakeRequest, MakeResponse, Bytes, Parse"]}
{"id": "C154", "title": "Values can change the protocol", "statement": "A value decoded from AMF0 can be sent on as AMF3, by the AMF3 encoder or by EncodeWithAMF3, and a value decoded from AMF3 can be sent on as AMF0: Encode returns, and the bytes stand for the same value by the specification of the other protocol. A server can stand between clients of both kinds.", "quantifier": "every byte string for which Decode succeeds, every value in it, also with references to objects that are sent only once, both directions", "why_tests_cant": "every message and every value in it, through a decoder of one protocol and the encoder of the other", "anchors": ["amf/amf0.go: Decode, DecodeReference, EncodeWithAMF3, Encode", "amf/amf3.go: Decode, Encode, encodeArray, encodeObject"]}
{"id": "C155", "title": "A rejected value leaves nothing on the connection", "statement": "Encode accepts the values that consist, at every depth, of the kinds it documents, and returns an error for every other value. When it returns an error although the writer works, nothing of the value has been written, so that whatever is sent next is understood.", "quantifier": "every value, nested to any depth, AMF0 and AMF3, every batch, every value that is sent afterwards", "why_tests_cant": "all values, with an unsupported part at any place, followed by any message", "anchors": ["amf/amf0.go: Encode, EncodeBatch, encodeStrictArray, encodeObject, encodeTypeObject", "amf/amf3.go: Encode, EncodeBatch, encodeInteger, writeUint29, encodeArray, encodeObject"]}
{"id": "C156", "title": "A header value stays in its header", "statement": "Whatever values an application puts into the headers of a request or answer, for example a display name or subject it received from elsewhere, the receiver of the message finds header fields only under the names that were set, and the content length: a value cannot add a header field.", "quantifier": "every method, request address, status code, body and set of headers, every value with or without line breaks, every map iteration order", "why_tests_cant": "every value of every header in every message, through the writer and the parser, for every iteration order of the map", "anchors": ["sips/sips.go: Bytes, Parse, ParseHeader, MakeRequest, MakeResponse", "sips/header.go: SetFirstHeader, SetSubject, Bytes"]}
{"id": "C157", "title": "An address made from another one is independent of it", "statement": "The address that ToUser makes from a request URI, and the URI that ToRequest makes from an address, have the parts of their origin and are then objects of their own: setting or deleting an argument, such as the tag of a From or To header, leaves the origin, and what is written from it, as it was. The same holds for objects parsed from text.", "quantifier": "every program that makes any number of addresses and URIs and calls Set and Del on their arguments in any order", "why_tests_cant": "shared maps show only in later calls, through other objects, for particular orders of calls", "anchors": ["sips/request.go: ToUser, NewSIPRequest, Bytes", "sips/user.go: ToRequest, NewSIPUser, Bytes", "sips/header_args.go: Set, Del"]}
{"id": "C158", "title": "What a long-lived object keeps does not grow with the session", "statement": "An AMF decoder that is used for one message after the other, and an H.264 parser that is used for a whole stream, need no more memory after many messages than after a few of the same kind: what they keep depends on the last message or stream configuration, not on how many there were.", "quantifier": "all messages and sequence headers, any number of them, all states the object may be in", "why_tests_cant": "a leak needs long sessions to show and no test looks at the tables of the decoder", "anchors": ["amf/amf0.go: EnDecAMF0, Decode, DecodeBatch", "amf/amf3.go: EnDecAMF3, Decode, DecodeBatch", "parser/h264/parser.go: Parse"]}
{"id": "C159", "title": "A message that was received can be written", "statement": "Once Parse has accepted a message, Bytes and String write it without a panic, whatever the object was used for before: other messages, accepted or rejected, on other connections, writing, setting bodies and headers. The same holds for messages made by MakeRequest with a request URI and by MakeResponse.", "quantifier": "every history of an object made by NewSIP, MakeRequest with a URI or MakeResponse; every input and fragmentation; every map order", "why_tests_cant": "the panics (no header map, no request URI) depend on what earlier calls have left in the object", "anchors": ["sips/sips.go: NewSIP, Parse, Bytes, SetHeader, SetBody", "sips/easy.go: MakeRequest, MakeResponse", "sips/request.go: ParseFirstLine"]}
{"id": "C160", "title": "Header bytes and body of a received message are separate", "statement": "LayerContents and LayerPayload of a parsed message return its header bytes and its body. A program may append to either of them, as one does with byte slices in Go, or write into it: the other part remains what was received.", "quantifier": "every message that Parse accepts, in every fragmentation and with every growth of the buffer, every string appended to and every byte written into either part", "why_tests_cant": "whether append writes into the other part depends on the capacity of a slice, which no comparison of contents shows", "anchors": ["sips/sips.go: Parse", "sips/base.go: BaseLayer, LayerContents, LayerPayload"]}
{"id": "C161", "title": "Tables that a muxer has returned stay as they are", "statement": "SDT, PAT and PMT of a muxer return packets. A program may keep them, for example to send them again or to collect a file, while it goes on using the muxer: the packets remain what was returned.", "quantifier": "every muxer after any calls with any outcome, every later sequence of calls", "why_tests_cant": "whether a returned slice is overwritten shows only when it is read after further calls", "anchors": ["container/ts/muxer.go: SDT, PAT, PMT, Mux"]}
{"id": "C162", "title": "An address stays in the request line", "statement": "Whatever user, host, port and arguments an application puts into the address of a request, for example a name somebody has typed, the receiver of the request accepts it, finds this address in it and finds header fields only under the names that were set, and the content length: an address cannot add a header field or make the request unreadable.", "quantifier": "every method, every address with or without spaces and line breaks, every set of headers, every body, every map iteration order", "why_tests_cant": "every address in every message, through the writer and the parser, for every iteration order of the map", "anchors": ["sips/sips.go: Bytes, Parse", "sips/request.go: Bytes, ParseFirstLine, NewSIPRequest", "sips/easy.go: MakeRequest"]}
{"id": "C163", "title": "One PES object makes headers for several frames", "statement": "GeneratePesHeader of one Pes object can be called for one frame after the other: each header is the one a new object would make for that frame, with its stream, its time stamps and nothing of earlier frames, and the returned number of bytes is there.", "quantifier": "every sequence of calls on an object with any media types, lengths and time stamps", "why_tests_cant": "the header depends on all earlier calls on the object", "anchors": ["container/ts/table/pes.go: NewPes, GeneratePesHeader"]}
{"id": "C164", "title": "Stuffing and clock are written into their bytes only", "statement": "WriteStuff(src, n) turns the first n bytes of src into an adaptation field without flags and leaves the bytes behind them; WritePcr(buf, pcr) puts the clock modulo 2^33 into the first six bytes and leaves the others. If the bytes are not there the call panics instead of writing less. No stuffing (n = 0) writes nothing.", "quantifier": "every packet, every position in it, every number of stuffing bytes, every clock value", "why_tests_cant": "all positions, lengths and 64-bit clock values", "anchors": ["container/ts/table/pes.go: WriteStuff, WritePcr"]}
{"id": "C165", "title": "The order of header fields has no meaning", "statement": "Two messages that differ only in the order of header fields of different names are treated alike by Parse: both are accepted or both are rejected in the same way, every header name has the same values, addresses, Via and CSeq are the same, and so is the payload of a message after which nothing follows. Continuation lines move with their field, and fields of the same name keep their order.", "quantifier": "every message, acceptable or not, every object it is parsed into, every reordering, every fragmentation", "why_tests_cant": "all pairs of orders of arbitrarily many fields with arbitrary content", "anchors": ["sips/sips.go: Parse, ParseHeader", "sips/header.go: GetHeader, GetFirstHeader"]}
{"id": "C166", "title": "A message keeps the body it was given", "statement": "The body given to SetBody, MakeRequest or MakeResponse is the body of the message: whatever the program does later with its byte slices and with other messages, also with the one the body comes from, Bytes writes the body that was given. What Bytes has returned is not changed by anything done to the message.", "quantifier": "every message, every body in every slice and array, every sequence of calls and writes in between, every map order", "why_tests_cant": "Whether an array is shared shows only when it is used again at another place; tests give a literal body and write the message at once.", "anchors": ["sips/sips.go: SetBody, Bytes, Parse, Payload", "sips/easy.go: MakeRequest, MakeResponse", "sips/base.go: BaseLayer"]}
{"id": "C167", "title": "The cache holds packets as they were written", "statement": "A new subscriber receives the packets as they were when they were written to the cache, also when the publisher's loop has meanwhile gone on to read further packets, into new objects or into the same one.", "quantifier": "every capacity, every sequence of filling and writing packets, every assignment of packets to objects", "why_tests_cant": "a kept pointer shows only when the object is used again and somebody joins afterwards; tests write literals", "anchors": ["gop/cache.go: Cache.Write, SendTo", "gop/array.go: write, sendTo", "gop/frame.go: frameCache.Write", "packet/packet.go: Packet, Reader"]}
{"id": "C168", "title": "The same value is always written with the same bytes", "statement": "Encoding a value in AMF0 twice, or writing a SIP message twice, gives the same bytes both times (so that they can be compared, cached, hashed or signed), and in any case the same number of bytes: the result does not depend on the order in which Go happens to visit a map. (For AMF3 see C31.)", "quantifier": "every value of any depth, every message, every pair of map iteration orders", "why_tests_cant": "the iteration order of a map changes from run to run; a test sees one of the orders", "anchors": ["amf/amf0.go: Encode, encodeObject", "sips/sips.go: Bytes", "sips/header.go: Bytes"]}
{"id": "C169", "title": "A transport stream can be cut into segments", "statement": "A program that calls SetWriter of the mixer at any time to begin a new segment loses and changes nothing: the segments one after the other are the stream that one writer would have received (so the continuity counters go on over the borders), the outcomes of all calls are the same, and every segment that begins with SetTsHeader can be played on its own: its tables name the streams, and a receiver that has only this segment gets exactly the frames sent since SetWriter, IDR pictures with their parameter sets.", "quantifier": "every mixer, every sequence of calls with any packets and outcomes, every way to cut it", "why_tests_cant": "all positions of the cuts in all sequences of calls", "anchors": ["container/ts/mixer.go: SetWriter, SetTsHeader, Mux, Update, SaveAVCHeader, SaveAACHeader, SaveMetadata", "container/ts/muxer.go: Mux"]}
{"id": "C170", "title": "A recording can be continued in another FLV file", "statement": "A program that calls SetWriter of the FLV mixer at any time to go on in another file (or for another connection) loses and changes nothing: the parts one after the other are what one writer would have received, and the outcomes of all calls and the packets are the same. Whatever happened to the writers before (a full disk, a closed connection, tags cut in the middle), a file that is begun with SetFlvHeader is complete: an FLV reader gets the flags of the streams, the metadata and sequence headers saved last, and then exactly the tags of the packets muxed since.", "quantifier": "every mixer, every sequence of calls with any outcome, every way to cut it, every behaviour of the earlier writers", "why_tests_cant": "all positions of the cuts and of failures in all sequences of calls", "anchors": ["container/flv/mixer.go: SetWriter, SetFlvHeader, Mux, SaveMetadata, SaveAVCHeader, SaveAACHeader", "container/flv/muxer.go: mux, header, metadata"]}
{"id": "C171", "title": "The tags of an FLV file can be muxed again", "statement": "A program that reads the tags of an FLV file written by the mixer and gives each of them to Mux, with its time, gets the same tags with the same bytes: a recording can be copied, cut or joined without change.", "quantifier": "every list of tags of any length, every mixer state", "why_tests_cant": "all tags in all orders; the case that fails needs unusual script data", "anchors": ["container/flv/mixer.go: Mux", "container/flv/muxer.go: mux", "amf/metadata.go: DelMetaHeader"]}
{"id": "C172", "title": "The clock of a program is right and is sent often enough", "statement": "The program clock references in the stream written by the mixer are the decoding times of the frames in whose packets they are sent, so that the clock of a receiver never runs ahead of what it has to decode or back, and there is one at least every 100 ms, as ISO/IEC 13818-1 wants it.", "quantifier": "every session: any number and interleaving of frames, tables and calls that write nothing", "why_tests_cant": "the whole stream of every session", "anchors": ["container/ts/mixer.go: Mux, Update, SetTsHeader", "container/ts/muxer.go: Mux", "container/ts/table/pes.go: WritePcr"]}
{"id": "C173", "title": "A receiver can tune in to a transport stream at any time", "statement": "A receiver that begins with any packet of a transport stream written by the mixer, such as one that joins a multicast group, gets every video and audio frame that begins after that, in order and with its times, and nothing else, and learns from the tables what the program consists of.", "quantifier": "every session: any number and interleaving of frames, tables and calls that write nothing; every packet at which the receiver begins", "why_tests_cant": "all sessions and all points at which a receiver can begin", "anchors": ["container/ts/mixer.go: Mux, Update, SetTsHeader", "container/ts/muxer.go: Mux"]}
{"id": "C174", "title": "A date that is sent on stays the same date", "statement": "A program that decodes an AMF3 date sent by another producer and encodes it again sends the same instant; a number that is no date (NaN, the invalid date of Flash, or infinity) is reported as an error or sent on as it is, not turned into some date.", "quantifier": "every whole number of milliseconds within 100 million days of 1970 (all dates of ECMAScript) or too large for a time in Go, every NaN and infinity, every decoder state", "why_tests_cant": "all 2^64 number patterns; NaN has 2^53 of them", "anchors": ["amf/amf3.go: decodeDate, encodeDate, Decode, Encode"]}
{"id": "C175", "title": "Changed tables reach the receivers", "statement": "If a stream is announced or the service name is changed after the first SetTsHeader call, receivers that are already tuned in learn of it from the next SetTsHeader call: a receiver takes a table if its version number is not the one it has, so a changed table has another one (ISO/IEC 13818-1).", "quantifier": "every session: any number and interleaving of SetTsHeader and Mux calls, sequence headers and metadata", "why_tests_cant": "sessions of every length; needs a receiver that goes by version numbers", "anchors": ["container/ts/mixer.go: SetTsHeader, SaveAVCHeader, SaveAACHeader, SaveMetadata", "container/ts/muxer.go: PMT, SDT", "container/ts/table/pmt.go", "container/ts/table/sdt.go"]}
