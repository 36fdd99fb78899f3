{
 "claims": [
  {
   "property": "C01",
   "status": "proved",
   "theorems": [
    "Verif.Props.C01_types_report_marks"
   ],
   "note": "Any sequence of calls."
  },
  {
   "property": "C02",
   "status": "proved",
   "theorems": [
    "Verif.Props.C02_replay",
    "Verif.Props.C02_newCache_total"
   ],
   "note": "Any capacity >= 0 and any history; refinement of the ring buffer to the history-level replay."
  },
  {
   "property": "C03",
   "status": "proved",
   "theorems": [
    "Verif.Props.C03_bounded"
   ],
   "note": ""
  },
  {
   "property": "C04",
   "status": "proved",
   "theorems": [
    "Verif.Props.C04_decodable"
   ],
   "note": ""
  },
  {
   "property": "C05",
   "status": "proved",
   "theorems": [
    "Verif.Props.C05_write_outcome",
    "Verif.Props.C05_disabled"
   ],
   "note": "Exact outcome of every write, including the panic for a header of the wrong interface."
  },
  {
   "property": "C06",
   "status": "proved",
   "theorems": [
    "Verif.Props.C06_failing_writer",
    "Verif.Props.C06_complete"
   ],
   "note": ""
  },
  {
   "property": "C07",
   "status": "proved",
   "theorems": [
    "Verif.Props.C07_flv_video_header",
    "Verif.Props.C07_flv_video_other"
   ],
   "note": "All field values; other frame types consume one byte."
  },
  {
   "property": "C08",
   "status": "proved",
   "theorems": [
    "Verif.Props.C08_flv_audio_header"
   ],
   "note": ""
  },
  {
   "property": "C09",
   "status": "proved",
   "theorems": [
    "Verif.Props.C09_flv_demux_total"
   ],
   "note": ""
  },
  {
   "property": "C10",
   "status": "partial",
   "theorems": [
    "Verif.Props.C10_flv_composition_partial",
    "Verif.Props.C10_flv_composition_refuted"
   ],
   "note": "The code violates the property for every negative composition time (2^24 too much); proved for the others."
  },
  {
   "property": "C11",
   "status": "proved",
   "theorems": [
    "Verif.Props.C11_flv_tag",
    "Verif.Props.C11_flv_script_tag",
    "Verif.Props.C11_flv_unknown"
   ],
   "note": "After any history of mixer calls."
  },
  {
   "property": "C12",
   "status": "proved",
   "theorems": [
    "Verif.Props.C12_flv_output",
    "Verif.Props.C12_flv_roundtrip"
   ],
   "note": "Independent reader, forwards and backwards."
  },
  {
   "property": "C13",
   "status": "proved",
   "theorems": [
    "Verif.Props.C13_flv_header"
   ],
   "note": "Any history, writers may fail."
  },
  {
   "property": "C14",
   "status": "partial",
   "theorems": [
    "Verif.Props.C14_strip",
    "Verif.Props.C14_keep",
    "Verif.Props.C14_reject",
    "Verif.Props.C14_again",
    "Verif.Props.C14_panic_refuted",
    "Verif.Props.C14_long_string_refuted",
    "Verif.Props.C14_long_header_refuted"
   ],
   "note": "Proved for the header written as a short string, for every other string and for undecodable data; the code violates the property for the long-string form and panics on references."
  },
  {
   "property": "C15",
   "status": "proved",
   "theorems": [
    "Verif.Props.C15_flv_mux",
    "Verif.Props.C15_flv_header"
   ],
   "note": ""
  },
  {
   "property": "C16",
   "status": "partial",
   "theorems": [
    "Verif.Props.C16_flv_length_partial",
    "Verif.Props.C16_flv_large_refuted"
   ],
   "note": "The code violates the property for every payload of 2^24 bytes or more."
  },
  {
   "property": "C17",
   "status": "proved",
   "theorems": [
    "Verif.Props.C17_amf0_round_trip",
    "Verif.Props.C17_amf0_round_trip_buffer",
    "Verif.Props.C17_amf0_round_trip_numbers"
   ],
   "note": "Any decoder history, any reader without short reads; integers and byte slices come back as numbers."
  },
  {
   "property": "C18",
   "status": "proved",
   "theorems": [
    "Verif.Props.C18_amf0_batch"
   ],
   "note": ""
  },
  {
   "property": "C19",
   "status": "partial",
   "theorems": [
    "Verif.Props.C19_amf0_batch_reader_partial",
    "Verif.Props.C19_amf0_batch_reader_refuted",
    "Verif.Props.C19_amf0_lost_value_refuted"
   ],
   "note": "False as stated: a trailing empty string is silently dropped by bytes.Reader. Proved for every batch whose last value does not end in an empty string, refuted for every other."
  },
  {
   "property": "C20",
   "status": "partial",
   "theorems": [
    "Verif.Props.C20_amf0_count_partial",
    "Verif.Props.C20_amf0_count_refuted"
   ],
   "note": "False for keys or type names over 65535 bytes (count truncated); proved otherwise."
  },
  {
   "property": "C21",
   "status": "proved",
   "theorems": [
    "Verif.Props.C21_amf0_truncated"
   ],
   "note": ""
  },
  {
   "property": "C22",
   "status": "partial",
   "theorems": [
    "Verif.Props.C22_amf0_batch_truncated_partial",
    "Verif.Props.C22_amf0_batch_truncated_refuted",
    "Verif.Props.C22_amf0_silent_cut_refuted"
   ],
   "note": "False as stated, for every batch followed by the first byte of any value longer than that (for example 05 02). Proved: exactly the complete values are returned."
  },
  {
   "property": "C23",
   "status": "partial",
   "theorems": [
    "Verif.Props.C23_terminates",
    "Verif.Props.C23_amf0_total_partial",
    "Verif.Props.C23_amf0_batch_total_partial",
    "Verif.Props.C23_amf0_total_refuted",
    "Verif.Props.C23_amf0_reference_panics_iff",
    "Verif.Props.C23_amf0_panic_cause_partial",
    "Verif.Props.C23_amf0_early_reference_refuted",
    "Verif.Props.C23_amf0_batch_panic_cause_partial",
    "Verif.Props.C23_amf0_batch_early_reference_refuted"
   ],
   "note": "Termination proved for all input. Decode panics only if a reference with the index of the next complex value comes up, at any depth, behind complete values, and it does panic for every such reference (07 00 00)."
  },
  {
   "property": "C24",
   "status": "partial",
   "theorems": [
    "Verif.Props.C24_amf0_dates_partial",
    "Verif.Props.C24_amf0_dates_refuted"
   ],
   "note": "False for every time: exact misreading proved. Decoding of format-conformant dates proved."
  },
  {
   "property": "C25",
   "status": "partial",
   "theorems": [
    "Verif.Props.C25_amf0_references_partial",
    "Verif.Props.C25_amf0_encode_reference_partial",
    "Verif.Props.C25_amf0_references_refuted",
    "Verif.Props.C25_amf0_strict_array_refuted",
    "Verif.Props.C25_amf0_typed_refuted"
   ],
   "note": "Proved for objects and ECMA arrays; false for every strict array and every typed object."
  },
  {
   "property": "C26",
   "status": "proved",
   "theorems": [
    "Verif.Props.C26_amf0_ecma_array",
    "Verif.Props.C26_amf0_xml",
    "Verif.Props.C26_amf0_undefined_unsupported",
    "Verif.Props.C26_amf0_with_amf3"
   ],
   "note": ""
  },
  {
   "property": "C27",
   "status": "proved",
   "theorems": [
    "Verif.Props.C27_amf0_integers"
   ],
   "note": ""
  },
  {
   "property": "C28",
   "status": "proved",
   "theorems": [
    "Verif.Props.C28_add",
    "Verif.Props.C28_del_other",
    "Verif.Props.C28_del_header",
    "Verif.Props.C28_del_add",
    "Verif.Props.C28_add_idempotent",
    "Verif.Props.C28_no_string",
    "Verif.Props.C28_outcome"
   ],
   "note": ""
  },
  {
   "property": "C29",
   "status": "proved",
   "theorems": [
    "Verif.Props.C29_u29_round_trip"
   ],
   "note": ""
  },
  {
   "property": "C30",
   "status": "proved",
   "theorems": [
    "Verif.Props.C30_amf3_round_trip"
   ],
   "note": ""
  },
  {
   "property": "C31",
   "status": "proved",
   "theorems": [
    "Verif.Props.C31_amf3_deterministic"
   ],
   "note": ""
  },
  {
   "property": "C32",
   "status": "partial",
   "theorems": [
    "Verif.Props.C32_amf3_integers_partial",
    "Verif.Props.C32_amf3_negative_refuted"
   ],
   "note": "The code violates the property for every negative integer of the range; proved for the others."
  },
  {
   "property": "C33",
   "status": "partial",
   "theorems": [
    "Verif.Props.C33_amf3_sealed_partial",
    "Verif.Props.C33_amf3_handlers_refuted",
    "Verif.Props.C33_amf3_flags_refuted"
   ],
   "note": "Proved for objects with sealed members only, for all handlers. The code violates the rest: both flags are ignored and handlers are never called."
  },
  {
   "property": "C34",
   "status": "proved",
   "theorems": [
    "Verif.Props.C34_amf3_string_references"
   ],
   "note": ""
  },
  {
   "property": "C35",
   "status": "partial",
   "theorems": [
    "Verif.Props.C35_amf3_references_partial",
    "Verif.Props.C35_amf3_references_refuted",
    "Verif.Props.C35_amf3_object_refuted",
    "Verif.Props.C35_amf3_array_refuted",
    "Verif.Props.C35_amf3_empty_refuted"
   ],
   "note": "Proved for dates, XML documents and byte arrays; the code violates the property for objects and arrays."
  },
  {
   "property": "C36",
   "status": "partial",
   "theorems": [
    "Verif.Props.C36_amf3_truncated_partial",
    "Verif.Props.C36_amf3_truncated_refuted"
   ],
   "note": "The code violates the property whenever at least one byte of the contents is present."
  },
  {
   "property": "C37",
   "status": "proved",
   "theorems": [
    "Verif.Props.C37_amf3_count"
   ],
   "note": ""
  },
  {
   "property": "C38",
   "status": "proved",
   "theorems": [
    "Verif.Props.C38_amf3_total",
    "Verif.Props.C38_amf3_batch_total"
   ],
   "note": ""
  },
  {
   "property": "C39",
   "status": "proved",
   "theorems": [
    "Verif.Props.C39_amf3_dates"
   ],
   "note": ""
  },
  {
   "property": "C40",
   "status": "proved",
   "theorems": [
    "Verif.Props.C40_crc32_mpeg2"
   ],
   "note": "The bit-serial definition is in Spec/Crc.lean."
  },
  {
   "property": "C41",
   "status": "proved",
   "theorems": [
    "Verif.Props.C41_residue",
    "Verif.Props.C41_detects"
   ],
   "note": "Stronger: any change within four consecutive bytes is detected."
  },
  {
   "property": "C42",
   "status": "proved",
   "theorems": [
    "Verif.Props.C42_pat"
   ],
   "note": "Every reachable muxer; independent section reader."
  },
  {
   "property": "C43",
   "status": "proved",
   "theorems": [
    "Verif.Props.C43_pmt"
   ],
   "note": "Every reachable muxer; independent section reader."
  },
  {
   "property": "C44",
   "status": "proved",
   "theorems": [
    "Verif.Props.C44_sdt",
    "Verif.Props.C44_sdt_panic"
   ],
   "note": ""
  },
  {
   "property": "C45",
   "status": "partial",
   "theorems": [
    "Verif.Props.C45_metadata_partial",
    "Verif.Props.C45_long_names_refuted"
   ],
   "note": "Proved for names of at most 158 bytes together; for all longer ones SetTsHeader panics."
  },
  {
   "property": "C46",
   "status": "partial",
   "theorems": [
    "Verif.Props.C46_pcr_pid_partial",
    "Verif.Props.C46_pcr_pid_refuted",
    "Verif.Props.C46_pmt"
   ],
   "note": "Holds if only video is announced; the code violates the property whenever audio is announced."
  },
  {
   "property": "C47",
   "status": "partial",
   "theorems": [
    "Verif.Props.C47_ts_payload_partial",
    "Verif.Props.C47_small_key_frame_refuted"
   ],
   "note": "The code violates the property for every key frame whose PES packet has less than 176 bytes (and panics for 176 to 183, C48); proved for all other packets."
  },
  {
   "property": "C48",
   "status": "partial",
   "theorems": [
    "Verif.Props.C48_no_panic_partial",
    "Verif.Props.C48_key_frame_panics_refuted"
   ],
   "note": "The code violates the property for every key frame whose PES packet has 176 to 183 bytes; proved for all other packets and any writer."
  },
  {
   "property": "C49",
   "status": "proved",
   "theorems": [
    "Verif.Props.C49_continuity"
   ],
   "note": ""
  },
  {
   "property": "C50",
   "status": "proved",
   "theorems": [
    "Verif.Props.C50_pes_stamps",
    "Verif.Props.C50_mux_stamps"
   ],
   "note": "Prefix bits are C90."
  },
  {
   "property": "C51",
   "status": "partial",
   "theorems": [
    "Verif.Props.C51_wrap_partial",
    "Verif.Props.C51_wrap_refuted",
    "Verif.Props.C51_dts_wrap_refuted"
   ],
   "note": "The code violates the property for every time stamp from 2^33 on (one too much); proved below."
  },
  {
   "property": "C52",
   "status": "proved",
   "theorems": [
    "Verif.Props.C52_pes_length"
   ],
   "note": ""
  },
  {
   "property": "C53",
   "status": "proved",
   "theorems": [
    "Verif.Props.C53_pcr"
   ],
   "note": ""
  },
  {
   "property": "C54",
   "status": "proved",
   "theorems": [
    "Verif.Props.C54_sync_window",
    "Verif.Props.C54_sync_step"
   ],
   "note": "The window holds for any sequence of sample rates, the step at a constant rate."
  },
  {
   "property": "C55",
   "status": "proved",
   "theorems": [
    "Verif.Props.C55_no_step_back"
   ],
   "note": ""
  },
  {
   "property": "C56",
   "status": "partial",
   "theorems": [
    "Verif.Props.C56_timestamps_partial",
    "Verif.Props.C56_overflow_refuted"
   ],
   "note": "Proved for time stamps below 47721859 ms; the code violates the property for all others."
  },
  {
   "property": "C57",
   "status": "proved",
   "theorems": [
    "Verif.Props.C57_service",
    "Verif.Props.C57_network_name"
   ],
   "note": ""
  },
  {
   "property": "C58",
   "status": "proved",
   "theorems": [
    "Verif.Props.C58_ts_writer"
   ],
   "note": ""
  },
  {
   "property": "C59",
   "status": "proved",
   "theorems": [
    "Verif.Props.C59_annexb"
   ],
   "note": "Any history of calls; specification in Spec/Parser.lean."
  },
  {
   "property": "C60",
   "status": "proved",
   "theorems": [
    "Verif.Props.C60_accepts_iff",
    "Verif.Props.C60_no_panic"
   ],
   "note": ""
  },
  {
   "property": "C61",
   "status": "proved",
   "theorems": [
    "Verif.Props.C61_passthrough"
   ],
   "note": ""
  },
  {
   "property": "C62",
   "status": "partial",
   "theorems": [
    "Verif.Props.C62_seq_header_partial",
    "Verif.Props.C62_malformed",
    "Verif.Props.C62_extension_refuted"
   ],
   "note": "Proved for records without bytes behind the PPS; the code violates the property for every record with such bytes."
  },
  {
   "property": "C63",
   "status": "partial",
   "theorems": [
    "Verif.Props.C63_replace_partial",
    "Verif.Props.C63_replace_refuted"
   ],
   "note": "The code violates the property for every pair of records: the parameter sets accumulate."
  },
  {
   "property": "C64",
   "status": "proved",
   "theorems": [
    "Verif.Props.C64_adts",
    "Verif.Props.C64_raw_keeps"
   ],
   "note": ""
  },
  {
   "property": "C65",
   "status": "proved",
   "theorems": [
    "Verif.Props.C65_empty",
    "Verif.Props.C65_unknown",
    "Verif.Props.C65_unconfigured",
    "Verif.Props.C65_no_panic"
   ],
   "note": ""
  },
  {
   "property": "C66",
   "status": "partial",
   "theorems": [
    "Verif.Props.C66_sample_rate_partial",
    "Verif.Props.C66_configured",
    "Verif.Props.C66_rejected_refuted"
   ],
   "note": "Proved with \"given\" instead of \"accepted\"; the code violates the property after a rejected AAC frame."
  },
  {
   "property": "C67",
   "status": "partial",
   "theorems": [
    "Verif.Props.C67_mp3_rate_partial",
    "Verif.Props.C67_mp3_rate_refuted"
   ],
   "note": "The code reads bits 2..1 instead of 3..2: wrong for every valid header except 44.1 kHz without padding."
  },
  {
   "property": "C68",
   "status": "proved",
   "theorems": [
    "Verif.Props.C68_no_panic",
    "Verif.Props.C68_routes",
    "Verif.Props.C68_rejects"
   ],
   "note": ""
  },
  {
   "property": "C69",
   "status": "proved",
   "theorems": [
    "Verif.Props.C69_cseq_round_trip",
    "Verif.Props.C69_cseq_text"
   ],
   "note": ""
  },
  {
   "property": "C70",
   "status": "proved",
   "theorems": [
    "Verif.Props.C70_substring",
    "Verif.Props.C70_substring_length"
   ],
   "note": ""
  },
  {
   "property": "C71",
   "status": "proved",
   "theorems": [
    "Verif.Props.C71_methods",
    "Verif.Props.C71_methods_other",
    "Verif.Props.C71_versions",
    "Verif.Props.C71_versions_other"
   ],
   "note": ""
  },
  {
   "property": "C72",
   "status": "proved",
   "theorems": [
    "Verif.Props.C72_request_round_trip"
   ],
   "note": "Any order in which the argument map is visited."
  },
  {
   "property": "C73",
   "status": "proved",
   "theorems": [
    "Verif.Props.C73_via_round_trip"
   ],
   "note": "Hosts without space, colon and semicolon, ports without space and semicolon."
  },
  {
   "property": "C74",
   "status": "proved",
   "theorems": [
    "Verif.Props.C74_user_round_trip"
   ],
   "note": "ASCII display names without colon and semicolon; the display name itself is lost, see C75."
  },
  {
   "property": "C75",
   "status": "partial",
   "theorems": [
    "Verif.Props.C75_display_name_partial",
    "Verif.Props.C75_display_name_refuted"
   ],
   "note": "Proved for addresses without a display name; the code violates the property for every name: the name returned is always empty."
  },
  {
   "property": "C76",
   "status": "proved",
   "theorems": [
    "Verif.Props.C76_args_round_trip"
   ],
   "note": "UTF-8 text; the encoding in the specification is that of Lean's own strings."
  },
  {
   "property": "C77",
   "status": "partial",
   "theorems": [
    "Verif.Props.C77_args_return_partial",
    "Verif.Props.C77_no_values_partial",
    "Verif.Props.C77_args_panic_iff",
    "Verif.Props.C77_constructors_panic_iff",
    "Verif.Props.C77_via_panics_iff",
    "Verif.Props.C77_args_panic_refuted"
   ],
   "note": "The code panics for every argument name followed by = and nothing else; proved for all byte strings in which every = is directly followed by a value, and exactly characterised on every string for ParseArgsPairs, ParseArgs, NewSIPUser, NewSIPRequest and NewSIPAuth, and for NewSIPVia on every value that names a transport."
  },
  {
   "property": "C78",
   "status": "partial",
   "theorems": [
    "Verif.Props.C78_parse_returns_partial",
    "Verif.Props.C78_response_panics_iff",
    "Verif.Props.C78_request_panics_iff",
    "Verif.Props.C78_empty_parameter_refuted",
    "Verif.Props.C78_fold_first_refuted",
    "Verif.Props.C78_fold_panics_refuted"
   ],
   "note": "The code panics on every message whose first header line begins with a space or tab (and on arguments without value, C77); proved for header sections of any bytes in which every = is followed by a value and no continuation line comes first, any body and fragmentation; for well-formed messages the panics are characterised exactly by the first From, To, Contact and Via values and the request URI."
  },
  {
   "property": "C79",
   "status": "partial",
   "theorems": [
    "Verif.Props.C79_lookup_partial",
    "Verif.Props.C79_any_case",
    "Verif.Props.C79_compact_partial",
    "Verif.Props.C79_compact_refuted"
   ],
   "note": "Letter case: proved. Compact forms: the code violates the property for every compact form unless the long form is stored with an empty list."
  },
  {
   "property": "C80",
   "status": "partial",
   "theorems": [
    "Verif.Props.C80_request_partial",
    "Verif.Props.C80_response_partial",
    "Verif.Props.C80_body_refuted"
   ],
   "note": "Everything but the body is recovered, for every order of the header map; the body is refuted (see C81)."
  },
  {
   "property": "C81",
   "status": "partial",
   "theorems": [
    "Verif.Props.C81_payload_partial",
    "Verif.Props.C81_payload_refuted"
   ],
   "note": "The code violates the property for every message; the payload is characterised exactly."
  },
  {
   "property": "C82",
   "status": "proved",
   "theorems": [
    "Verif.Props.C82_fragmentation"
   ],
   "note": "Everything but the payload, see C81."
  },
  {
   "property": "C83",
   "status": "proved",
   "theorems": [
    "Verif.Props.C83_set_get",
    "Verif.Props.C83_copy",
    "Verif.Props.C83_copy_one_value"
   ],
   "note": "ASCII names."
  },
  {
   "property": "C84",
   "status": "partial",
   "theorems": [
    "Verif.Props.C84_content_length_partial",
    "Verif.Props.C84_two_lengths_refuted",
    "Verif.Props.C84_nil_panics_refuted"
   ],
   "note": "Exactly one content-length entry with the right value; an entry under another spelling is written as well."
  },
  {
   "property": "C85",
   "status": "proved",
   "theorems": [
    "Verif.Props.C85_aac_end_to_end"
   ],
   "note": ""
  },
  {
   "property": "C86",
   "status": "partial",
   "theorems": [
    "Verif.Props.C86_avc_end_to_end_partial",
    "Verif.Props.C86_small_key_frame_refuted"
   ],
   "note": "Proved for every frame except key frames whose PES packet has fewer than 184 bytes; refuted for every one of these."
  },
  {
   "property": "C87",
   "status": "partial",
   "theorems": [
    "Verif.Props.C87_mixer_continuity_partial",
    "Verif.Props.C87_pid_continuity_partial",
    "Verif.Props.C87_saved_header_refuted"
   ],
   "note": "Proved for every PID but 0x11 and histories in which no sequence header for that PID is saved after the first packet on it; the code violates the property whenever a sequence header is saved between two video packets."
  },
  {
   "property": "C88",
   "status": "proved",
   "theorems": [
    "Verif.Props.C88_amf3_batch"
   ],
   "note": ""
  },
  {
   "property": "C89",
   "status": "proved",
   "theorems": [
    "Verif.Props.C89_amf3_truncated_rejected"
   ],
   "note": ""
  },
  {
   "property": "C90",
   "status": "partial",
   "theorems": [
    "Verif.Props.C90_stamp_prefix_partial",
    "Verif.Props.C90_stamp_prefix_refuted"
   ],
   "note": "The code violates the property whenever both time stamps are present."
  },
  {
   "property": "C91",
   "status": "partial",
   "theorems": [
    "Verif.Props.C91_country_refuted",
    "Verif.Props.C91_letters_refuted",
    "Verif.Props.C91_flag_partial"
   ],
   "note": "Tag and availability flag are right; length byte and country code are wrong for all arguments."
  },
  {
   "property": "C92",
   "status": "partial",
   "theorems": [
    "Verif.Props.C92_sdt_counter_refuted"
   ],
   "note": "The code violates the property: the counter is always 0."
  },
  {
   "property": "C93",
   "status": "partial",
   "theorems": [
    "Verif.Props.C93_rejects_partial",
    "Verif.Props.C93_long_frame_refuted",
    "Verif.Props.C93_object_type_refuted"
   ],
   "note": "The code violates the property for every such object type and every such frame."
  },
  {
   "property": "C94",
   "status": "partial",
   "theorems": [
    "Verif.Props.C94_length_size_partial",
    "Verif.Props.C94_length_size_refuted",
    "Verif.Props.C94_short_lengths_refuted"
   ],
   "note": "The code ignores the field; right for four-byte lengths only."
  },
  {
   "property": "C95",
   "status": "proved",
   "theorems": [
    "Verif.Props.C95_failing_writer"
   ],
   "note": ""
  },
  {
   "property": "C96",
   "status": "proved",
   "theorems": [
    "Verif.Props.C96_amf3_peer_messages"
   ],
   "note": ""
  },
  {
   "property": "C97",
   "status": "partial",
   "theorems": [
    "Verif.Props.C97_amf3_integer_meaning_partial",
    "Verif.Props.C97_amf3_large_refuted",
    "Verif.Props.C97_amf3_negative_refuted"
   ],
   "note": "Proved below 2^28; the code violates the property for all negative and all larger integers."
  },
  {
   "property": "C98",
   "status": "partial",
   "theorems": [
    "Verif.Props.C98_amf0_peer_messages_partial",
    "Verif.Props.C98_amf0_peer_value_partial",
    "Verif.Props.C98_amf0_bool_refuted"
   ],
   "note": "Proved except for references to strict arrays and behind typed objects (C25), and true sent as another byte than 1, which is decoded as false."
  },
  {
   "property": "C99",
   "status": "partial",
   "theorems": [
    "Verif.Props.C99_del_header_partial",
    "Verif.Props.C99_del_long_header_refuted"
   ],
   "note": "Proved for the short encoding; the code leaves two stray bytes for the long one."
  },
  {
   "property": "C100",
   "status": "partial",
   "theorems": [
    "Verif.Props.C100_digest",
    "Verif.Props.C100_comma_round_trip",
    "Verif.Props.C100_control_refuted"
   ],
   "note": "Reading is proved for every sender; the round trip of CommaString holds for printable values and fails for every value with a control character."
  },
  {
   "property": "C101",
   "status": "proved",
   "theorems": [
    "Verif.Props.C101_peer_request",
    "Verif.Props.C101_peer_response"
   ],
   "note": "For lines that fit the buffer of the reader and addresses without empty arguments (see C77, C106); the payload is the subject of C81."
  },
  {
   "property": "C102",
   "status": "partial",
   "theorems": [
    "Verif.Props.C102_phrases_partial",
    "Verif.Props.C102_unlisted",
    "Verif.Props.C102_phrases_refuted",
    "Verif.Props.C102_status_line_partial",
    "Verif.Props.C102_own_phrase_refuted"
   ],
   "note": "Proved for all codes but 480 and 504; a phrase received is never written again."
  },
  {
   "property": "C103",
   "status": "partial",
   "theorems": [
    "Verif.Props.C103_single_partial",
    "Verif.Props.C103_values_joined_refuted",
    "Verif.Props.C103_empty_list_refuted"
   ],
   "note": "Only single values survive; several come back as one, joined by spaces."
  },
  {
   "property": "C104",
   "status": "proved",
   "theorems": [
    "Verif.Props.C104_to_request",
    "Verif.Props.C104_to_user"
   ],
   "note": "For parts without the separator characters, as C72 and C74."
  },
  {
   "property": "C105",
   "status": "partial",
   "theorems": [
    "Verif.Props.C105_reuse_partial",
    "Verif.Props.C105_reuse_refuted"
   ],
   "note": "Start lines and headers of the second message are right as far as the first message did not have them; refuted for every response followed by a request, where a fresh object is needed (C101)."
  },
  {
   "property": "C106",
   "status": "partial",
   "theorems": [
    "Verif.Props.C106_short_lines_partial",
    "Verif.Props.C106_long_line_refuted"
   ],
   "note": "Messages whose lines fit the reader are accepted; refuted for every line that does not fit."
  },
  {
   "property": "C107",
   "status": "partial",
   "theorems": [
    "Verif.Props.C107_amf0_short_reads_partial",
    "Verif.Props.C107_amf3_short_reads_partial",
    "Verif.Props.C107_amf0_short_reads_refuted",
    "Verif.Props.C107_amf3_short_reads_refuted",
    "Verif.Props.C107_amf3_string_refuted"
   ],
   "note": "Proved: the value is either the right one or there is an error (AMF3: for values without byte arrays). Refuted: strings of two or more bytes fail, AMF3 byte arrays are silently filled with zeros."
  },
  {
   "property": "C108",
   "status": "partial",
   "theorems": [
    "Verif.Props.C108_amf0_writer_partial",
    "Verif.Props.C108_amf3_writer",
    "Verif.Props.C108_amf0_writer_refuted",
    "Verif.Props.C108_not_reported"
   ],
   "note": "Proved for Encode and EncodeBatch of both formats and the other AMF0 calls; refuted for EncodeWithAMF3 and EncodeXmlDocument, which swallow the error of the first Write."
  },
  {
   "property": "C109",
   "status": "partial",
   "theorems": [
    "Verif.Props.C109_stream_partial",
    "Verif.Props.C109_receiver_partial",
    "Verif.Props.C109_small_key_frame_refuted"
   ],
   "note": "Whole sessions with an independent demultiplexer, without key frames of less than 184 bytes of PES packet; refuted for every session in which one is sent. Time stamps wrap at 2^32 (C56)."
  },
  {
   "property": "C110",
   "status": "proved",
   "theorems": [
    "Verif.Props.C110_text_setters",
    "Verif.Props.C110_part_setters",
    "Verif.Props.C110_number_setters",
    "Verif.Props.C110_set_get"
   ],
   "note": "For header maps without empty value lists."
  },
  {
   "property": "C111",
   "status": "partial",
   "theorems": [
    "Verif.Props.C111_without_user_partial",
    "Verif.Props.C111_request_without_user_refuted",
    "Verif.Props.C111_address_without_user_refuted"
   ],
   "note": "Scheme and parameters are right; host and port are refuted for every URI without a user part. With one, see C72 and C74."
  },
  {
   "property": "C112",
   "status": "partial",
   "theorems": [
    "Verif.Props.C112_text_partial",
    "Verif.Props.C112_colon_host_refuted"
   ],
   "note": "Refuted: the host is cut at its first colon; the text that is written again is the same."
  },
  {
   "property": "C113",
   "status": "partial",
   "theorems": [
    "Verif.Props.C113_recognised_partial",
    "Verif.Props.C113_scheme_case_refuted",
    "Verif.Props.C113_transport_refuted",
    "Verif.Props.C113_transport_prefix_refuted"
   ],
   "note": "Proved for lower-case schemes and the four transports in upper case; refuted for every scheme with a capital letter, unknown transports and those that begin with a known one."
  },
  {
   "property": "C114",
   "status": "partial",
   "theorems": [
    "Verif.Props.C114_bodyless_partial",
    "Verif.Props.C114_one_per_read_partial",
    "Verif.Props.C114_together_refuted",
    "Verif.Props.C114_short_body_refuted"
   ],
   "note": "Proved for messages without body however they are cut, and for messages in reads of their own; whatever arrives together with a body is swallowed."
  },
  {
   "property": "C115",
   "status": "partial",
   "theorems": [
    "Verif.Props.C115_payload_partial",
    "Verif.Props.C115_no_payload_refuted"
   ],
   "note": "Holds with a payload; refuted for every message without one."
  },
  {
   "property": "C116",
   "status": "partial",
   "theorems": [
    "Verif.Props.C116_request_partial",
    "Verif.Props.C116_response_partial",
    "Verif.Props.C116_payload_grows_refuted"
   ],
   "note": "Proved but for the body, which grows by two bytes, and the phrase of 480 and 504 (C102)."
  },
  {
   "property": "C117",
   "status": "proved",
   "theorems": [
    "Verif.Props.C117_nothing_lost"
   ],
   "note": ""
  },
  {
   "property": "C118",
   "status": "partial",
   "theorems": [
    "Verif.Props.C118_fields_partial",
    "Verif.Props.C118_no_length_refuted"
   ],
   "note": "Refuted for every message; the header fields can be read all the same and the body is left in the reader. Messages with the header are covered by C101 and C120."
  },
  {
   "property": "C119",
   "status": "partial",
   "theorems": [
    "Verif.Props.C119_spaces_partial",
    "Verif.Props.C119_tab_refuted",
    "Verif.Props.C119_length_refuted"
   ],
   "note": "Proved for spaces; refuted for every value behind a tab."
  },
  {
   "property": "C120",
   "status": "partial",
   "theorems": [
    "Verif.Props.C120_number_partial",
    "Verif.Props.C120_accepted_partial",
    "Verif.Props.C120_negative_refuted"
   ],
   "note": "Accepted exactly the numbers of the range of int; refuted for every negative number."
  },
  {
   "property": "C121",
   "status": "proved",
   "theorems": [
    "Verif.Props.C121_getters"
   ],
   "note": ""
  },
  {
   "property": "C122",
   "status": "proved",
   "theorems": [
    "Verif.Props.C122_set_get_del",
    "Verif.Props.C122_deleted_not_sent"
   ],
   "note": ""
  },
  {
   "property": "C123",
   "status": "partial",
   "theorems": [
    "Verif.Props.C123_crlf_round_trip_partial",
    "Verif.Props.C123_crlf_empty_refuted"
   ],
   "note": "Proved if no argument is empty; with an empty one the parser panics."
  },
  {
   "property": "C124",
   "status": "partial",
   "theorems": [
    "Verif.Props.C124_any_object_partial",
    "Verif.Props.C124_zero_value_refuted"
   ],
   "note": "Proved for every object with an empty header map; refuted for every object without: Parse panics at the first header field."
  },
  {
   "property": "C125",
   "status": "partial",
   "theorems": [
    "Verif.Props.C125_amf0_partial",
    "Verif.Props.C125_amf3_del_add_refuted",
    "Verif.Props.C125_amf3_del_refuted"
   ],
   "note": "Proved for the AMF0 decoder; refuted for the AMF3 decoder, for all payloads."
  },
  {
   "property": "C126",
   "status": "partial",
   "theorems": [
    "Verif.Props.C126_params",
    "Verif.Props.C126_address_partial",
    "Verif.Props.C126_via_partial",
    "Verif.Props.C126_uri_params_refuted",
    "Verif.Props.C126_via_slashes_refuted",
    "Verif.Props.C126_blanks_at_equals_refuted"
   ],
   "note": "Refuted for URI parameters inside the brackets, for spaces around the slashes of a Via value and for blanks around the = of a parameter; proved for everything else."
  },
  {
   "property": "C127",
   "status": "partial",
   "theorems": [
    "Verif.Props.C127_one_address_partial",
    "Verif.Props.C127_two_addresses_refuted",
    "Verif.Props.C127_shared_params_refuted"
   ],
   "note": "Proved for one address; refuted for every pair of addresses."
  },
  {
   "property": "C128",
   "status": "partial",
   "theorems": [
    "Verif.Props.C128_request_partial",
    "Verif.Props.C128_address_partial",
    "Verif.Props.C128_via_cseq",
    "Verif.Props.C128_no_user_refuted"
   ],
   "note": "Proved with a user part; without one an @ is written in front of the host. Display names of printable ASCII characters."
  },
  {
   "property": "C129",
   "status": "partial",
   "theorems": [
    "Verif.Props.C129_video_codecs_partial",
    "Verif.Props.C129_other_codecs_refuted",
    "Verif.Props.C129_sequence_header_refuted",
    "Verif.Props.C129_short_refuted"
   ],
   "note": "Proved for AVC key and inter frames and for other frame types of other codecs; key and inter frames of other codecs lose four bytes, and tags of less than five bytes are refused."
  },
  {
   "property": "C130",
   "status": "partial",
   "theorems": [
    "Verif.Props.C130_end_of_sequence_partial",
    "Verif.Props.C130_end_of_sequence_refuted"
   ],
   "note": "Proved while the cache is not full; in a full cache the oldest group is displaced."
  },
  {
   "property": "C131",
   "status": "proved",
   "theorems": [
    "Verif.Props.C131_relay"
   ],
   "note": ""
  },
  {
   "property": "C132",
   "status": "partial",
   "theorems": [
    "Verif.Props.C132_mp3_partial",
    "Verif.Props.C132_mp3_refuted"
   ],
   "note": "Every accepted MP3 frame gets a PES packet with the right time, but an empty one."
  },
  {
   "property": "C133",
   "status": "partial",
   "theorems": [
    "Verif.Props.C133_video_partial",
    "Verif.Props.C133_demux_again_partial",
    "Verif.Props.C133_aac_refuted",
    "Verif.Props.C133_sequence_header_refuted"
   ],
   "note": "Proved for video frames, and for every packet that is demuxed again; AAC frames get a second ADTS header and sequence headers are refused by the second mixer."
  },
  {
   "property": "C134",
   "status": "partial",
   "theorems": [
    "Verif.Props.C134_in_time_partial",
    "Verif.Props.C134_once_partial",
    "Verif.Props.C134_media_refuted",
    "Verif.Props.C134_stream_refuted"
   ],
   "note": "Proved for all sequences of calls that use a packet only until a mixer it went to muxes another one; later its media is that of the other packet."
  },
  {
   "property": "C135",
   "status": "partial",
   "theorems": [
    "Verif.Props.C135_media_partial",
    "Verif.Props.C135_script_partial",
    "Verif.Props.C135_other_script_partial",
    "Verif.Props.C135_header_lost_refuted",
    "Verif.Props.C135_two_mixers_refuted"
   ],
   "note": "Proved for audio and video with any writer and outcome and for script data that begins with another string; every packet with @setDataFrame is shortened in place."
  },
  {
   "property": "C136",
   "status": "partial",
   "theorems": [
    "Verif.Props.C136_parameters_partial",
    "Verif.Props.C136_configuration_partial",
    "Verif.Props.C136_video_refuted",
    "Verif.Props.C136_audio_refuted"
   ],
   "note": "The configuration is used for the next frame; but for every sequence header Mux also sends a packet: broken PES for video, an empty frame for audio."
  },
  {
   "property": "C137",
   "status": "partial",
   "theorems": [
    "Verif.Props.C137_relay_partial",
    "Verif.Props.C137_small_key_frame_refuted"
   ],
   "note": "Proved for all histories and interleavings; left out are the frames and headers the code does not handle (negative composition times, key frames with short PES packets, times from 47721859 ms, records with more than SPS and PPS, a second record after joining); refuted whenever a key frame with a PES packet of less than 176 bytes is sent."
  },
  {
   "property": "C138",
   "status": "partial",
   "theorems": [
    "Verif.Props.C138_amf3_reuse_partial",
    "Verif.Props.C138_amf0_reuse_partial",
    "Verif.Props.C138_amf3_reuse_refuted",
    "Verif.Props.C138_amf0_reuse_refuted"
   ],
   "note": "Proved for messages without references; the tables are never reset, so after every message with a string (AMF3) or an object (AMF0) references are decoded to values of the former message."
  },
  {
   "property": "C139",
   "status": "proved",
   "theorems": [
    "Verif.Props.C139_amf0_integers",
    "Verif.Props.C139_amf3_integers"
   ],
   "note": ""
  },
  {
   "property": "C140",
   "status": "partial",
   "theorems": [
    "Verif.Props.C140_amf3_dates_partial",
    "Verif.Props.C140_amf3_dates_refuted"
   ],
   "note": "For all dates of ECMAScript (100 million days around 1970): whole seconds are exact and dates from 1970 on are decoded to the second they fall in; the code drops the milliseconds of every other date, towards 1970."
  },
  {
   "property": "C141",
   "status": "partial",
   "theorems": [
    "Verif.Props.C141_wire_partial",
    "Verif.Props.C141_write_partial",
    "Verif.Props.C141_request_partial",
    "Verif.Props.C141_response_partial",
    "Verif.Props.C141_headers_partial",
    "Verif.Props.C141_own_map_partial",
    "Verif.Props.C141_copy_self",
    "Verif.Props.C141_request_changes_refuted"
   ],
   "note": "What is written is right however headers are shared, and only messages with the same map are touched; but MakeResponse keeps the map of the request, so writing the response changes the content length of the request."
  },
  {
   "property": "C142",
   "status": "partial",
   "theorems": [
    "Verif.Props.C142_answer_partial",
    "Verif.Props.C142_first_via_refuted"
   ],
   "note": "The first value of every copied header and all parsed addresses arrive; CopyFrom drops the further values, such as the other Via headers of a request that passed a proxy."
  },
  {
   "property": "C143",
   "status": "partial",
   "theorems": [
    "Verif.Props.C143_amf3_partial",
    "Verif.Props.C143_amf0_refuted"
   ],
   "note": "Proved for NewEnDecAMF3; the map of a decoder made by NewEnDecAMF0 is nil, so every registration panics."
  },
  {
   "property": "C144",
   "status": "partial",
   "theorems": [
    "Verif.Props.C144_tables_partial",
    "Verif.Props.C144_rejected_refuted"
   ],
   "note": "Proved for histories without rejected headers (streams with accepted headers are listed in any case); every rejected header announces its stream all the same."
  },
  {
   "property": "C145",
   "status": "proved",
   "theorems": [
    "Verif.Props.C145_mixer_mux",
    "Verif.Props.C145_mixer_header"
   ],
   "note": ""
  },
  {
   "property": "C146",
   "status": "partial",
   "theorems": [
    "Verif.Props.C146_amf3_partial",
    "Verif.Props.C146_amf0_partial",
    "Verif.Props.C146_amf3_value_partial",
    "Verif.Props.C146_amf0_value_partial",
    "Verif.Props.C146_amf3_refuted",
    "Verif.Props.C146_amf0_refuted"
   ],
   "note": "Proved except for the listed deviations: integers from 2^28 on (C97), truncated or empty XML and byte arrays (C36, C35), references to arrays and objects (C35, C25), flags of classes (C33), dates before 1970 (C140) and booleans other than 0 and 1 (C98)."
  },
  {
   "property": "C147",
   "status": "proved",
   "theorems": [
    "Verif.Props.C147_amf3_any_length",
    "Verif.Props.C147_amf0_any_length",
    "Verif.Props.C147_amf0_unique"
   ],
   "note": ""
  },
  {
   "property": "C148",
   "status": "partial",
   "theorems": [
    "Verif.Props.C148_only_sip_partial",
    "Verif.Props.C148_first_line",
    "Verif.Props.C148_no_colon_refuted",
    "Verif.Props.C148_bare_refuted"
   ],
   "note": "Proved except that lines without a colon are ignored, status codes may be any decimal numbers and the mandatory fields may be missing. About words with non-ASCII bytes nothing is said (upper and lower case of Unicode is a parameter)."
  },
  {
   "property": "C149",
   "status": "partial",
   "theorems": [
    "Verif.Props.C149_amf3_count",
    "Verif.Props.C149_amf0_count",
    "Verif.Props.C149_amf3_length_partial",
    "Verif.Props.C149_amf0_length_partial",
    "Verif.Props.C149_length_refuted"
   ],
   "note": "The number of values is proved for all inputs; the lengths for AMF3 messages of the specification and for all AMF0 inputs without AMF3 values. The code violates the property for byte arrays and XML documents that are cut off: six bytes give up to 2^28 - 1."
  },
  {
   "property": "C150",
   "status": "partial",
   "theorems": [
    "Verif.Props.C150_amf0_partial",
    "Verif.Props.C150_amf0_infinite_refuted",
    "Verif.Props.C150_amf0_self_refuted",
    "Verif.Props.C150_amf3_partial",
    "Verif.Props.C150_amf3_array_refuted"
   ],
   "note": "AMF0: proved for every finite value, and for every other one Encode is proved not to end: an object with a reference to itself is decoded and then kills the process that encodes it. AMF3: proved for values without arrays and without dates more than 285000 years from 1970; decoded arrays are rejected by both encoders."
  },
  {
   "property": "C151",
   "status": "partial",
   "theorems": [
    "Verif.Props.C151_body_partial",
    "Verif.Props.C151_words_partial",
    "Verif.Props.C151_method_partial",
    "Verif.Props.C151_headers_refuted",
    "Verif.Props.C151_request_refuted",
    "Verif.Props.C151_response_refuted"
   ],
   "note": "Text and body are never changed by a rejected message; a text whose first line is not three words, or a request with an unknown method, leaves nothing. Refuted for the rest: method, address, kind and all header fields of a rejected message stay, and the next message shows them as its own."
  },
  {
   "property": "C152",
   "status": "partial",
   "theorems": [
    "Verif.Props.C152_amf3_partial",
    "Verif.Props.C152_amf3_batch_partial",
    "Verif.Props.C152_amf3_integers_refuted",
    "Verif.Props.C152_amf0_partial",
    "Verif.Props.C152_amf0_batch_partial",
    "Verif.Props.C152_amf0_other_encoders",
    "Verif.Props.C152_amf0_dates_refuted",
    "Verif.Props.C152_amf0_empty_name_refuted",
    "Verif.Props.C152_amf0_long_name_refuted"
   ],
   "note": "Proved for AMF3 without integers from 2^28 to 536870910 of the kinds with at most 32 bits (written as another number) and without negative ones (rejected, C32); for AMF0 without dates and with member names of 1 to 65535 bytes. Refuted for the rest. Values that Decode returns with shared maps are treated at C150."
  },
  {
   "property": "C153",
   "status": "partial",
   "theorems": [
    "Verif.Props.C153_exchange_partial",
    "Verif.Props.C153_display_name_refuted"
   ],
   "note": "Everything set through the calls is found by both sides, except the display name of addresses, which the parser drops (C75). Values consist of visible ASCII without separators; parameters come back as the same map, in any order."
  },
  {
   "property": "C154",
   "status": "partial",
   "theorems": [
    "Verif.Props.C154_amf0_to_amf3_partial",
    "Verif.Props.C154_infinite_refuted",
    "Verif.Props.C154_self_refuted",
    "Verif.Props.C154_amf3_to_amf0_partial",
    "Verif.Props.C154_empty_name_refuted",
    "Verif.Props.C154_embedded_array_refuted",
    "Verif.Props.C150_amf3_array_refuted",
    "Verif.Props.C152_amf0_dates_refuted",
    "Verif.Props.C152_amf0_long_name_refuted"
   ],
   "note": "AMF0 to AMF3 holds for every finite value within the sizes of AMF3; for a value that contains itself the encoder does not succeed, and does not end. AMF3 to AMF0 holds for values without arrays and dates whose member names have 1 to 65535 bytes; arrays are rejected, and dates, empty and longer names are written without an error as something else."
  },
  {
   "property": "C155",
   "status": "partial",
   "theorems": [
    "Verif.Props.C155_amf0_accepts",
    "Verif.Props.C155_amf3_accepts_partial",
    "Verif.Props.C155_kind_partial",
    "Verif.Props.C155_amf0_refuted",
    "Verif.Props.C155_amf3_refuted",
    "Verif.Props.C155_amf3_integer_refuted",
    "Verif.Props.C155_amf0_next_refuted"
   ],
   "note": "Which values are accepted is proved exactly for both protocols (AMF3 within the sizes of the format). Nothing is written for a value that is itself of an unsupported kind. Refuted for every array or object with something unsupported inside, and for negative integers of at most 32 bits in AMF3, of which one byte is written; what is sent next is then misread."
  },
  {
   "property": "C156",
   "status": "partial",
   "theorems": [
    "Verif.Props.C156_request_partial",
    "Verif.Props.C156_response_partial",
    "Verif.Props.C156_request_refuted",
    "Verif.Props.C156_response_refuted"
   ],
   "note": "Proved for values without line breaks, with the conditions of C80. The code violates the property: for every message and every header whose value contains CR LF, a name and a value, the receiver finds a further header."
  },
  {
   "property": "C157",
   "status": "partial",
   "theorems": [
    "Verif.Props.C157_apart_partial",
    "Verif.Props.C157_parsed_partial",
    "Verif.Props.C157_parsed_user_partial",
    "Verif.Props.C157_effect_partial",
    "Verif.Props.C157_to_user_refuted",
    "Verif.Props.C157_to_request_refuted"
   ],
   "note": "Proved for objects with maps of their own, which all parsed objects have. The code violates the property: ToUser and ToRequest hand on the argument map itself, so a tag set in the address appears in the request line and vice versa."
  },
  {
   "property": "C158",
   "status": "partial",
   "theorems": [
    "Verif.Props.C158_amf3_bound_partial",
    "Verif.Props.C158_amf0_bound_partial",
    "Verif.Props.C158_amf3_refuted",
    "Verif.Props.C158_amf0_refuted",
    "Verif.Props.C158_h264_refuted"
   ],
   "note": "Proved: after any session of accepted values a decoder keeps at most one table entry per byte received. The code violates the property: nothing empties the tables, so every further message adds as many entries as the first one, and the H.264 parser saves every repetition of the same sequence header and sends all of them before every key frame."
  },
  {
   "property": "C159",
   "status": "proved",
   "theorems": [
    "Verif.Props.C159_received",
    "Verif.Props.C159_written",
    "Verif.Props.C159_neither"
   ],
   "note": "SetHeader is called with a map that exists, on objects that are requests with a URI or responses (a nil map makes Bytes panic: C84)."
  },
  {
   "property": "C160",
   "status": "partial",
   "theorems": [
    "Verif.Props.C160_views",
    "Verif.Props.C160_contents_refuted",
    "Verif.Props.C160_body_refuted",
    "Verif.Props.C160_partial"
   ],
   "note": "The code violates the property: appending to the header bytes overwrites the body. Proved for appending to the body, for writing into either part and for appending more than the array has room for."
  },
  {
   "property": "C161",
   "status": "partial",
   "theorems": [
    "Verif.Props.C161_partial",
    "Verif.Props.C161_pat_refuted",
    "Verif.Props.C161_pmt_refuted",
    "Verif.Props.C161_sdt_refuted"
   ],
   "note": "Proved until the same function is called again; that call overwrites the packet returned before, whatever the state."
  },
  {
   "property": "C162",
   "status": "partial",
   "theorems": [
    "Verif.Props.C162_partial",
    "Verif.Props.C162_header_refuted",
    "Verif.Props.C162_space_refuted"
   ],
   "note": "Proved for addresses without spaces and line breaks (and without the separators of C72 in their parts). The code violates the property for the others: a line break adds a header, a space makes the request unreadable."
  },
  {
   "property": "C163",
   "status": "partial",
   "theorems": [
    "Verif.Props.C163_reuse_partial",
    "Verif.Props.C163_total",
    "Verif.Props.C163_audio_refuted",
    "Verif.Props.C163_length_refuted"
   ],
   "note": "Proved as long as the object has not made a header with both PTS and DTS. The code violates the property for every object that has: later headers still announce a DTS, and the next header with both is said to be 24 bytes long, of which 19 exist."
  },
  {
   "property": "C164",
   "status": "partial",
   "theorems": [
    "Verif.Props.C164_stuff_partial",
    "Verif.Props.C164_stuff_short",
    "Verif.Props.C164_stuff_zero_refuted",
    "Verif.Props.C164_pcr",
    "Verif.Props.C164_pcr_short"
   ],
   "note": "Proved for one stuffing byte and more and for every clock. The code violates the property for no stuffing bytes: it writes 256 bytes or panics."
  },
  {
   "property": "C165",
   "status": "proved",
   "theorems": [
    "Verif.Props.C165_order",
    "Verif.Props.C165_payload"
   ],
   "note": "For header names of ASCII characters and lines that fit the buffer of the reader."
  },
  {
   "property": "C166",
   "status": "partial",
   "theorems": [
    "Verif.Props.C166_given_partial",
    "Verif.Props.C166_kept_partial",
    "Verif.Props.C166_text",
    "Verif.Props.C166_received_partial",
    "Verif.Props.C166_refuted"
   ],
   "note": "The code violates the property: SetBody keeps the slice, so bytes written into it later are sent. Proved for everything else: receiving and writing other messages, appending to the body, writing outside of it."
  },
  {
   "property": "C167",
   "status": "partial",
   "theorems": [
    "Verif.Props.C167_as_written_partial",
    "Verif.Props.C167_one_object_refuted"
   ],
   "note": "Proved if no packet is filled again after it was written. The code violates the property: the cache keeps the pointers, so with one object for all packets a subscriber receives the last packet over and over."
  },
  {
   "property": "C168",
   "status": "partial",
   "theorems": [
    "Verif.Props.C168_amf0_partial",
    "Verif.Props.C168_amf0_refuted",
    "Verif.Props.C168_sip_partial",
    "Verif.Props.C168_sip_refuted"
   ],
   "note": "Proved: the number of bytes and the result are always the same, the bytes if no map has two members. The code violates the property for every AMF0 object with two members and every SIP message with a header besides Content-Length."
  },
  {
   "property": "C169",
   "status": "partial",
   "theorems": [
    "Verif.Props.C169_cut",
    "Verif.Props.C169_segment_partial",
    "Verif.Props.C169_small_key_frame_refuted"
   ],
   "note": "The cut is proved for all mixers and calls; playing a segment on its own is proved without key frames of less than 184 bytes of PES packet and refuted for every segment with one."
  },
  {
   "property": "C170",
   "status": "proved",
   "theorems": [
    "Verif.Props.C170_cut",
    "Verif.Props.C170_file"
   ],
   "note": "The cut for all mixers and calls; the file after any history in which data fits into tags (C16), whatever earlier writers did."
  },
  {
   "property": "C171",
   "status": "partial",
   "theorems": [
    "Verif.Props.C171_copy_partial",
    "Verif.Props.C171_value_refuted",
    "Verif.Props.C171_twice_refuted"
   ],
   "note": "Proved for video, audio and script data that begins with a string other than @setDataFrame; the mixer also writes other script tags, which it rejects or shortens when they are muxed again."
  },
  {
   "property": "C172",
   "status": "partial",
   "theorems": [
    "Verif.Props.C172_clock_partial",
    "Verif.Props.C172_interval_refuted",
    "Verif.Props.C172_no_clock_refuted"
   ],
   "note": "The clock references of every session are proved to be exactly the decoding times of its key frames; so they are too far apart whenever the key frames are, and there are none without key frames."
  },
  {
   "property": "C173",
   "status": "partial",
   "theorems": [
    "Verif.Props.C173_tune_in_partial",
    "Verif.Props.C173_next_tables_partial",
    "Verif.Props.C173_tables_refuted"
   ],
   "note": "Proved for the frames, from every packet on (key frames with short PES packets excluded, see C109), and for the next tables; but the tables are not repeated by Mux, so a receiver that begins after the last ones never learns what the program consists of."
  },
  {
   "property": "C174",
   "status": "partial",
   "theorems": [
    "Verif.Props.C174_dates_partial",
    "Verif.Props.C174_milliseconds_refuted",
    "Verif.Props.C174_invalid_refuted",
    "Verif.Props.C174_remote_refuted"
   ],
   "note": "Proved for whole seconds (all dates of ECMAScript, 100 million days around 1970); the code drops the milliseconds of every other date, and sends a date 292 thousand million years ago for every NaN, infinity and number too large for a time (on amd64, Go leaves the conversion open)."
  },
  {
   "property": "C175",
   "status": "partial",
   "theorems": [
    "Verif.Props.C175_streams_partial",
    "Verif.Props.C175_tables_refuted",
    "Verif.Props.C175_streams_refuted"
   ],
   "note": "The code violates the property in every session: all tables have version 0, so a receiver that goes by it keeps the first streams and names for ever. They are the right ones as long as nothing changes."
  }
 ]
}