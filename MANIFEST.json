{
 "claims": [
  {
   "property": "C01",
   "status": "partial",
   "theorems": [
    "Ouro.C01_readBits_exact",
    "Ouro.C01_readBits_partial",
    "Ouro.C01_readBits_refuted",
    "Ouro.C01_readByteBits",
    "Ouro.C01_readFlag",
    "Ouro.C01_readBits_iff"
   ],
   "note": "Exact law proved for all histories (C01_readBits_exact) and exactly when the claim holds (C01_readBits_iff): unless the read spans five bytes and has a 1 among the bits of the first of them (32-bit accumulator)."
  },
  {
   "property": "C02",
   "status": "proved",
   "theorems": [
    "Ouro.C02_available_initial",
    "Ouro.C02_available_antitone",
    "Ouro.C02_readBits",
    "Ouro.C02_skipBits",
    "Ouro.C02_no_panic"
   ],
   "note": "All histories; the only panic is a zero-bit read of an empty buffer."
  },
  {
   "property": "C03",
   "status": "partial",
   "theorems": [
    "Ouro.C03_unsignedGolomb_exact",
    "Ouro.C03_unsignedGolomb_partial",
    "Ouro.C03_unsignedGolomb_incomplete",
    "Ouro.C03_unsignedGolomb_refuted",
    "Ouro.C03_unsignedGolomb_iff"
   ],
   "note": "Exact law for every 32-bit value and offset, and exactly when the claim holds (C03_unsignedGolomb_iff); always for v+1 < 2^26; refuted for a 26-zero code at offset 4."
  },
  {
   "property": "C04",
   "status": "partial",
   "theorems": [
    "Ouro.C04_signedGolomb_partial",
    "Ouro.C04_signedGolomb_of_unsigned",
    "Ouro.C04_signedGolomb_exact",
    "Ouro.C04_signedGolomb_refuted",
    "Ouro.C04_signedGolomb_iff"
   ],
   "note": "Exact law for every signed value with a 32-bit code number at every offset, and exactly when the claim holds (C04_signedGolomb_iff); always for |v| <= 2^24; refuted in general."
  },
  {
   "property": "C05",
   "status": "proved",
   "theorems": [
    "Ouro.C05_skipBits",
    "Ouro.C05_skipGolomb",
    "Ouro.C05_skipBits_empty_refuted"
   ],
   "note": "Zero-bit reads of an empty buffer excluded (shown to differ)."
  },
  {
   "property": "C06",
   "status": "partial",
   "theorems": [
    "Ouro.C06_skipTrailingBits_exact",
    "Ouro.C06_skipTrailingBits_partial",
    "Ouro.C06_skipTrailingBits_refuted"
   ],
   "note": "Exact law; the stated property holds when at most one byte is left; refuted otherwise ([80 01])."
  },
  {
   "property": "C07",
   "status": "proved",
   "theorems": [
    "Ouro.C07_payloadParam",
    "Ouro.C07_payloadParam_unterminated",
    "Ouro.C07_payloadParam_cases"
   ],
   "note": ""
  },
  {
   "property": "C08",
   "status": "proved",
   "theorems": [
    "Ouro.C08_scalingList",
    "Ouro.C08_scalingList_range",
    "Ouro.C08_scalingList_no_panic"
   ],
   "note": ""
  },
  {
   "property": "C09",
   "status": "proved",
   "theorems": [
    "Ouro.C09_ebspToRaw",
    "Ouro.C09_ebspToRaw_identity",
    "Ouro.C09_ebspToRaw_step"
   ],
   "note": ""
  },
  {
   "property": "C10",
   "status": "partial",
   "theorems": [
    "Ouro.C10_roundtrip_iff",
    "Ouro.C10_roundtrip_partial",
    "Ouro.C10_roundtrip_refuted"
   ],
   "note": "Exact condition for the round trip proved; the stated property holds when the data has no run of three zeros (refuted otherwise)."
  },
  {
   "property": "C11",
   "status": "partial",
   "theorems": [
    "Ouro.C11_emulation_iff",
    "Ouro.C11_no_emulation_partial",
    "Ouro.C11_no_emulation_refuted"
   ],
   "note": "Exact condition proved; holds without a run of three zeros; refuted otherwise."
  },
  {
   "property": "C12",
   "status": "partial",
   "theorems": [
    "Ouro.C12_encapsulate_panics_iff",
    "Ouro.C12_encapsulate_total_partial",
    "Ouro.C12_encapsulate_total_refuted"
   ],
   "note": "Exact panic condition proved; refuted: input ending in 00 00."
  },
  {
   "property": "C13",
   "status": "proved",
   "theorems": [
    "Ouro.C13_split_inverts_framing",
    "Ouro.C13_encode_frame_split",
    "Ouro.C13_zero_padding_refuted"
   ],
   "note": "Exactly the stated property, and the round trip with encapsulation. Outside it: extra zero bytes before a start code become a unit (C13_zero_padding_refuted)."
  },
  {
   "property": "C14",
   "status": "proved",
   "theorems": [
    "Ouro.C14_split_exact",
    "Ouro.C14_split_sane",
    "Ouro.C14_split_no_start_code"
   ],
   "note": ""
  },
  {
   "property": "C15",
   "status": "partial",
   "theorems": [
    "Ouro.C15_reassembly_partial",
    "Ouro.C15_reassembly_header_partial",
    "Ouro.C15_emulation_refuted",
    "Ouro.C15_exact",
    "Ouro.C15_unit_exact",
    "Ouro.C15_unit_iff",
    "Ouro.C15_unit_partial",
    "Ouro.C15_don_refuted"
   ],
   "note": "Exact law for every legal unit and every fragmentation: the pieces, each without its emulation prevention bytes (C15_exact, C15_unit_exact); the claim holds exactly if no piece has one inside (C15_unit_iff). Refuted otherwise, since the result depends on the cuts, and for FU-B with DON 0 before a piece that begins with 1."
  },
  {
   "property": "C16",
   "status": "partial",
   "theorems": [
    "Ouro.C16_stapA_partial",
    "Ouro.C16_stapB_partial",
    "Ouro.C16_emulation_refuted",
    "Ouro.C16_wrong_unit_refuted",
    "Ouro.C16_large_unit_refuted",
    "Ouro.C16_stapA_iff",
    "Ouro.C16_stapB_units_partial",
    "Ouro.C16_stapB_don_refuted",
    "Ouro.C16_stapB_iff"
   ],
   "note": "For legal units up to 65533 bytes, exact for both: a STAP-A is delivered right exactly if no unit has an emulation prevention byte (C16_stapA_iff), a STAP-B exactly if moreover its decoding order number and the size of its first unit do not together look like a start code or an emulation prevention byte, as number 0 does with a first unit of 256 to 511 bytes (C16_stapB_iff)."
  },
  {
   "property": "C17",
   "status": "partial",
   "theorems": [
    "Ouro.C17_mtap16_exact",
    "Ouro.C17_mtap16_content_partial",
    "Ouro.C17_mtap16_single_partial",
    "Ouro.C17_mtap16_don_refuted",
    "Ouro.C17_mtap24_exact",
    "Ouro.C17_mtap24_content_partial",
    "Ouro.C17_mtap24_ts_refuted",
    "Ouro.C17_offset_refuted"
   ],
   "note": "Exact laws for both formats; order numbers are wrong from the second unit on and MTAP24 timestamps are wrong (refuted); DOND 0 with offset 1 is taken for a start code (C17_offset_refuted)."
  },
  {
   "property": "C18",
   "status": "partial",
   "theorems": [
    "Ouro.C18_push_panics_iff",
    "Ouro.C18_no_panic_partial",
    "Ouro.C18_panic_refuted"
   ],
   "note": "Exact panic condition proved; refuted by a three-byte payload."
  },
  {
   "property": "C19",
   "status": "partial",
   "theorems": [
    "Ouro.C19_iff",
    "Ouro.C19_only_last",
    "Ouro.C19_single_partial",
    "Ouro.C19_refuted"
   ],
   "note": "Exact: only the last unit is reported; the stated property holds for one unit only."
  },
  {
   "property": "C20",
   "status": "partial",
   "theorems": [
    "Ouro.C20_exact",
    "Ouro.C20_iff",
    "Ouro.C20_consecutive_partial",
    "Ouro.C20_any_payload_partial",
    "Ouro.C20_split_refuted"
   ],
   "note": "Proved for every payload without a start code (C20_any_payload_partial), and with the contents for payloads without emulation bytes. Refuted for payloads with start codes: units that are not reported take numbers (C20_split_refuted)."
  },
  {
   "property": "C21",
   "status": "proved",
   "theorems": [
    "Ouro.C21_donDiff_rfc",
    "Ouro.C21_donDiff_distance",
    "Ouro.C21_donDiff_antisymm",
    "Ouro.C21_donDiff_succ"
   ],
   "note": ""
  },
  {
   "property": "C22",
   "status": "proved",
   "theorems": [
    "Ouro.C22_accessors",
    "Ouro.C22_header_unique",
    "Ouro.C22_flags"
   ],
   "note": ""
  },
  {
   "property": "C23",
   "status": "partial",
   "theorems": [
    "Ouro.C23_iff",
    "Ouro.C23_unpack",
    "Ouro.C23_payload",
    "Ouro.C23_padding_refuted"
   ],
   "note": "Every field for every packet; the payload of padded packets includes the padding (refuted there)."
  },
  {
   "property": "C24",
   "status": "partial",
   "theorems": [
    "Ouro.C24_accepts_only_packets",
    "Ouro.C24_version",
    "Ouro.C24_panics_iff",
    "Ouro.C24_total_partial",
    "Ouro.C24_truncated_refuted"
   ],
   "note": "Exact panic condition proved: empty or truncated version 2 packets; what is accepted is exactly the wire form of the result."
  },
  {
   "property": "C25",
   "status": "partial",
   "theorems": [
    "Ouro.C25_pack_exact",
    "Ouro.C25_prefix_partial",
    "Ouro.C25_payload_refuted",
    "Ouro.C25_nil"
   ],
   "note": "Exact law proved; only the first eight bytes are written, so the property is refuted for every packet with a payload."
  },
  {
   "property": "C26",
   "status": "proved",
   "theorems": [
    "Ouro.C26_sender_report",
    "Ouro.C26_short",
    "Ouro.C26_other"
   ],
   "note": "Report blocks are never decoded by the code and are not part of the claim."
  },
  {
   "property": "C27",
   "status": "partial",
   "theorems": [
    "Ouro.C27_panics_iff",
    "Ouro.C27_total_partial",
    "Ouro.C27_short_refuted"
   ],
   "note": "Exact: panics iff fewer than four bytes."
  },
  {
   "property": "C28",
   "status": "proved",
   "theorems": [
    "Ouro.C28_sps_latest",
    "Ouro.C28_pps_latest",
    "Ouro.C28_failed_parse"
   ],
   "note": ""
  },
  {
   "property": "C29",
   "status": "partial",
   "theorems": [
    "Ouro.C29_sps_partial",
    "Ouro.C29_prefix_partial",
    "Ouro.C29_frameMbsOnly_refuted",
    "Ouro.C29_poc2_refuted",
    "Ouro.C29_mbaff_refuted",
    "Ouro.C29_paff_iff"
   ],
   "note": "Frame-only supported sets: every element but frame_mbs_only_flag is stored as encoded (C29_sps_partial). All supported sets, interlaced ones too: every element up to the height is (C29_prefix_partial). C29_frameMbsOnly_refuted: the stored flag is always wrong; C29_poc2_refuted: a set with order count type 2 is rejected. Interlaced sets without cropping and VUI parameters: with MBAFF all are refused (C29_mbaff_refuted); without, whether one is accepted depends on the number of alignment zeros alone, and then two flags are stored the wrong way round (C29_paff_iff)."
  },
  {
   "property": "C30",
   "status": "partial",
   "theorems": [
    "Ouro.C30_width_partial",
    "Ouro.C30_height_exact",
    "Ouro.C30_height_iff",
    "Ouro.C30_mbaff_height",
    "Ouro.C30_paff_height",
    "Ouro.C30_height_refuted"
   ],
   "note": "Width proved for frame-only sets; C30_height_iff gives exactly when the height is right (4:2:0 without vertical crop); refuted for 1080p. Interlaced sequences: with MBAFF the height is 0 (C30_mbaff_height), with fields and no MBAFF in 4:2:0 it is at least 10^9 (C30_paff_height)."
  },
  {
   "property": "C31",
   "status": "proved",
   "theorems": [
    "Ouro.C31_total"
   ],
   "note": ""
  },
  {
   "property": "C32",
   "status": "partial",
   "theorems": [
    "Ouro.C32_pps_partial",
    "Ouro.C32_early_partial",
    "Ouro.C32_no_extension_refuted",
    "Ouro.C32_early_refuted",
    "Ouro.C32_types34_refuted",
    "Ouro.C32_iff"
   ],
   "note": "Exactly (C32_iff), with a known sequence parameter set: a conforming set is decoded if and only if it has the transform/scaling extension and no slice groups of type 3 or 4 (except sets of those types whose direction and rate are zero, which are left out). C32_no_extension_refuted: every conforming set without the extension is rejected; C32_types34_refuted: types 3 and 4 are misread. If the sequence parameter set is not yet known: decoded if the scaling lists do not depend on it (C32_early_partial); C32_early_refuted: a 4:2:0 set with an 8x8 scaling matrix is refused."
  },
  {
   "property": "C33",
   "status": "partial",
   "theorems": [
    "Ouro.C33_panics_iff",
    "Ouro.C33_total_partial",
    "Ouro.C33_refuted"
   ],
   "note": "C33_panics_iff gives exactly the buffers that panic; C33_refuted is a three-byte one; C33_total_partial covers the rest."
  },
  {
   "property": "C34",
   "status": "proved",
   "theorems": [
    "Ouro.C34_dispatch"
   ],
   "note": ""
  },
  {
   "property": "C35",
   "status": "proved",
   "theorems": [
    "Ouro.C35_sections"
   ],
   "note": "For every document on which Parse returns (C37 says exactly when it panics): one media per video section, in order, each equal to the result of parsing that section alone."
  },
  {
   "property": "C36",
   "status": "partial",
   "theorems": [
    "Ouro.C36_attributes_partial",
    "Ouro.C36_order_partial",
    "Ouro.C36_control_refuted",
    "Ouro.C36_sprop_clock_refuted",
    "Ouro.C36_single_param_refuted",
    "Ouro.C36_exact",
    "Ouro.C36_clock_iff"
   ],
   "note": "Refuted in general: a number after the first slash of a control URL or a base64 value overwrites the clock rate, and a lone fmtp parameter is ignored. Exact law for all printable attribute lines (C36_exact: payload number, codec and control URL are always right; clock rate is the last number any line gives; parameter sets come from fmtp lines with two or more parameters and from control URLs with semicolons), with the clock rate criterion C36_clock_iff. Holds for well-formed attribute lines in any number and order (Attr.WF) and is order-independent."
  },
  {
   "property": "C37",
   "status": "partial",
   "theorems": [
    "Ouro.C37_panics_iff",
    "Ouro.C37_total_partial",
    "Ouro.C37_refuted"
   ],
   "note": "Exact panic condition: a line that is just m=video. Refuted in general."
  },
  {
   "property": "C38",
   "status": "partial",
   "theorems": [
    "Ouro.C38_iff",
    "Ouro.C38_newest_partial",
    "Ouro.C38_refuted"
   ],
   "note": "Holds for fewer than 2n segments (exact text of the playlist); for 2n or more rendering panics, proved for every history (C38_refuted)."
  },
  {
   "property": "C39",
   "status": "proved",
   "theorems": [
    "Ouro.C39_contiguous"
   ],
   "note": "For every history whose total length fits int64."
  },
  {
   "property": "C40",
   "status": "partial",
   "theorems": [
    "Ouro.C40_panics_iff",
    "Ouro.C40_refuted",
    "Ouro.C40_no_slots",
    "Ouro.C40_framed_partial",
    "Ouro.C40_made_partial"
   ],
   "note": "Exact: rendering panics iff 2n or more segments were added; framing proved for fewer than 2n. With no slots AddSegment panics."
  },
  {
   "property": "C41",
   "status": "partial",
   "theorems": [
    "Ouro.C41_iff",
    "Ouro.C41_parsed_partial",
    "Ouro.C41_order_partial",
    "Ouro.C41_scheme",
    "Ouro.C41_unknown_refuted",
    "Ouro.C41_comma_refuted",
    "Ouro.C41_spacing_refuted"
   ],
   "note": "Exact (C41_iff): a challenge of the whole grammar of RFC 2617, with parameters of any names and values, quoted pairs and white space, is understood exactly if each name is known and no equals sign has white space around it and no value has a comma, a quote or a backslash. C41_parsed_partial covers repeated parameters too; other schemes are refused. Refuted in general: unknown parameters are an error, a comma in a quoted value cuts it, white space around = and a lower-case scheme are refused."
  },
  {
   "property": "C42",
   "status": "proved",
   "theorems": [
    "Ouro.C42_response"
   ],
   "note": "For every hash function and random bytes; excludes only md5-sess without qop, for which RFC 2617 defines no digest."
  },
  {
   "property": "C43",
   "status": "partial",
   "theorems": [
    "Ouro.C43_iff",
    "Ouro.C43_every_request_partial",
    "Ouro.C43_sess_refuted",
    "Ouro.C43_sess_exact",
    "Ouro.C43_sess_iff"
   ],
   "note": "Holds exactly if the algorithm is not md5-sess (C43_iff). C43_sess_exact gives what every request of an md5-sess session carries: the value of RFC 2617 with the session key hashed once more for each request; C43_sess_iff says which of them are right. C43_sess_refuted: the second request is wrong."
  },
  {
   "property": "C44",
   "status": "partial",
   "theorems": [
    "Ouro.C44_refuted",
    "Ouro.C44_next_partial",
    "Ouro.C44_iff"
   ],
   "note": "Refuted: every request of a session carries nc=00000001 (it never calls Next). Exact law C44_iff for every use of the digest: no number is used twice iff Next is called between any two requests."
  },
  {
   "property": "C45",
   "status": "proved",
   "theorems": [
    "Ouro.C45_basic"
   ],
   "note": "Every credentials, method and number of requests."
  },
  {
   "property": "C46",
   "status": "partial",
   "theorems": [
    "Ouro.C46_echo_partial",
    "Ouro.C46_fresh_partial",
    "Ouro.C46_new",
    "Ouro.C46_echo_iff",
    "Ouro.C46_fresh_iff",
    "Ouro.C46_interleaved_refuted",
    "Ouro.C46_unwritten_refuted"
   ],
   "note": "Of the transports that can be written: a server that repeats the client's header leaves exactly those unchanged that are not both interleaved and multicast (C46_echo_iff; always for those the client creates, C46_new), and exactly those come back in a fresh transport that are not interleaved and have defaults in what is not written (C46_fresh_iff). So it is refuted in general: the interleaved flag is never restored; a first port of 0, a time to live without multicast and an empty mode are not written."
  },
  {
   "property": "C47",
   "status": "proved",
   "theorems": [
    "Ouro.C47_pair",
    "Ouro.C47_restored_iff",
    "Ouro.C47_text"
   ],
   "note": "Exact result for every pair of ints; restored iff neither is negative."
  },
  {
   "property": "C48",
   "status": "proved",
   "theorems": [
    "Ouro.C48_disjoint",
    "Ouro.C48_feeds",
    "Ouro.C48_port_limit"
   ],
   "note": "For every description of fewer than 2^60 sections; the port numbers exist only for the first 7768 feeds (C48_port_limit)."
  },
  {
   "property": "C49",
   "status": "proved",
   "theorems": [
    "Ouro.C49_request",
    "Ouro.C49_any_order"
   ],
   "note": "Required: verb and URI are single words, names have no colon, no text has a carriage return (otherwise it is not a request line or header at all)."
  },
  {
   "property": "C50",
   "status": "partial",
   "theorems": [
    "Ouro.C50_iff",
    "Ouro.C50_response_partial",
    "Ouro.C50_long_body_refuted"
   ],
   "note": "Proved for bodies of at most 2048 bytes, in whatever pieces the data arrives; refuted for every longer body (C50_long_body_refuted): ReadBytes peeks into a 2048 byte buffer."
  },
  {
   "property": "C51",
   "status": "proved",
   "theorems": [
    "Ouro.C51_case_insensitive",
    "Ouro.C51_token_iff",
    "Ouro.C51_not_names"
   ],
   "note": "For every history and all header names; strings that are not header names are compared exactly (C51_not_names)."
  },
  {
   "property": "C52",
   "status": "partial",
   "theorems": [
    "Ouro.C52_exact",
    "Ouro.C52_iff",
    "Ouro.C52_refuted",
    "Ouro.C52_demultiplexed_partial"
   ],
   "note": "Exact for sequences of any frames and responses with any number of expired deadlines between messages, in pieces of any size, for any handler-independent log (C52_exact): what comes before the first message with more than 2048 bytes of data is taken, nothing after it; all is taken exactly if there is none (C52_iff). Refuted as stated by a longer frame (C52_refuted). What the session does with each response is C55-C61. Deadlines expiring inside a message: see C54."
  },
  {
   "property": "C53",
   "status": "partial",
   "theorems": [
    "Ouro.C53_delivered_iff",
    "Ouro.C53_refuted"
   ],
   "note": "Exact law: a legal frame is delivered if and only if its payload has at most 2048 bytes; a longer one ends the session (refuted for 2049..65535)."
  },
  {
   "property": "C54",
   "status": "partial",
   "theorems": [
    "Ouro.C54_iff",
    "Ouro.C54_between_partial",
    "Ouro.C54_inside_refuted",
    "Ouro.C54_refuted",
    "Ouro.C54_response_refuted"
   ],
   "note": "Proved for deadlines expiring between messages (C54_between_partial). For frames exact: with any number of deadlines anywhere among their bytes, all frames and nothing else are delivered exactly if the deadlines expire between frames (C54_iff). Refuted for every deadline expiring inside a frame (C54_inside_refuted) or inside a response (C54_response_refuted), wherever it is: what had arrived of the header is lost and the rest is taken for a new message."
  },
  {
   "property": "C55",
   "status": "proved",
   "theorems": [
    "Ouro.C55_numbered",
    "Ouro.C55_fresh"
   ],
   "note": "Every method is one atomic step (overlapping commands: C56). CSeq is unbounded in the model, 64 bits in Go."
  },
  {
   "property": "C56",
   "status": "partial",
   "theorems": [
    "Ouro.C56_exclusive_partial",
    "Ouro.C56_one_by_one_partial",
    "Ouro.C56_refuted",
    "Ouro.C56_same_command",
    "Ouro.C56_same_remove",
    "Ouro.C56_same_start",
    "Ouro.C56_same_run",
    "Ouro.C56_iff"
   ],
   "note": "Interleaving model of command/enqueue/dequeue. C56_iff: for every schedule at the end of which all calls have returned, numbers are different and requests stay matched exactly if no two calls were ever both between reading the counter and writing it, or both between writing it and taking their number. C56_exclusive_partial, C56_one_by_one_partial: simpler conditions, for unfinished schedules too. C56_same_command, C56_same_remove, C56_same_run: with the calls one after another the interleaving model does what the session model does. The full claim is false: C56_refuted gives a schedule where two requests carry the same CSeq and one of them is lost from the queue."
  },
  {
   "property": "C57",
   "status": "partial",
   "theorems": [
    "Ouro.C57_unreadable",
    "Ouro.C57_unknown",
    "Ouro.C57_answered",
    "Ouro.C57_once_partial",
    "Ouro.C57_refuted"
   ],
   "note": "Refuted as stated (C57_refuted): a request sent again after a 401 takes the CSeq of the latest request, so an already answered CSeq becomes pending again. Proved: a response with a CSeq that is not pending is an error that changes nothing, and so is one without a CSeq or with one that is no number (C57_unreadable); an answered request is no longer pending and all others stay; a repeated answer is an error as long as no request was sent again in between."
  },
  {
   "property": "C58",
   "status": "partial",
   "theorems": [
    "Ouro.C58_exact",
    "Ouro.C58_latest_partial",
    "Ouro.C58_overwritten_refuted",
    "Ouro.C58_refuted"
   ],
   "note": "Refuted as stated (C58_refuted, and for every state with a later pending request C58_overwritten_refuted): the retry takes the CSeq of the latest request and overwrites it. Exact law: C58_exact. Proved when the refused request is the latest one."
  },
  {
   "property": "C59",
   "status": "partial",
   "theorems": [
    "Ouro.C59_ready_any",
    "Ouro.C59_again_refuted",
    "Ouro.C59_granted",
    "Ouro.C59_reported",
    "Ouro.C59_ready_partial",
    "Ouro.C59_refuted"
   ],
   "note": "Refuted as stated when the user calls Describe again (C59_refuted; C59_again_refuted: after a first Ready every further refused SETUP reports it again, however many are pending). Proved: Play, Pause and Done exactly with a 200 to a pending request in every history; Ready, for users who leave OPTIONS, DESCRIBE and SETUP to the session, only when no SETUP is pending and as many answers as requests came; in every history at all (C59_ready_any) Ready only right after an answer to a pending SETUP and with at least as many answers as the last description has video sections."
  },
  {
   "property": "C60",
   "status": "partial",
   "theorems": [
    "Ouro.C60_exact",
    "Ouro.C60_refuted",
    "Ouro.C60_per_refusal_partial",
    "Ouro.C60_no_credentials_partial"
   ],
   "note": "Refuted: for every n a server that answers 401 n times makes the client send the request n more times without an error. Exact law (C60_exact): with credentials in the address, in every history requests are sent again exactly as often as the server refuses a pending request with a challenge that can be answered; without credentials never (C60_no_credentials_partial)."
  },
  {
   "property": "C61",
   "status": "partial",
   "theorems": [
    "Ouro.C61_iff",
    "Ouro.C61_ready_partial",
    "Ouro.C61_none_refuted",
    "Ouro.C61_refuted"
   ],
   "note": "Refuted without feeds (Ready is never reported, C61_none_refuted) and when one of several SETUP requests is refused with 401 (C61_refuted). Proved for every number of feeds from one on, every order of answers and packets and commands in between."
  },
  {
   "property": "C62",
   "status": "partial",
   "theorems": [
    "Ouro.C62_refuted",
    "Ouro.C62_one_per_listener_refuted",
    "Ouro.C62_faithful_partial"
   ],
   "note": "Step-by-step model of sinks, goroutines, Stop and the bounded Data channel. Proved: nothing is invented, repeated or moved to another channel. The full claim is false: nothing is delivered before Stop is called (C62_refuted), and never more packets than listeners (C62_one_per_listener_refuted)."
  },
  {
   "property": "C63",
   "status": "partial",
   "theorems": [
    "Ouro.C63_refuted",
    "Ouro.C63_given_post_partial",
    "Ouro.C63_reported_partial",
    "Ouro.C63_silent_loss_refuted"
   ],
   "note": "The claim is false of the code: the POST connection is never set, so every Write panics (C63_refuted). Proved under the assumption that it is set: any sequence of writes sends one POST head and text that decodes to the commands (C63_given_post_partial); even then a failure of the last group is dropped (C63_silent_loss_refuted)."
  },
  {
   "property": "C64",
   "status": "proved",
   "theorems": [
    "Ouro.C64_session"
   ],
   "note": "Stated on the bytes as a server parses them; the URI must be one word and texts must not contain CR."
  },
  {
   "property": "C65",
   "status": "proved",
   "theorems": [
    "Ouro.C65_early",
    "Ouro.C65_course",
    "Ouro.C65_reasons"
   ],
   "note": "For every schedule of reads, timer, stages and packets and every behaviour of the server: the milestones are a prefix of the course of a session, and every request and end has its reason just before it. The reading goroutine may take any number of turns before OPTIONS is sent, as Open starts it first. One turn of a loop is one step; commands running at the same time in both loops are in the model of C56."
  },
  {
   "property": "C66",
   "status": "partial",
   "theorems": [
    "Ouro.C66_packet_partial",
    "Ouro.C66_pipeline_partial",
    "Ouro.C66_fifo",
    "Ouro.C66_padding_refuted",
    "Ouro.C66_emulation_refuted",
    "Ouro.C66_padded_exact",
    "Ouro.C66_padded_iff",
    "Ouro.C66_units_exact",
    "Ouro.C66_units_partial"
   ],
   "note": "Single units, STAP-A, STAP-B, MTAP16 and fragments in packets whose body has no start code, with emulation prevention bytes removed: per packet, and for whole runs under every schedule. For a sender of legal units, each whole or cut anywhere: C66_units_exact, C66_units_partial; for a sender that pads its packets, exact law C66_padded_exact: the padding is reported as part of the unit, so units arrive as sent exactly if no packet is padded (C66_padded_iff). Refuted for padded packets and units with emulation prevention bytes in aggregates; MTAP24 is refuted in C17."
  },
  {
   "property": "C67",
   "status": "partial",
   "theorems": [
    "Ouro.C67_iff",
    "Ouro.C67_fuB_don_refuted",
    "Ouro.C67_fuB_end_don_partial"
   ],
   "note": "Refuted: the number of the FU-B is lost. C67_iff: for every unit in any fragments that begin with an FU-B, it is delivered with that number exactly if the last fragment is an FU-B with the same number, or an FU-A while the counter of the sink is at that number."
  },
  {
   "property": "C68",
   "status": "partial",
   "theorems": [
    "Ouro.C68_iff",
    "Ouro.C68_end_delivers_kept",
    "Ouro.C68_lost_start_refuted"
   ],
   "note": "Refuted; exact rule proved: everything since the last start fragment is delivered. C68_iff: an end fragment always delivers a unit, with nothing of earlier fragments exactly if no data of them is kept."
  },
  {
   "property": "C69",
   "status": "partial",
   "theorems": [
    "Ouro.C69_exact",
    "Ouro.C69_iff",
    "Ouro.C69_server_header_partial",
    "Ouro.C69_refuted",
    "Ouro.C69_lone_port"
   ],
   "note": "Exact law for every header of the grammar with any texts (C69_exact) and exactly when it is understood (C69_iff): the last parameter with two slashes decides over TCP or UDP, so a destination given as an address switches the lower transport (C69_refuted)."
  },
  {
   "property": "C70",
   "status": "partial",
   "theorems": [
    "Ouro.C70_accepts_iff",
    "Ouro.C70_handshake_partial",
    "Ouro.C70_status_refuted",
    "Ouro.C70_version_refuted"
   ],
   "note": "Proved: any well-formed HTTP/1.0 answer, however fragmented, is accepted and reading goes on right after its header; the GET text is read back by an independent reader. False parts: the status is ignored (C70_status_refuted), HTTP/1.1 answers are refused (C70_version_refuted)."
  },
  {
   "property": "C71",
   "status": "partial",
   "theorems": [
    "Ouro.C71_never_closed_refuted",
    "Ouro.C71_blocks_refuted"
   ],
   "note": "The claim is false of the code: Stop closes no listener and ends no goroutine (C71_never_closed_refuted), and blocks forever if called before Start (C71_blocks_refuted). Nothing of it holds beyond Stop returning in the schedule shown beside."
  },
  {
   "property": "C72",
   "status": "partial",
   "theorems": [
    "Ouro.C72_not_granted_partial",
    "Ouro.C72_silent_refuted",
    "Ouro.C72_setup_refuted",
    "Ouro.C72_describe_refuted",
    "Ouro.C72_told_iff"
   ],
   "note": "Proved: the stage stays as it is and nothing is reported as granted for every refused command in every history. C72_told_iff, exact for every refused command but SETUP: the user is told something exactly if a request that follows by itself cannot be written, never of the refusal. Refuted: nobody is told (C72_silent_refuted, for every refused PLAY, PAUSE and TEARDOWN); refused SETUPs still lead to Ready; a refused DESCRIBE without a body is silent."
  },
  {
   "property": "C73",
   "status": "partial",
   "theorems": [
    "Ouro.C73_status_partial",
    "Ouro.C73_header",
    "Ouro.C73_accepted",
    "Ouro.C73_sign_refuted"
   ],
   "note": "Exact for every first line and every number of header lines. Missing: codes with a sign are accepted too (refuted by +20 and -00)."
  },
  {
   "property": "C74",
   "status": "partial",
   "theorems": [
    "Ouro.C74_iff",
    "Ouro.C74_again_partial",
    "Ouro.C74_body_refuted"
   ],
   "note": "Every well-formed response with a reason phrase and a readable body, every map order. With a body a line end is left over (refuted)."
  },
  {
   "property": "C75",
   "status": "partial",
   "theorems": [
    "Ouro.C75_session_partial",
    "Ouro.C75_other_sets",
    "Ouro.C75_pps",
    "Ouro.C75_bare_refuted",
    "Ouro.C75_pps_refuted",
    "Ouro.C75_client_reasons",
    "Ouro.C75_packet_refuted",
    "Ouro.C75_aggregate_refuted",
    "Ouro.C75_session_iff",
    "Ouro.C75_client_iff"
   ],
   "note": "Exact laws: in every reachable session not over HTTP an operation panics iff it is a fatal answer, or a call before the session was opened (C75_session_iff, C112); in every reachable client a step panics iff it reads a fatal answer or takes a deadly packet (C75_client_iff). The full claim is refuted by four witnesses."
  },
  {
   "property": "C76",
   "status": "partial",
   "theorems": [
    "Ouro.C76_prefix_partial",
    "Ouro.C76_all_partial",
    "Ouro.C76_live_partial",
    "Ouro.C76_padded_exact",
    "Ouro.C76_padded_iff",
    "Ouro.C76_refuted",
    "Ouro.C76_units_partial"
   ],
   "note": "For messages of at most 2048 bytes of data, deadlines that expire between messages (C54 refutes the rest), packets without a start code in the body; emulation prevention bytes inside packets are removed (C76_units_partial for a sender of legal units) and padding is reported as part of the unit (C76_padded_exact; C76_padded_iff: exactly then; C76_refuted: a whole run). Safety for every schedule (prefix, and everything once all was read and taken) and progress when the loops take turns."
  },
  {
   "property": "C77",
   "status": "partial",
   "theorems": [
    "Ouro.C77_setups_partial",
    "Ouro.C77_star_refuted"
   ],
   "note": "Proved for every description and protocol: number, order, CSeq and Transport header of the SETUP requests; the URI of each is the right one exactly if the control value is not * (C77_setups_partial). Refuted for *, which is appended to the base (C77_star_refuted)."
  },
  {
   "property": "C78",
   "status": "partial",
   "theorems": [
    "Ouro.C78_exact",
    "Ouro.C78_multicast_partial",
    "Ouro.C78_channels_refuted",
    "Ouro.C78_unicast_refuted",
    "Ouro.C78_run_refuted"
   ],
   "note": "Exact law over all UDP sessions that are granted: ports and channels of the listeners (C78_exact). Ports are right for multicast (C78_multicast_partial); refuted: channels are shifted by two in every session, and unicast listeners are on port 0 (C78_unicast_refuted, C78_run_refuted)."
  },
  {
   "property": "C79",
   "status": "partial",
   "theorems": [
    "Ouro.C79_before",
    "Ouro.C79_basic",
    "Ouro.C79_digest_partial",
    "Ouro.C79_digest_exact",
    "Ouro.C79_setup_never",
    "Ouro.C79_uri",
    "Ouro.C79_setup_refuted"
   ],
   "note": "Every history after one Open, every challenge of the grammar of C41: no credentials before, Basic for all requests, Digest for all requests but SETUP; exact law for every method; never right for a SETUP whose URI differs from the opened address; md5-sess for the request sent again only."
  },
  {
   "property": "C80",
   "status": "partial",
   "theorems": [
    "Ouro.C80_exact",
    "Ouro.C80_session",
    "Ouro.C80_empty_refuted"
   ],
   "note": "Exact law for every reachable state and the identifier as a server reads it; refuted corner: an empty Session header if no identifier was assigned (C80_empty_refuted)."
  },
  {
   "property": "C81",
   "status": "proved",
   "theorems": [
    "Ouro.C81_units_keep",
    "Ouro.C81_sink_keeps",
    "Ouro.C81_push"
   ],
   "note": "Over all histories of allocations, overwritten buffers, deliveries and pushes, for every growth policy of append."
  },
  {
   "property": "C82",
   "status": "proved",
   "theorems": [
    "Ouro.C82_payloads_keep"
   ],
   "note": "Over the same histories."
  },
  {
   "property": "C83",
   "status": "partial",
   "theorems": [
    "Ouro.C83_list_exact",
    "Ouro.C83_list_iff",
    "Ouro.C83_list_many",
    "Ouro.C83_list_overwritten",
    "Ouro.C83_list_refuted",
    "Ouro.C83_append_refuted"
   ],
   "note": "Refuted: a list kept from the sink shows the unit of the next push; appending to a unit of an aggregate overwrites the next one. C83_list_exact says what a kept list shows after any payload of one NAL unit (single, aggregate or fragment), C83_list_iff when it is unchanged, and C83_list_many the same for every payload, of any number of NAL units."
  },
  {
   "property": "C84",
   "status": "partial",
   "theorems": [
    "Ouro.C84_finishes_partial",
    "Ouro.C84_audio_refuted",
    "Ouro.C84_pps_refuted",
    "Ouro.C84_setup_refuted"
   ],
   "note": "Proved for every fair schedule and every server that grants everything, asks for credentials whenever a request has none, and for any finite number of the first requests even if they have some; for SETUP only if there is one stream; bodies up to 2048 bytes. Refuted for descriptions without video, for picture parameter sets without extension, and for credentials asked for the SETUPs of two streams."
  },
  {
   "property": "C85",
   "status": "partial",
   "theorems": [
    "Ouro.C85_accepted_iff",
    "Ouro.C85_refused_partial",
    "Ouro.C85_accepts_bad_refuted",
    "Ouro.C85_destination_refuted"
   ],
   "note": "accepted exactly if every field has the value its name needs, for every text; the grammar itself is not enforced: headers that do not name RTP, ranges of three parts and negative numbers are accepted, and destination without an address, which the grammar allows, is refused (refuted)"
  },
  {
   "property": "C86",
   "status": "proved",
   "theorems": [
    "Ouro.C86_array",
    "Ouro.C86_client",
    "Ouro.C86_receive",
    "Ouro.C86_handshake",
    "Ouro.C86_refines",
    "Ouro.C86_receive_refines"
   ],
   "note": "Chunk-level bufio.Reader (2048 byte buffer, pieces of any size) shown equivalent to the byte-level reader that the other theorems use, through receive, the HTTP handshake and whole runs of the client."
  },
  {
   "property": "C87",
   "status": "proved",
   "theorems": [
    "Ouro.C87_spaced",
    "Ouro.C87_exact",
    "Ouro.C87_recent",
    "Ouro.C87_tcp"
   ],
   "note": "Exact law for each turn (C87_exact), spacing over every history (C87_spaced), at most two seconds old after a turn (C87_recent)."
  },
  {
   "property": "C88",
   "status": "partial",
   "theorems": [
    "Ouro.C88_reading_partial",
    "Ouro.C88_done_refuted",
    "Ouro.C88_keepAlive_refuted"
   ],
   "note": "Holds for reading errors (exact law). Fails when the session is done and when a keep-alive cannot be sent (the test in process can never be true): refuted."
  },
  {
   "property": "C89",
   "status": "partial",
   "theorems": [
    "Ouro.C89_nothing_partial",
    "Ouro.C89_options_refuted",
    "Ouro.C89_describe_refuted",
    "Ouro.C89_iff"
   ],
   "note": "Holds for PLAY, PAUSE, TEARDOWN and SETUP (nothing is sent). C89_iff: exactly which answers are followed by requests; their status is no part of it, so the claim is refuted for OPTIONS and DESCRIBE."
  },
  {
   "property": "C90",
   "status": "partial",
   "theorems": [
    "Ouro.C90_address_partial",
    "Ouro.C90_empty_port_refuted",
    "Ouro.C90_fragment_refuted",
    "Ouro.C90_no_host_refuted",
    "Ouro.C90_exact",
    "Ouro.C90_port_iff",
    "Ouro.C90_fragment_iff",
    "Ouro.C90_no_host"
   ],
   "note": "Holds for the whole grammar of addresses with an authority (C90_address_partial). C90_exact says what happens for every address of the grammar, also with an empty port or a fragment; it is what is meant if and only if the port is not empty (C90_port_iff) and there is no fragment or an empty one (C90_fragment_iff); every address without // connects to port 554 of the own machine (C90_no_host). Single addresses: C90_empty_port_refuted, C90_fragment_refuted, C90_no_host_refuted. Resolving and connecting are not modelled; net/url and net.SplitHostPort are modelled after the sources of Go 1.20."
  },
  {
   "property": "C91",
   "status": "proved",
   "theorems": [
    "Ouro.C91_without_credentials",
    "Ouro.C91_same_requests"
   ],
   "note": "Non-interference, for every text before the last @ and every text after it."
  },
  {
   "property": "C92",
   "status": "partial",
   "theorems": [
    "Ouro.C92_no_control",
    "Ouro.C92_read_partial",
    "Ouro.C92_space_iff",
    "Ouro.C92_space_refuted"
   ],
   "note": "No control bytes for every accepted text (C92_no_control), so a URI without a space is one word (C92_read_partial). A space in the query is copied (C92_space_refuted); for addresses with an authority that is the only way to get one (C92_space_iff)."
  },
  {
   "property": "C93",
   "status": "partial",
   "theorems": [
    "Ouro.C93_media_partial",
    "Ouro.C93_plain_partial",
    "Ouro.C93_escape_refuted",
    "Ouro.C93_no_scheme_refuted",
    "Ouro.C93_no_control",
    "Ouro.C93_any"
   ],
   "note": "C93_any: for every address of the grammar, with credentials or none and with any path, and every file name: same scheme, host, port, query and credentials, and a path that stands for the directory the address leads to (empty components and . lead nowhere, .. to the directory above) followed by the name. C93_no_control: it is one line for every input. What is false: escapes that matter in the path are lost (C93_escape_refuted), and without a scheme the file is not named (C93_no_scheme_refuted)."
  },
  {
   "property": "C94",
   "status": "partial",
   "theorems": [
    "Ouro.C94_return_iff",
    "Ouro.C94_read_partial",
    "Ouro.C94_return_refuted",
    "Ouro.C94_quote_iff",
    "Ouro.C94_quote_refuted"
   ],
   "note": "Exact laws: the header has a line break iff the user name has one (C94_return_iff), the user name is read back iff it has no quote (C94_quote_iff). Both can be given as escapes in the address (C94_return_refuted, C94_quote_refuted)."
  },
  {
   "property": "C95",
   "status": "partial",
   "theorems": [
    "Ouro.C95_relative_iff",
    "Ouro.C95_slash_partial",
    "Ouro.C95_query_refuted",
    "Ouro.C95_no_base_iff",
    "Ouro.C95_other_refuted",
    "Ouro.C95_moved_refuted"
   ],
   "note": "Exact law for relative paths, with all bases and histories; the code appends to the opened address and never looks at Content-Base or Content-Location, so it is right only if the folder of the base is that address and a slash. Refuted for every address with a query, for absolute paths, other schemes, moved descriptions."
  },
  {
   "property": "C96",
   "status": "proved",
   "theorems": [
    "Ouro.C96_before_challenge",
    "Ouro.C96_digest_only"
   ],
   "note": "Non-interference over all histories; the hash function is a parameter."
  },
  {
   "property": "C97",
   "status": "partial",
   "theorems": [
    "Ouro.C97_iff",
    "Ouro.C97_last_partial",
    "Ouro.C97_basic_refuted",
    "Ouro.C97_one_line_refuted"
   ],
   "note": "C97_iff: of any challenges in lines of their own the last one is answered, so Digest is used exactly if the last is a Digest one. Refuted when Basic is last and when both challenges are in one line."
  },
  {
   "property": "C98",
   "status": "partial",
   "theorems": [
    "Ouro.C98_accepted_partial",
    "Ouro.C98_refuted",
    "Ouro.C98_gigabytes_refuted",
    "Ouro.C98_bound_partial",
    "Ouro.C98_bound_attained"
   ],
   "note": "Holds for accepted data (at most eight times its size); refuted for refused data: ten bytes ask for more than two gigabytes. C98_bound_partial: for all data, accepted or not, less than 2^32 and less than 2^(4n-6) bytes for n bytes of data; C98_bound_attained: two to eight bytes reach that bound."
  },
  {
   "property": "C99",
   "status": "partial",
   "theorems": [
    "Ouro.C99_sps_partial",
    "Ouro.C99_pps_partial",
    "Ouro.C99_refuted"
   ],
   "note": "Proved for every set whose syntax elements end before the first emulation prevention byte (later ones, in the VUI, do no harm). Refuted in general: ParseSprop does not remove emulation prevention bytes, so a valid SPS is refused."
  },
  {
   "property": "C100",
   "status": "partial",
   "theorems": [
    "Ouro.C100_complete",
    "Ouro.C100_sound_partial",
    "Ouro.C100_iff",
    "Ouro.C100_gap_refuted",
    "Ouro.C100_splice_refuted"
   ],
   "note": "The first half is proved in full (C100_complete): whatever is lost, the complete units are reported. The second half holds when each incomplete unit lost its last packet (C100_sound_partial), and only then (C100_iff). Refuted otherwise, for every unit in fragments: sequence numbers are not looked at, so a unit with a hole is reported (C100_gap_refuted), and the end of one unit is joined to the start of another (C100_splice_refuted)."
  },
  {
   "property": "C101",
   "status": "partial",
   "theorems": [
    "Ouro.C101_deadlock_iff",
    "Ouro.C101_never",
    "Ouro.C101_ends_iff",
    "Ouro.C101_early_refuted",
    "Ouro.C101_lost_refuted"
   ],
   "note": "The code violates the claim: when reading fails, process returns and handleStates is not told (C101_lost_refuted for a server that closes without an answer, C101_early_refuted for any loss before the session is done, while writes still seem to succeed). Exact laws: C101_ends_iff says when a client left alone can end, C101_deadlock_iff when it can do nothing more. In Go the runtime may notice that all goroutines are asleep and abort the program; that is outside the model."
  },
  {
   "property": "C102",
   "status": "partial",
   "theorems": [
    "Ouro.C102_read_partial",
    "Ouro.C102_target_refuted",
    "Ouro.C102_comma_refuted",
    "Ouro.C102_ended_refuted",
    "Ouro.C102_sequence_refuted"
   ],
   "note": "A lenient player reads back exactly the newest segments after fewer than 2n of them (C102_read_partial; later ones panic, C38). The code violates the rest: no target duration (C102_target_refuted), no comma after durations (C102_comma_refuted), segment numbers that change because there is no media sequence (C102_sequence_refuted), and the end announced in every playlist (C102_ended_refuted), each for all histories that can be rendered."
  },
  {
   "property": "C103",
   "status": "partial",
   "theorems": [
    "Ouro.C103_permuted_partial",
    "Ouro.C103_order_refuted",
    "Ouro.C103_twice_refuted",
    "Ouro.C103_fragments_iff"
   ],
   "note": "Proved: units sent whole arriving in any order among each other and among fragments are reported once each and complete. The code ignores sequence numbers: refuted for the order of every two units, for every unit that arrives twice; exact law for fragments in any order or number."
  },
  {
   "property": "C104",
   "status": "partial",
   "theorems": [
    "Ouro.C104_apart_partial",
    "Ouro.C104_mixed_refuted",
    "Ouro.C104_turns_partial"
   ],
   "note": "Proved for any number of streams, all of which may send fragments, if between the first and the last fragment of a unit there are no fragments of other streams (C104_turns_partial; units in one packet may come there), and for two streams of which one sends no fragments (C104_apart_partial). All streams share one reassembly buffer: refuted for every two fragmented units of two streams that overlap."
  },
  {
   "property": "C105",
   "status": "partial",
   "theorems": [
    "Ouro.C105_first_partial",
    "Ouro.C105_first_exact",
    "Ouro.C105_rest_refuted",
    "Ouro.C105_accepted_iff",
    "Ouro.C105_length_refuted",
    "Ouro.C105_client"
   ],
   "note": "Proved: the first packet is understood whatever follows, and the client goes on. Refuted: later packets are ignored (the result is that of the first packet alone, for every continuation) and the length field is not checked (exact law of acceptance)."
  },
  {
   "property": "C106",
   "status": "partial",
   "theorems": [
    "Ouro.C106_read_partial",
    "Ouro.C106_address_partial",
    "Ouro.C106_smuggled_refuted",
    "Ouro.C106_control_refuted"
   ],
   "note": "The name of the user is put into the Authorization header as it is, so an escaped empty line in it adds a whole request (C106_smuggled_refuted); a description can make an URI with a blank (C106_control_refuted). Without those texts it holds for every history (C106_read_partial, C106_address_partial)."
  },
  {
   "property": "C107",
   "status": "partial",
   "theorems": [
    "Ouro.C107_blind_exact",
    "Ouro.C107_foreign_refuted",
    "Ouro.C107_audio_refuted"
   ],
   "note": "The code does not look at payload types, sources or sequence numbers: C107_blind_exact says that what is reported is a function of the timestamps and contents alone, C107_foreign_refuted that every foreign packet with a unit in it becomes video, C107_audio_refuted shows a run."
  },
  {
   "property": "C108",
   "status": "partial",
   "theorems": [
    "Ouro.C108_waiting_partial",
    "Ouro.C108_kept_exact",
    "Ouro.C108_fragments_refuted",
    "Ouro.C108_pending_refuted"
   ],
   "note": "Packets and stages that wait are bounded (C108_waiting_partial: 21 and 1, for every server and schedule). Fragments and requests are not: C108_kept_exact says exactly what is kept of fragments, C108_fragments_refuted has a run for every size, C108_pending_refuted says that every unanswered keep-alive message is kept."
  },
  {
   "property": "C109",
   "status": "partial",
   "theorems": [
    "Ouro.C109_accepted_iff",
    "Ouro.C109_set_iff",
    "Ouro.C109_failed_refuted"
   ],
   "note": "When a call succeeds and when the feed says so is exact (C109_accepted_iff, C109_set_iff). That a failed call changes nothing is false: C109_failed_refuted."
  },
  {
   "property": "C110",
   "status": "partial",
   "theorems": [
    "Ouro.C110_first_iff",
    "Ouro.C110_password_refuted",
    "Ouro.C110_followed_iff",
    "Ouro.C110_session_refuted"
   ],
   "note": "False of the code in general: Open keeps the state of the session. C110_first_iff (the first request is that of a new session exactly if no challenge was answered before) and C110_followed_iff (it is followed by DESCRIBE exactly if no stage was reported before) are exact, for every reachable session; C110_password_refuted and C110_session_refuted show what reaches the next server, for every history of that kind."
  },
  {
   "property": "C111",
   "status": "partial",
   "theorems": [
    "Ouro.C111_usable_iff",
    "Ouro.C111_request_refuted",
    "Ouro.C111_response_refuted"
   ],
   "note": "C111_usable_iff says exactly which responses are handled without an error if writing and listening work. The property fails: after the first line of a request of the server nothing more is read, whatever follows and whatever the client does (C111_request_refuted); the same holds after every response that cannot be used (C111_response_refuted)."
  },
  {
   "property": "C112",
   "status": "partial",
   "theorems": [
    "Ouro.C112_before_refuted",
    "Ouro.C112_iff",
    "Ouro.C112_after_partial",
    "Ouro.C112_never_reported"
   ],
   "note": "The property fails before Open: the calls read BaseURI or Proto through the nil *Conn before the check for it, so they panic (C112_before_refuted); calls on a session never opened panic exactly if one is not Setup (C112_iff), and the error meant for it is never returned in any history (C112_never_reported). After Open has connected no call panics, HTTP apart, see C63 (C112_after_partial)."
  },
  {
   "property": "C113",
   "status": "partial",
   "theorems": [
    "Ouro.C113_units_partial",
    "Ouro.C113_goes_on_partial",
    "Ouro.C113_odd_exact",
    "Ouro.C113_granted_iff",
    "Ouro.C113_shifted_refuted",
    "Ouro.C113_report_refuted"
   ],
   "note": "Holds for an even data and an odd control channel (C113_units_partial, C113_goes_on_partial). The client goes by the parity of the channel and not by the pair granted: for the channels a and a+1 it holds if and only if a is even (C113_granted_iff); RTP on an odd channel is taken for RTCP and nothing of it is reported (C113_odd_exact, C113_shifted_refuted); RTCP on an even channel is reported as video (C113_report_refuted)."
  },
  {
   "property": "C114",
   "status": "proved",
   "theorems": [
    "Ouro.C114_determined",
    "Ouro.C114_prefix",
    "Ouro.C114_only_packets"
   ],
   "note": "Full property, over all pairs of runs (C114_determined), with monotonicity (C114_prefix) and C114_only_packets: a step that reports takes a video packet."
  },
  {
   "property": "C115",
   "status": "proved",
   "theorems": [
    "Ouro.C115_step",
    "Ouro.C115_run",
    "Ouro.C115_dialogue",
    "Ouro.C115_panics"
   ],
   "note": "Full property: one step (C115_step), whole runs with any calls (C115_run), the dialogue seen from outside (C115_dialogue), and panics (C115_panics)."
  },
  {
   "property": "C116",
   "status": "proved",
   "theorems": [
    "Ouro.C116_plays",
    "Ouro.C116_pauses",
    "Ouro.C116_finishes",
    "Ouro.C116_pause_due",
    "Ouro.C116_teardown_due",
    "Ouro.C116_finish_due"
   ],
   "note": "Times in milliseconds are attached to the steps of the client model (Model/Clock); the timer may fire late, never early, as Go's does. C116_plays, C116_pauses, C116_finishes: not before five seconds; C116_pause_due, C116_teardown_due, C116_finish_due: nothing else is needed after five seconds."
  },
  {
   "property": "C117",
   "status": "proved",
   "theorems": [
    "Ouro.C117_received"
   ],
   "note": "Full property, for all bytes on all channels (C117_received): the data of a unit is a sublist of the concatenated video packets."
  },
  {
   "property": "C118",
   "status": "partial",
   "theorems": [
    "Ouro.C118_each",
    "Ouro.C118_total_partial",
    "Ouro.C118_refuted",
    "Ouro.C118_count",
    "Ouro.C118_square_partial"
   ],
   "note": "C118_each: each unit alone is no larger than what was received, for all packets. C118_count: no more units than bytes received, for all packets. C118_square_partial: all together at most the square of what was received, for all packets. C118_total_partial: all together at most what was received, for legal packets when each unit in fragments that ends has a start of its own. C118_refuted: otherwise not; AddFragment keeps the fragments when a unit has ended, so n packets of one byte of data give n(n+1)/2 bytes."
  },
  {
   "property": "C119",
   "status": "partial",
   "theorems": [
    "Ouro.C119_same",
    "Ouro.C119_sps",
    "Ouro.C119_pps_partial",
    "Ouro.C119_sprop_partial",
    "Ouro.C119_refuted"
   ],
   "note": "At most 24 steps per byte and 482 more, for ParseSPS always and for ParsePPS where Go's conversion of minus infinity to uint, which it leaves to the machine, is not zero (amd64); where it is zero (arm64) C119_refuted has the counterexample. The counted functions are shown to return what the model returns (C119_same)."
  },
  {
   "property": "C120",
   "status": "proved",
   "theorems": [
    "Ouro.C120_requests",
    "Ouro.C120_response"
   ],
   "note": "For the command line client, from Open on, and for each response in any session. The ten bytes are the shortest video section of a description, with its line end; the example shows that the bound cannot be raised to eleven."
  },
  {
   "property": "C121",
   "status": "proved",
   "theorems": [
    "Ouro.C121_methods",
    "Ouro.C121_requests",
    "Ouro.C121_no_credentials"
   ],
   "note": "C121_methods: first requests by method; C121_requests: at most 209 and one per 401; C121_no_credentials: at most 209. An example shows that 204 SETUP requests do occur. Repetitions are not bounded, see C60_refuted. The reading goroutine may be ahead of OPTIONS."
  },
  {
   "property": "C122",
   "status": "partial",
   "theorems": [
    "Ouro.C122_nothing_partial",
    "Ouro.C122_crossing_refuted",
    "Ouro.C122_refuted",
    "Ouro.C122_client",
    "Ouro.C122_iff"
   ],
   "note": "Exact law (C122_iff) for every session that reported Done with no SETUP unanswered: it stays silent until the user calls again exactly if every unanswered request is an OPTIONS and, unless none is, the address has no credentials. Proved for the command line client with any server and schedule (C122_client). Refuted otherwise: a PLAY or PAUSE that is granted after the TEARDOWN is reported (C122_crossing_refuted, every such session), and keep-alive messages start again (C122_refuted)."
  },
  {
   "property": "C123",
   "status": "partial",
   "theorems": [
    "Ouro.C123_before",
    "Ouro.C123_digest_partial",
    "Ouro.C123_basic",
    "Ouro.C123_basic_refuted",
    "Ouro.C123_refused",
    "Ouro.C123_refused_refuted"
   ],
   "note": "Holds before a challenge and for Digest challenges. With Basic the credentials are printed (C123_basic, C123_basic_refuted); an address that is refused is printed in full (C123_refused, C123_refused_refuted)."
  },
  {
   "property": "C124",
   "status": "partial",
   "theorems": [
    "Ouro.C124_exact",
    "Ouro.C124_partial",
    "Ouro.C124_body_refuted",
    "Ouro.C124_name_refuted"
   ],
   "note": "C124_exact is the law for every run: the lines about units in the output are one for each unit, in order, and those that the body of a response has; required is that there is no line feed in the user name. C124_partial: with bodies without such lines, exactly the units. C124_body_refuted: a description can forge a line. C124_name_refuted: so can a user name with line feeds. Texts of errors are assumed to be lines that do not begin with NAL."
  },
  {
   "property": "C125",
   "status": "partial",
   "theorems": [
    "Ouro.C125_started",
    "Ouro.C125_error",
    "Ouro.C125_exact",
    "Ouro.C125_silent_refuted",
    "Ouro.C125_ready_refuted"
   ],
   "note": "C125_started: every listener reading is started with was opened. C125_exact: what happens, exactly, when a port of a granted stream cannot be listened on: nothing is reported, and the goroutine that reads goes on exactly if the failure was temporary. C125_error: the error is told in no other case. C125_ready_refuted: after a temporary failure Ready is reported without listeners for the stream, or with one. C125_silent_refuted: once reading has ended nothing is reported, whatever is called."
  },
  {
   "property": "C126",
   "status": "partial",
   "theorems": [
    "Ouro.C126_exact",
    "Ouro.C126_unchanged_partial",
    "Ouro.C126_kept_refuted",
    "Ouro.C126_interleaved_refuted"
   ],
   "note": "Holds if the first bad field is a name without a value other than interleaved and the fields before it change nothing (C126_unchanged_partial). Refuted for every header with fields before it that do change something (C126_kept_refuted), and for a bare interleaved on every multicast transport (C126_interleaved_refuted). C126_exact says for every refused header what is left: the fields before the bad one, what the bad one itself stores, nothing of those after it."
  },
  {
   "property": "C127",
   "status": "partial",
   "theorems": [
    "Ouro.C127_noted_partial",
    "Ouro.C127_ready_partial",
    "Ouro.C127_refuted",
    "Ouro.C127_iff",
    "Ouro.C127_never_ready",
    "Ouro.C127_same_setup",
    "Ouro.C127_same",
    "Ouro.C127_same_answer"
   ],
   "note": "Exact law (C127_iff) for all schedules in which calls of command do not overlap: the session is reported ready exactly if every SETUP was answered and no other goroutine counted a request between the counting and the noting of a SETUP; otherwise it is never ready (C127_never_ready). For overlapping calls: proved when no other goroutine is between reading the counter and taking its number while Setup is at work on a stream (C127_ready_partial). Refuted in general. C127_same and C127_same_answer tie this model to the session model: undisturbed, Setup and the answers to it leave the same memory, feeds and reports. Memory is sequentially consistent, transport is TCP, every answer is 200."
  },
  {
   "property": "C128",
   "status": "partial",
   "theorems": [
    "Ouro.C128_apart_partial",
    "Ouro.C128_length_partial",
    "Ouro.C128_words",
    "Ouro.C128_refuted",
    "Ouro.C128_iff",
    "Ouro.C128_first_refuted"
   ],
   "note": "Fails in the code: handleRtsp assigns s.session without the lock, enqueue reads it in another goroutine. C128_apart_partial: the claim holds in every schedule where no assignment overlaps with a reading. C128_length_partial: in an established session it holds in every schedule if all identifiers have one length. C128_refuted: for any two identifiers of different lengths there is a schedule in which a request goes out with a text that is no identifier at all; C128_iff: exactly then. C128_first_refuted: for the first identifier there is a schedule that reads bytes from nowhere. C128_words: what a request can carry in any schedule."
  },
  {
   "property": "C129",
   "status": "partial",
   "theorems": [
    "Ouro.C129_buffered_partial",
    "Ouro.C129_iff",
    "Ouro.C129_refuted"
   ],
   "note": "False of the code: ReadBytes returns a part of the array of its bufio.Reader, and the next Read of the connection overwrites it (C129_refuted: the four bytes of a session description become part of a later header). Proved: the bytes stay as long as the following messages are taken from what had already been read (C129_buffered_partial), and beyond that, with nothing left over and one further Read, they stay exactly if the new bytes are the same in the same places (C129_iff). The session itself copies or parses a body before it reads on."
  },
  {
   "property": "C130",
   "status": "proved",
   "theorems": [
    "Ouro.C130_run",
    "Ouro.C130_exact",
    "Ouro.C130_text"
   ],
   "note": "C130_run and C130_exact over any world that does not itself depend on the unused parts (Deaf); C130_text takes it to the bytes of two well-formed responses."
  },
  {
   "property": "C131",
   "status": "partial",
   "theorems": [
    "Ouro.C131_types",
    "Ouro.C131_iff",
    "Ouro.C131_attribute_partial",
    "Ouro.C131_session",
    "Ouro.C131_refuted"
   ],
   "note": "C131_types: true for all other line types. C131_iff characterises exactly the attributes that make no difference; C131_refuted: an unused attribute with a number after its first slash (a=framerate:30000/1001) overwrites the clock rate, and one with a word control:... after a space overwrites the address."
  },
  {
   "property": "C132",
   "status": "proved",
   "theorems": [
    "Ouro.C132_labels"
   ],
   "note": "C132_labels: of every sequence of payloads pushed into a new sink, with any two sequences of timestamps."
  },
  {
   "property": "C133",
   "status": "partial",
   "theorems": [
    "Ouro.C133_clock_partial",
    "Ouro.C133_mtap24_iff",
    "Ouro.C133_mtap24_refuted"
   ],
   "note": "C133_clock_partial: for payloads without MTAP24 packets. C133_mtap24_refuted: the timestamp of a unit of an MTAP24 packet has the packet's timestamp in it 257 times (it is shifted by 8 into the offset). C133_mtap24_iff: for such a packet the property holds exactly of amounts that are multiples of 2^24."
  },
  {
   "property": "C134",
   "status": "proved",
   "theorems": [
    "Ouro.C134_exact"
   ],
   "note": "C134_exact, of the model of the session in which every call and every answer is one step; logging is not in it."
  },
  {
   "property": "C135",
   "status": "partial",
   "theorems": [
    "Ouro.C135_iff",
    "Ouro.C135_panic_iff",
    "Ouro.C135_alone_partial",
    "Ouro.C135_refuted"
   ],
   "note": "C135_alone_partial: when no description arrives meanwhile. C135_iff: under all schedules exactly if every description that may arrive has the same streams (URI and transport) at its beginning; C135_panic_iff: no panic exactly if none has fewer streams. C135_refuted: a description with fewer streams makes Setup panic; one in another order makes it ask twice for a stream and never for another. Memory is sequentially consistent in the model and a slice is replaced at once."
  },
  {
   "property": "C136",
   "status": "proved",
   "theorems": [
    "Ouro.C136_section",
    "Ouro.C136_order",
    "Ouro.C136_iff"
   ],
   "note": "C136_section, C136_order; C136_iff: which lines, not only sections, have the property: exactly those whose attributes before the first m= line tell nothing about a stream (in the sense of C131)."
  },
  {
   "property": "C137",
   "status": "proved",
   "theorems": [
    "Ouro.C137_exact",
    "Ouro.C137_iff",
    "Ouro.C137_join"
   ],
   "note": "C137_exact: the exact law for any two sinks. C137_iff: for any histories. C137_join: the case a user of a stream meets."
  },
  {
   "property": "C138",
   "status": "partial",
   "theorems": [
    "Ouro.C138_iff",
    "Ouro.C138_exchange_refuted",
    "Ouro.C138_order_partial",
    "Ouro.C138_refuted"
   ],
   "note": "C138_order_partial: if each picture set comes after the sequence set it names. C138_refuted: otherwise it can be refused. Exact law C138_iff: any order exactly if any two of the calls may be exchanged where they are the only ones."
  },
  {
   "property": "C139",
   "status": "partial",
   "theorems": [
    "Ouro.C139_alone_partial",
    "Ouro.C139_prefix_partial",
    "Ouro.C139_iff",
    "Ouro.C139_refuted"
   ],
   "note": "The property is false while the goroutine of the first Open is alive (C139_refuted); C139_iff says exactly when it holds, C139_alone_partial and C139_prefix_partial are the part that holds."
  },
  {
   "property": "C140",
   "status": "partial",
   "theorems": [
    "Ouro.C140_accepted",
    "Ouro.C140_iff",
    "Ouro.C140_refuted"
   ],
   "note": "Acceptance never depends on the order (C140_accepted). The result does exactly if two fields disagree (C140_iff); C140_refuted: multicast and interleaved."
  },
  {
   "property": "C141",
   "status": "partial",
   "theorems": [
    "Ouro.C141_iff",
    "Ouro.C141_anywhere",
    "Ouro.C141_refuted"
   ],
   "note": "Exact law C141_iff and C141_anywhere; the full statement is false (C141_refuted: rtpmap and a framerate written as a fraction)."
  },
  {
   "property": "C142",
   "status": "partial",
   "theorems": [
    "Ouro.C142_shift_partial",
    "Ouro.C142_distance_partial",
    "Ouro.C142_reset",
    "Ouro.C142_half_refuted",
    "Ouro.C142_refuted",
    "Ouro.C142_iff"
   ],
   "note": "C142_shift_partial: where no packet carries a number, the numbers of two receivers differ by a constant. C142_distance_partial: there distances agree unless the units are exactly 32768 apart. C142_reset: a STAP-B or MTAP packet makes all receivers agree from then on. C142_iff is the exact law for arbitrary payloads: a distance is the same for all receivers just if the numbers of both units depend on the join or those of none, and, if both do, they are not half of the range apart. C142_refuted and C142_half_refuted are the witnesses that the full claim fails."
  },
  {
   "property": "C143",
   "status": "partial",
   "theorems": [
    "Ouro.C143_contacts_iff",
    "Ouro.C143_usage",
    "Ouro.C143_zero_iff",
    "Ouro.C143_closed_partial",
    "Ouro.C143_refuted"
   ],
   "note": "C143_contacts_iff: the network is asked just for the address given. C143_usage: wrong arguments, bad addresses and failed connections give status 2 or 1. C143_zero_iff is the exact law for status 0: help, a session that has gone all the way, or an end on a packet that cannot be read; C143_refuted is the last case, which violates the claim; without it the status tells success (C143_closed_partial). A client that waits for ever (C101) has no status. The package flag is modelled after the sources of Go 1.20; signals are not modelled."
  },
  {
   "property": "C144",
   "status": "partial",
   "theorems": [
    "Ouro.C144_iff",
    "Ouro.C144_panic",
    "Ouro.C144_always_iff",
    "Ouro.C144_start_partial",
    "Ouro.C144_middle_iff",
    "Ouro.C144_unit_refuted",
    "Ouro.C144_refuted"
   ],
   "note": "C144_iff is the exact law: no difference just if the payload completes no unit, and the kept bytes of fragments are the same after the second time or no unit ends later that does not start later; C144_always_iff for all later payloads; C144_panic where Push panics. C144_start_partial: first fragments may be repeated. C144_middle_iff: other fragments with data may be repeated only if no unit with them is ever completed. C144_unit_refuted: every packet that completes a unit gives more units than were sent; C144_refuted is a unit with bytes doubled. Sequence numbers are not looked at."
  },
  {
   "property": "C145",
   "status": "partial",
   "theorems": [
    "Ouro.C145_sps",
    "Ouro.C145_sps_cut",
    "Ouro.C145_sps_least",
    "Ouro.C145_pps_iff",
    "Ouro.C145_sprop",
    "Ouro.C145_pps_partial",
    "Ouro.C145_pps_refuted"
   ],
   "note": "Proved in full for sequence parameter sets (surplus, cuts, least length). For picture parameter sets exact law: surplus never matters iff a single zero byte does not; it does not for conforming sets with the extension. Refuted for a set that ends on the last bit of the data: an added byte is read as the extension."
  },
  {
   "property": "C146",
   "status": "partial",
   "theorems": [
    "Ouro.C146_alone_partial",
    "Ouro.C146_room_partial",
    "Ouro.C146_refuted",
    "Ouro.C146_order_refuted",
    "Ouro.C146_ends_partial"
   ],
   "note": "C146_alone_partial: String alone gives the text of the moment. C146_room_partial: with free slots, for every schedule, no panic and only fields of the last segment may be missing. C146_ends_partial: with slots used again too (fewer than twice as many segments as slots), for every schedule, no panic, and String returns after at most 3n+2 steps of its own. C146_refuted: whenever there is a segment and a free slot, a schedule shows the new segment with no bytes, a text of no moment. C146_order_refuted: with a slot used again the newest comes before an older one."
  },
  {
   "property": "C147",
   "status": "partial",
   "theorems": [
    "Ouro.C147_law_partial",
    "Ouro.C147_iff",
    "Ouro.C147_apart_partial",
    "Ouro.C147_refuted",
    "Ouro.C147_sess_law_partial"
   ],
   "note": "Refuted in general: two requests that overlap between writing and reading the hash of the method can be given each other's value, for every hash function and Digest challenge. Proved: the exact law for every schedule (C147_law_partial), when all requests are right (C147_iff, for hash functions without collisions), and that requests with different methods that do not overlap there are right (C147_apart_partial). For md5-sess, which fails for one goroutine already (C43), C147_sess_law_partial gives what each request carries: the latest verb hashed and a session key hashed once or more; how often exactly is not said."
  },
  {
   "property": "C148",
   "status": "proved",
   "theorems": [
    "Ouro.C148_header"
   ],
   "note": "By the decoding law of C23 and the law that the reported units are a function of the video packets (C114)."
  },
  {
   "property": "C149",
   "status": "partial",
   "theorems": [
    "Ouro.C149_response_partial",
    "Ouro.C149_tunnel_partial",
    "Ouro.C149_description_partial",
    "Ouro.C149_response_refuted",
    "Ouro.C149_description_refuted"
   ],
   "note": "For lines that are not blank, each ended by LF or CR LF, in any mixture, the same response, answer to the tunnel's GET request or description is found, whatever the lines say, and the same is left to read. Refuted for a carriage return alone, which RFC 2326 lets a server send too: a response of any such lines is lost at the next timeout, and a description of any such lines has no feeds."
  },
  {
   "property": "C150",
   "status": "partial",
   "theorems": [
    "Ouro.C150_tcp_partial",
    "Ouro.C150_udp_exact",
    "Ouro.C150_udp_refuted"
   ],
   "note": "C150_tcp_partial: for streams over TCP any two orders of the answers lead to the same session (all fields but the log), to the same number of Readys and to no further requests; it is assumed that no answer is a 401, that the Transport headers of the granted ones are accepted and that the answers that name a session name the same. C150_udp_exact: over UDP, for any number of granted streams, the channels follow the order of the answers (session.go:295-300 counts answers, not streams), so that two streams change places with their answers (C150_udp_refuted)."
  },
  {
   "property": "C151",
   "status": "proved",
   "theorems": [
    "Ouro.C151_order",
    "Ouro.C151_last",
    "Ouro.C151_any_order"
   ],
   "note": "C151_order: for all orders that keep the order of lines with the same name, with any first line, any data behind the lines and any way it is cut into pieces; gist is what the session uses of a response (C130). C151_any_order: all permutations of lines with different names are such orders. C151_last: only the last line of each name counts, for any order and repetition."
  },
  {
   "property": "C152",
   "status": "partial",
   "theorems": [
    "Ouro.C152_partial",
    "Ouro.C152_iff",
    "Ouro.C152_refuted"
   ],
   "note": "C152_partial: in every description, if the parser finds the same number between the first two slashes of the parameters in both orders, or none. C152_iff: for a section with one fmtp line exactly then. C152_refuted: for all pairs of parameters with two different numbers between slashes (which base64 text may have) the first of them becomes the clock rate, so the order matters: packet.go:74-86 tries every field as encoding/clock."
  },
  {
   "property": "C153",
   "status": "partial",
   "theorems": [
    "Ouro.C153_transport_partial",
    "Ouro.C153_headers_partial",
    "Ouro.C153_encoding_partial",
    "Ouro.C153_challenge_partial",
    "Ouro.C153_parameter_refuted",
    "Ouro.C153_parameters_refuted",
    "Ouro.C153_scheme_refuted"
   ],
   "note": "Case makes no difference for the names of header lines (same response or same error), the fields and lower protocol of a Transport header (any fields, any previous state), the name of the encoding in a description (any lines around it) and the parameter names of a challenge. Refuted for the names of format parameters (parameter sets lost) and, for all parameters, for the scheme of a challenge."
  }
 ]
}