{
 "claims": [
  {
   "property": "C01",
   "status": "proved",
   "theorems": [
    "Mpeg.TS.C01_payload_only_roundtrip"
   ],
   "note": "all headers, payloads, following bits, previous packet contents"
  },
  {
   "property": "C02",
   "status": "proved",
   "theorems": [
    "Mpeg.TS.C02_adaptation_roundtrip",
    "Mpeg.TS.C02_payload_length"
   ],
   "note": "also covers extensions without splice data / reserved bytes"
  },
  {
   "property": "C03",
   "status": "proved",
   "theorems": [
    "Mpeg.TS.C03_resync",
    "Mpeg.TS.C03_no_sync"
   ],
   "note": "aligned and unaligned start"
  },
  {
   "property": "C04",
   "status": "partial",
   "theorems": [
    "Mpeg.TS.C04_framing_partial",
    "Mpeg.TS.C04_false_splice",
    "Mpeg.TS.C04_false_short_af",
    "Mpeg.TS.C04_false_private"
   ],
   "note": "full claim false: seamless splice data loses a bit, short adaptation-only packets and control 00 do not fill 188 bytes; proved for payload-carrying packets without extension on inputs below 4 GiB"
  },
  {
   "property": "C05",
   "status": "proved",
   "theorems": [
    "Mpeg.TS.C05_truncated",
    "Mpeg.TS.C05_in_payload"
   ],
   "note": "every byte-granular proper prefix, also of packets with adaptation fields"
  },
  {
   "property": "C06",
   "status": "partial",
   "theorems": [
    "Mpeg.TS.C06_panic_only_partial",
    "Mpeg.TS.C06_panics",
    "Mpeg.TS.C06_false"
   ],
   "note": "full claim false: control 11 with adaptation field longer than 183 panics; proved that this is the only panic and that Next always returns"
  },
  {
   "property": "C07",
   "status": "partial",
   "theorems": [
    "Mpeg.TS.C07_no_payload_partial",
    "Mpeg.TS.C07_false"
   ],
   "note": "full claim false for a reused Packet (stale payload); proved for fresh packets"
  },
  {
   "property": "C08",
   "status": "proved",
   "theorems": [
    "Mpeg.TS.C08_pcr",
    "Mpeg.TS.C08_pcr_injective"
   ],
   "note": ""
  },
  {
   "property": "C09",
   "status": "partial",
   "theorems": [
    "Mpeg.TS.C09_extension_partial",
    "Mpeg.TS.C09_false"
   ],
   "note": "field values proved for every extension; exact consumption false with splice data or reserved bytes"
  },
  {
   "property": "C10",
   "status": "proved",
   "theorems": [
    "Mpeg.TS.C10_testers"
   ],
   "note": ""
  },
  {
   "property": "C11",
   "status": "proved",
   "theorems": [
    "Mpeg.TS.C11_payload_reader",
    "Mpeg.TS.C11_pid_stream",
    "Mpeg.TS.C11_every_source"
   ],
   "note": "stated over the packets observed by successive Next calls, for every source, tester and Read schedule (up to the first error); C11_pid_stream instantiates it for encoded streams"
  },
  {
   "property": "C12",
   "status": "partial",
   "theorems": [
    "Mpeg.TS.C12_take_while_partial",
    "Mpeg.TS.C12_one_read",
    "Mpeg.TS.C12_false"
   ],
   "note": "full claim false: the part of the rejected packet that does not fit the current Read is lost; exact behaviour proved"
  },
  {
   "property": "C13",
   "status": "partial",
   "theorems": [
    "Mpeg.TS.C13_skip_until_partial",
    "Mpeg.TS.C13_hangs",
    "Mpeg.TS.C13_false"
   ],
   "note": "full claim false: without an accepted packet Read never returns"
  },
  {
   "property": "C14",
   "status": "partial",
   "theorems": [
    "Mpeg.TS.C14_units_partial",
    "Mpeg.TS.C14_pid_stream_partial",
    "Mpeg.TS.C14_every_sequence",
    "Mpeg.TS.C14_false"
   ],
   "note": "full claim false: the last unit is never delivered; all others are, exactly, for every schedule"
  },
  {
   "property": "C15",
   "status": "proved",
   "theorems": [
    "Mpeg.TS.C15_prefix_and_rejected_ignored",
    "Mpeg.TS.C15_no_start"
   ],
   "note": ""
  },
  {
   "property": "C16",
   "status": "proved",
   "theorems": [
    "Mpeg.TS.C16_filtered_delivery"
   ],
   "note": "all interleavings of the goroutine with any consumers; packets as observed at the receive"
  },
  {
   "property": "C17",
   "status": "proved",
   "theorems": [
    "Mpeg.TS.C17_window"
   ],
   "note": ""
  },
  {
   "property": "C18",
   "status": "proved",
   "theorems": [
    "Mpeg.TS.C18_termination",
    "Mpeg.TS.C18_progress",
    "Mpeg.TS.C18_finitely_many_steps"
   ],
   "note": "safety under all interleavings, progress and a bound on the goroutine steps"
  },
  {
   "property": "C19",
   "status": "partial",
   "theorems": [
    "Mpeg.TS.C19_stable_partial",
    "Mpeg.TS.C19_overwritten",
    "Mpeg.TS.C19_false"
   ],
   "note": "full claim false: one Packet is shared by all sends; proved stable until the next parse"
  },
  {
   "property": "C20",
   "status": "partial",
   "theorems": [
    "Mpeg.TS.C20_payload_only",
    "Mpeg.TS.C20_payload_only_progress",
    "Mpeg.TS.C20_payload_unit_silent",
    "Mpeg.TS.C20_false"
   ],
   "note": "PayloadOnly proved (same code in pes); PayloadUnit never sends anything"
  },
  {
   "property": "C21",
   "status": "partial",
   "theorems": [
    "Mpeg.PES.C21_round_trip_partial",
    "Mpeg.PES.C22_false"
   ],
   "note": "false for time stamps with bit 32 set; proved for all other headers and payloads"
  },
  {
   "property": "C22",
   "status": "partial",
   "theorems": [
    "Mpeg.PES.C22_time_stamps_partial",
    "Mpeg.PES.C22_false"
   ],
   "note": "full claim false: the value is reported modulo 2^32 for every time stamp"
  },
  {
   "property": "C23",
   "status": "proved",
   "theorems": [
    "Mpeg.PES.C23_unbounded"
   ],
   "note": ""
  },
  {
   "property": "C24",
   "status": "partial",
   "theorems": [
    "Mpeg.PES.C24_consumed_partial",
    "Mpeg.PES.C24_consumed_mod",
    "Mpeg.PES.C24_false"
   ],
   "note": "exact below 4 GiB of input; modulo 2^32 for every input; a 4 GiB counterexample is proved"
  },
  {
   "property": "C25",
   "status": "proved",
   "theorems": [
    "Mpeg.PES.C25_rejected",
    "Mpeg.PES.C25_accepted"
   ],
   "note": "both directions: defective headers rejected with the error of the first defect; accepted ones have no defect, for every input"
  },
  {
   "property": "C26",
   "status": "partial",
   "theorems": [
    "Mpeg.PES.C26_every_source",
    "Mpeg.PES.C26_stream_exact",
    "Mpeg.PES.C26_stream_partial",
    "Mpeg.PES.C26_false"
   ],
   "note": "full claim false: a padding packet repeats the previous payload; exact delivery proved for every source, and the claim for streams without padding after a payload"
  },
  {
   "property": "C27",
   "status": "proved",
   "theorems": [
    "Mpeg.PES.C27_header_ids"
   ],
   "note": ""
  },
  {
   "property": "C28",
   "status": "partial",
   "theorems": [
    "Mpeg.PS.C28_pack_header_partial",
    "Mpeg.PS.C28_scr_mod",
    "Mpeg.PS.C28_false"
   ],
   "note": "full claim false for SCR bases with bit 32 set: the field is a uint32; everything else proved for all headers"
  },
  {
   "property": "C29",
   "status": "partial",
   "theorems": [
    "Mpeg.PS.C29_system_header_partial",
    "Mpeg.PS.C29_false"
   ],
   "note": "full claim false: AudioBound receives the video bound, VideoBound stays 0; all other fields proved"
  },
  {
   "property": "C30",
   "status": "proved",
   "theorems": [
    "Mpeg.PS.C30_check",
    "Mpeg.PS.C30_assert"
   ],
   "note": "for any code width: ps and video start codes (32) and extension ids (4)"
  },
  {
   "property": "C31",
   "status": "partial",
   "theorems": [
    "Mpeg.PS.C31_pack_reader_partial",
    "Mpeg.PS.C31_false_truncated",
    "Mpeg.PS.C31_false_empty_pack",
    "Mpeg.PS.C31_false_after_end"
   ],
   "note": "proved when every pack has a packet and the program ends with its end code; the full claim is false (empty packs, truncated streams, reads after the end)"
  },
  {
   "property": "C32",
   "status": "proved",
   "theorems": [
    "Mpeg.PS.C32_order",
    "Mpeg.PS.C32_done",
    "Mpeg.PS.C32_exclusive",
    "Mpeg.PS.C32_progress",
    "Mpeg.PS.C32_terminates",
    "Mpeg.PS.C32_stream",
    "Mpeg.PS.C32_stream_prefix",
    "Mpeg.PS.C32_masked_error"
   ],
   "note": "all inputs and interleavings; refinement of sequential reading; no deadlock, termination bound; a packet error is masked (C32_masked_error)"
  },
  {
   "property": "C33",
   "status": "proved",
   "theorems": [
    "Mpeg.Video.C33"
   ],
   "note": ""
  },
  {
   "property": "C34",
   "status": "proved",
   "theorems": [
    "Mpeg.Video.C34",
    "Mpeg.Video.C34_first",
    "Mpeg.Video.C34_fail"
   ],
   "note": "exact characterisation of success and of both failures"
  },
  {
   "property": "C35",
   "status": "proved",
   "theorems": [
    "Mpeg.Video.C35"
   ],
   "note": ""
  },
  {
   "property": "C36",
   "status": "partial",
   "theorems": [
    "Mpeg.Video.C36_partial",
    "Mpeg.Video.C36_defaults",
    "Mpeg.Video.C36_false"
   ],
   "note": "full claim false: transmitted matrices are stored in raster instead of zigzag order; all other fields and the choice of matrix proved"
  },
  {
   "property": "C37",
   "status": "proved",
   "theorems": [
    "Mpeg.Video.C37",
    "Mpeg.Video.C37_none",
    "Mpeg.Video.C37_buffer"
   ],
   "note": ""
  },
  {
   "property": "C38",
   "status": "proved",
   "theorems": [
    "Mpeg.Video.C38",
    "Mpeg.Video.C38_marker"
   ],
   "note": ""
  },
  {
   "property": "C39",
   "status": "proved",
   "theorems": [
    "Mpeg.Video.C39"
   ],
   "note": ""
  },
  {
   "property": "C40",
   "status": "proved",
   "theorems": [
    "Mpeg.Video.C40"
   ],
   "note": ""
  },
  {
   "property": "C41",
   "status": "proved",
   "theorems": [
    "Mpeg.Video.C41"
   ],
   "note": ""
  },
  {
   "property": "C42",
   "status": "partial",
   "theorems": [
    "Mpeg.Video.C42_partial",
    "Mpeg.Video.C42_group",
    "Mpeg.Video.C42_false"
   ],
   "note": "proved after sequence and picture headers; after a group header an extension start code makes the decoder loop forever, and that is the only way"
  },
  {
   "property": "C43",
   "status": "proved",
   "theorems": [
    "Mpeg.Video.C43"
   ],
   "note": ""
  },
  {
   "property": "C44",
   "status": "proved",
   "theorems": [
    "Mpeg.Video.C44",
    "Mpeg.Video.C44_tables",
    "Mpeg.Video.C44_total",
    "Mpeg.Video.C44_sequence"
   ],
   "note": "the Huffman decoder itself is an external package: its contract is part of the trusted base"
  },
  {
   "property": "C45",
   "status": "proved",
   "theorems": [
    "Mpeg.Video.C45",
    "Mpeg.Video.C45_codes"
   ],
   "note": ""
  },
  {
   "property": "C46",
   "status": "proved",
   "theorems": [
    "Mpeg.Video.C46_nonintra",
    "Mpeg.Video.C46_intra",
    "Mpeg.Video.C46_accepts_nonintra",
    "Mpeg.Video.C46_accepts_intra"
   ],
   "note": ""
  },
  {
   "property": "C47",
   "status": "partial",
   "theorems": [
    "Mpeg.Video.C47_partial",
    "Mpeg.Video.C47_false"
   ],
   "note": "false as stated: blocks with more than 64 coefficients panic (proved for every such block); proved: no endless loop, and no panic for any other input"
  },
  {
   "property": "C48",
   "status": "proved",
   "theorems": [
    "Mpeg.Video.C48",
    "Mpeg.Video.C48_iso"
   ],
   "note": ""
  },
  {
   "property": "C49",
   "status": "partial",
   "theorems": [
    "Mpeg.Video.C49_partial",
    "Mpeg.Video.C49_range",
    "Mpeg.Video.C49_levels",
    "Mpeg.Video.C49_false"
   ],
   "note": "AC coefficients in full; DC values below 2^28 in magnitude.  False beyond: nothing bounds the sum of the DC differences of a slice, and after 131137 luma blocks of difference 2047 the product wraps around (C49_false)"
  },
  {
   "property": "C50",
   "status": "proved",
   "theorems": [
    "Mpeg.Video.C50"
   ],
   "note": ""
  },
  {
   "property": "C51",
   "status": "partial",
   "theorems": [
    "Mpeg.Video.C51_partial",
    "Mpeg.Video.C51_no_overflow_partial",
    "Mpeg.Video.C51_algorithm",
    "Mpeg.Video.C51_sum_partial",
    "Mpeg.Video.C51_intra_partial",
    "Mpeg.Video.C51_false"
   ],
   "note": "The real inverse DCT of Annex A is stated with Real.cos. For every block whose exact inverse DCT lies within [-255, 255] (every possible prediction error) no int32 operation wraps and every sample is within 1; the same error bound holds for blocks within 255 of mid grey (intra blocks, C51_intra_partial). For coefficients merely saturated to [-2048, 2047] the property is false: C51_false exhibits a block for which an intermediate product exceeds 32 bits and a sample is off by 1024."
  },
  {
   "property": "C52",
   "status": "proved",
   "theorems": [
    "Mpeg.Video.C52"
   ],
   "note": ""
  },
  {
   "property": "C53",
   "status": "proved",
   "theorems": [
    "Mpeg.Video.C53_created",
    "Mpeg.Video.C53",
    "Mpeg.Video.C53_address_unchecked"
   ],
   "note": "macroblocks inside the frame; C53_address_unchecked shows that an address beyond the row is not rejected"
  },
  {
   "property": "C54",
   "status": "proved",
   "theorems": [
    "Mpeg.Video.C54",
    "Mpeg.Video.C54_skip",
    "Mpeg.Video.C54_no_reference"
   ],
   "note": ""
  },
  {
   "property": "C55",
   "status": "proved",
   "theorems": [
    "Mpeg.Video.C55",
    "Mpeg.Video.C55_codes",
    "Mpeg.Video.C55_range",
    "Mpeg.Video.C55_field",
    "Mpeg.Video.C55_second_prediction"
   ],
   "note": "f_code 1..15; C55_second_prediction: the second prediction is not set by a single vector as 7.6.3.3 asks"
  },
  {
   "property": "C56",
   "status": "proved",
   "theorems": [
    "Mpeg.Video.C56",
    "Mpeg.Video.C56_two",
    "Mpeg.Video.C56_none",
    "Mpeg.Video.C56_inside",
    "Mpeg.Video.C56_range",
    "Mpeg.Video.C56_iso_false",
    "Mpeg.Video.C56_chroma_iso_false",
    "Mpeg.Video.C56_left_unchecked",
    "Mpeg.Video.C56_field_false"
   ],
   "note": "means are rounded down, which differs from ISO 13818-2 7.6.4 (C56_iso_false); vectors that leave the frame are not rejected (C56_left_unchecked)"
  },
  {
   "property": "C57",
   "status": "partial",
   "theorems": [
    "Mpeg.Video.C57_partial",
    "Mpeg.Video.C57_used",
    "Mpeg.Video.C57_run",
    "Mpeg.Video.C57_false"
   ],
   "note": "Proved for every legal coding order of any length in which a group of pictures has at most 1024 pictures, starting from a new decoder; C57_used ties the recorded references to the picture decoding.  False beyond: C57_false shows that at the wrap of the temporal reference a P picture is predicted from the wrong reference."
  },
  {
   "property": "C58",
   "status": "partial",
   "theorems": [
    "Mpeg.Video.C58_partial",
    "Mpeg.Video.C58_false"
   ],
   "note": "Proved for every legal coding order of any length with at most 1024 pictures per group of pictures.  False beyond: C58_false shows that every picture after the 1024th of a group of pictures is dropped."
  },
  {
   "property": "C59",
   "status": "proved",
   "theorems": [
    "Mpeg.Video.C59",
    "Mpeg.Video.C59_reads",
    "Mpeg.Video.C59_uncoded",
    "Mpeg.Video.C59_422_panics",
    "Mpeg.Video.C59_error_swallowed"
   ],
   "note": "damaged pattern codes are not reported (C59_error_swallowed); 4:2:2 and 4:4:4 macroblocks with a pattern panic"
  },
  {
   "property": "C60",
   "status": "proved",
   "theorems": [
    "Mpeg.Video.C60",
    "Mpeg.Video.C60_codes",
    "Mpeg.Video.C60_accepts",
    "Mpeg.Video.C60_address"
   ],
   "note": ""
  },
  {
   "property": "C61",
   "status": "partial",
   "theorems": [
    "Mpeg.Pipe.C61_partial",
    "Mpeg.Pipe.C61_open_partial",
    "Mpeg.Pipe.C61_eop_false",
    "Mpeg.Pipe.IsSource.unique",
    "Mpeg.Pipe.exists_carries"
   ],
   "note": "Exact output for every Read schedule and every division, except: the last unit is lost (C14_false), EOP is reported where a unit ends with a packet of known length (C61_eop_false), no padding packets (C26_false).  With packets of unknown length at the end of each unit (C61_open_partial) the output is exactly the concatenation."
  },
  {
   "property": "C62",
   "status": "partial",
   "theorems": [
    "Mpeg.PES.C62_returns",
    "Mpeg.PES.C62_panic_only_partial",
    "Mpeg.PES.C62_panics",
    "Mpeg.PES.C62_false"
   ],
   "note": "never loops; panics only with one of six header flags, and always with one of five of them"
  },
  {
   "property": "C63",
   "status": "partial",
   "theorems": [
    "Mpeg.PES.C63_padding_partial",
    "Mpeg.PES.C63_false"
   ],
   "note": "full claim false for the seven ids other than padding: only 6 bytes are consumed"
  },
  {
   "property": "C64",
   "status": "partial",
   "theorems": [
    "Mpeg.PS.C64_header",
    "Mpeg.PS.C64_read_returns_partial",
    "Mpeg.PS.C64_false"
   ],
   "note": "NewPackHeader never panics or loops; Read never loops; Read panics where pes.NewPacket does (C62)"
  },
  {
   "property": "C65",
   "status": "proved",
   "theorems": [
    "Mpeg.PS.C65"
   ],
   "note": ""
  },
  {
   "property": "C66",
   "status": "proved",
   "theorems": [
    "Mpeg.Video.C66",
    "Mpeg.Video.C66_nil_extension"
   ],
   "note": "C66 is about the header readers; Next panics on the picture after a sequence extension that could not be read (C66_nil_extension)"
  },
  {
   "property": "C67",
   "status": "proved",
   "theorems": [
    "Mpeg.Video.C67",
    "Mpeg.Video.C67_coefficients"
   ],
   "note": ""
  },
  {
   "property": "C68",
   "status": "proved",
   "theorems": [
    "Mpeg.Video.C68"
   ],
   "note": ""
  },
  {
   "property": "C69",
   "status": "partial",
   "theorems": [
    "Mpeg.Video.C69_partial",
    "Mpeg.Video.C69_field_false",
    "Mpeg.Video.C69_conceal_false"
   ],
   "note": "4:2:0 frame pictures with frame prediction, vectors inside the references; false for concealment vectors without frame_pred_frame_dct (C69_conceal_false: panic) and false for field DCT in predicted macroblocks (C69_field_false)"
  },
  {
   "property": "C70",
   "status": "partial",
   "theorems": [
    "Mpeg.Video.C70_partial",
    "Mpeg.Video.C70_extension_ignored",
    "Mpeg.Video.C70_row_panics",
    "Mpeg.Video.C70_row_false"
   ],
   "note": "slices that begin below the picture panic (C70_row_panics); as C69; the row extension of pictures with more than 2800 lines is ignored by the source (C70_extension_ignored)"
  },
  {
   "property": "C71",
   "status": "partial",
   "theorems": [
    "Mpeg.Video.C71_partial"
   ],
   "note": "as C69 and C70"
  },
  {
   "property": "C72",
   "status": "proved",
   "theorems": [
    "Mpeg.Video.C72_display",
    "Mpeg.Video.C72_temporal"
   ],
   "note": ""
  },
  {
   "property": "C73",
   "status": "partial",
   "theorems": [
    "Mpeg.Video.C73_partial",
    "Mpeg.Video.C73_rejected"
   ],
   "note": "copyright, picture display, spatial and sequence scalable extensions make the decoder panic (C73_rejected)"
  },
  {
   "property": "C74",
   "status": "partial",
   "theorems": [
    "Mpeg.Video.C74_partial",
    "Mpeg.Video.C74_false"
   ],
   "note": "11 is missing in the code"
  },
  {
   "property": "C75",
   "status": "partial",
   "theorems": [
    "Mpeg.Video.C75_partial",
    "Mpeg.Video.C75_height_false"
   ],
   "note": "4:2:0 frame pictures as in C69, matrices that are symmetric under the scan (C36_false), at most 1024 pictures in a group of pictures (C58_false), interlaced sequences with an even number of rows of macroblocks (C75_height_false: else the decoder panics); image = reference decoder with the rounding of this decoder (C56)"
  },
  {
   "property": "C76",
   "status": "partial",
   "theorems": [
    "Mpeg.Pipe.C76_partial",
    "Mpeg.Pipe.C76_exact_partial",
    "Mpeg.Pipe.C76_eop_false"
   ],
   "note": "PES packets of unknown length (at the end of each unit; with packets of known length only the decoder stops with EOP: C76_eop_false), a unit after the last one of the stream (C14_false), video streams as in C75"
  },
  {
   "property": "C77",
   "status": "partial",
   "theorems": [
    "Mpeg.Video.C77_partial",
    "Mpeg.Video.C77_progress",
    "Mpeg.Video.C77_never",
    "Mpeg.Video.C77_false"
   ],
   "note": "Proved for every input in which no group of pictures header is followed, after user data at most, by an extension; on those streams Next never returns (C77_never: from every state; C77_false: from a new decoder)."
  },
  {
   "property": "C78",
   "status": "proved",
   "theorems": [
    "Mpeg.Video.C78"
   ],
   "note": ""
  },
  {
   "property": "C79",
   "status": "proved",
   "theorems": [
    "Mpeg.Video.C79"
   ],
   "note": ""
  },
  {
   "property": "C80",
   "status": "proved",
   "theorems": [
    "Mpeg.Video.C80"
   ],
   "note": ""
  },
  {
   "property": "C81",
   "status": "proved",
   "theorems": [
    "Mpeg.Video.C81",
    "Mpeg.Video.C81_lost"
   ],
   "note": "C81_lost: a consequence, the last picture of an input without a start code after it is never delivered"
  },
  {
   "property": "C82",
   "status": "proved",
   "theorems": [
    "Mpeg.Video.C82",
    "Mpeg.Video.C82_all",
    "Mpeg.Video.C82_size_false"
   ],
   "note": "C82_size_false: a picture that has been waiting keeps its size when a sequence header changes it, so Size may then report another size (hence the condition that the call has read something)"
  },
  {
   "property": "C83",
   "status": "proved",
   "theorems": [
    "Mpeg.Video.C83",
    "Mpeg.Video.C83_panics"
   ],
   "note": "C83_panics: pictures in 4:2:2 and 4:4:4 panic instead of giving an error"
  },
  {
   "property": "C84",
   "status": "proved",
   "theorems": [
    "Mpeg.Video.C84",
    "Mpeg.Video.C84_used",
    "Mpeg.Video.C84_draw",
    "Mpeg.Video.C84_b",
    "Mpeg.Video.C84_aliasing"
   ],
   "note": "C84_aliasing: writing into a returned intra or predicted picture changes later pictures, because the decoder goes on predicting from it"
  },
  {
   "property": "C85",
   "status": "partial",
   "theorems": [
    "Mpeg.Video.C85_partial",
    "Mpeg.Video.C85_drift"
   ],
   "note": "Scope of C75; blocks whose exact inverse DCT is within [-255, 255] or within [-127, 383] (else false: C51_false); chroma components only for streams whose vectors are not negative or even (the source rounds chroma vectors down: C56_chroma_iso_false)"
  },
  {
   "property": "C86",
   "status": "partial",
   "theorems": [
    "Mpeg.Pipe.C86_partial",
    "Mpeg.Pipe.C86_exact_partial",
    "Mpeg.Pipe.C86_audio_false"
   ],
   "note": "every pack has a packet and the program has its end code (C31_false_*), video streams as in C75 (C85 for the comparison with exact decoding); programs with other streams are not separated by the pack reader (C86_audio_false)"
  },
  {
   "property": "C87",
   "status": "partial",
   "theorems": [
    "Mpeg.Video.C87_partial",
    "Mpeg.Video.C87_seek_partial",
    "Mpeg.Video.groups_drop",
    "Mpeg.Video.C87_leading_false"
   ],
   "note": "Streams as in C75. B pictures between the entry point and its I picture may use backward prediction only, as in closed groups of pictures; if they refer to the past, the claim is false (C87_leading_false: Next panics)"
  },
  {
   "property": "C88",
   "status": "partial",
   "theorems": [
    "Mpeg.Video.C88_partial",
    "Mpeg.Pipe.C88_transport_partial",
    "Mpeg.Pipe.C88_program_partial",
    "Mpeg.Video.C87_leading_false"
   ],
   "note": "as C87; C88_transport_partial and C88_program_partial: on top of the readers for transport and program streams, in the scope of C76 and C86"
  },
  {
   "property": "C89",
   "status": "proved",
   "theorems": [
    "Mpeg.TS.C89_packets",
    "Mpeg.TS.C89_payload_reader",
    "Mpeg.TS.C89_unit_reader",
    "Mpeg.TS.C89_demuxer",
    "Mpeg.Pipe.C89_pictures_partial",
    "Mpeg.TS.C89_limit",
    "Mpeg.TS.C89_sync_false"
   ],
   "note": "Packets in the scope of C02 (no seamless splice data: C09_false; adaptation-only packets of full length: C04_false_short_af). C89_pictures_partial: in the scope of C76. C89_limit: 188 bytes are reported as an error; C89_sync_false: a sync byte in the noise loses packets"
  },
  {
   "property": "C90",
   "status": "partial",
   "theorems": [
    "Mpeg.Pipe.C90_partial",
    "Mpeg.Pipe.C90_program_partial"
   ],
   "note": "Scope of C76 and C86 for the readers and of C87 for the entry point (B pictures displayed before the I picture of the entry point use backward prediction only: C87_leading_false)"
  },
  {
   "property": "C91",
   "status": "partial",
   "theorems": [
    "Mpeg.TS.C91_transport",
    "Mpeg.TS.C91_transport_returns",
    "Mpeg.PES.C91_pes",
    "Mpeg.PES.C91_pes_returns",
    "Mpeg.TS.C91_unit_duplicated_false",
    "Mpeg.TS.C91_unit_before_start_false"
   ],
   "note": "proved for the payload readers of ts and pes; false for the payload unit reader (C91_unit_duplicated_false: the first packet of a unit is delivered twice after an error inside the unit; C91_unit_before_start_false: a packet before the first unit start is delivered as a unit after an error); the pack reader of ps loses bytes and returns 0, nil (C31_false_*)"
  },
  {
   "property": "C92",
   "status": "partial",
   "theorems": [
    "Mpeg.PES.C92_truncated_partial",
    "Mpeg.PES.C92_never_accepted",
    "Mpeg.PES.C92_reader_partial",
    "Mpeg.PES.C92_marker_false"
   ],
   "note": "the error may be a missing marker instead of the end of the input if the cut is in front of a marker (C92_marker_false); packets in the scope of C21-C25"
  },
  {
   "property": "C93",
   "status": "proved",
   "theorems": [
    "Mpeg.Video.C93",
    "Mpeg.Video.C93_damage"
   ],
   "note": "C93_damage: one damaged slice is final, a whole valid sequence after it is never returned"
  },
  {
   "property": "C94",
   "status": "partial",
   "theorems": [
    "Mpeg.C94_timecode",
    "Mpeg.C94_form_partial",
    "Mpeg.C94_hours_false",
    "Mpeg.C94_picture",
    "Mpeg.C94_packet",
    "Mpeg.C94_chroma"
   ],
   "note": "proved but for the form of the hours: a time before 10 o'clock is printed with one digit for the hour (C94_hours_false); C94_form_partial for the other times"
  },
  {
   "property": "C95",
   "status": "proved",
   "theorems": [
    "Mpeg.Video.C95_sequence",
    "Mpeg.Video.C95_extension",
    "Mpeg.Video.C95_group",
    "Mpeg.Video.C95_picture",
    "Mpeg.Video.C95_pictureExtension",
    "Mpeg.Video.C95_refused",
    "Mpeg.Video.C95_items"
   ],
   "note": "C95_items: for a source without further segments (later = []) from a byte boundary"
  },
  {
   "property": "C96",
   "status": "proved",
   "theorems": [
    "Mpeg.Video.C96_sequence",
    "Mpeg.Video.C96_group",
    "Mpeg.Video.C96_only",
    "Mpeg.Video.C96_internal"
   ],
   "note": ""
  },
  {
   "property": "C97",
   "status": "partial",
   "theorems": [
    "Mpeg.Video.C97_slice",
    "Mpeg.Video.C97_picture",
    "Mpeg.Video.C97_slice_only_partial",
    "Mpeg.Video.C97_picture_only_partial",
    "Mpeg.Video.C97_slice_exact_partial",
    "Mpeg.Video.C97_picture_exact_partial",
    "Mpeg.Video.C97_slice_intra",
    "Mpeg.Video.C97_picture_intra",
    "Mpeg.Video.C97_picture_error",
    "Mpeg.Video.C97_false"
   ],
   "note": "exact for I pictures; in P and B pictures macroblocks with nine zeros in place of coded_block_pattern are accepted too (C97_false), and nothing else (C97_picture_only_partial; C97_picture_exact_partial: unless the decoder panics, exactly these pictures are accepted). Scope: 4:2:0, f_code from 1 to 15, frame_pred_frame_dct 0 in field pictures; what is accepted: for a source without further segments (later = []). Which data panics: C98"
  },
  {
   "property": "C98",
   "status": "proved",
   "theorems": [
    "Mpeg.Video.C98_exact_sure",
    "Mpeg.Video.C98_exact_only",
    "Mpeg.Video.C98_exact_decodes",
    "Mpeg.Video.C98_frame",
    "Mpeg.Video.C98_sure",
    "Mpeg.Video.C98_intra",
    "Mpeg.Video.C98_no_reference",
    "Mpeg.Video.C98_decodes",
    "Mpeg.Video.C98_fits",
    "Mpeg.Video.C98_fits_copy",
    "Mpeg.Video.C98_prediction",
    "Mpeg.Video.C98_inside",
    "Mpeg.Video.C98_outside",
    "Mpeg.Video.C98_panics",
    "Mpeg.Video.C98_panics_vector"
   ],
   "note": "exact, up to 24 bits behind the fault (C98_exact_sure, C98_exact_only). C98_sure, C98_intra and C98_no_reference are the same without vectors, for I pictures and pictures decoded without reference. Scope as in C97, references of the size of the picture (C98_frame)"
  },
  {
   "property": "C99",
   "status": "partial",
   "theorems": [
    "Mpeg.TS.C99_count_partial",
    "Mpeg.TS.C99_fast_partial",
    "Mpeg.TS.C99_progress",
    "Mpeg.TS.C99_overwritten",
    "Mpeg.TS.C99_false"
   ],
   "note": "false: the slice is a view of the buffer of the one packet that the demuxer reuses, so the consumer may receive the next payload in place of this one (C99_overwritten for any two packets, C99_false). Number of slices, closing and progress hold (C99_count_partial, C99_progress); the contents hold if the demuxer never parses a packet while a slice is under way (C99_fast_partial)"
  },
  {
   "property": "C100",
   "status": "proved",
   "theorems": [
    "Mpeg.Video.C100",
    "Mpeg.Video.C100_sure",
    "Mpeg.Video.C100_missing",
    "Mpeg.Video.C73_rejected",
    "Mpeg.Video.C66_nil_extension"
   ],
   "note": "C100 for a source without further segments (the input of a decoder that is not restarted). C100_sure and C100_missing for pictures without extensions between coding extension and data; the extensions are C73_rejected"
  },
  {
   "property": "C101",
   "status": "partial",
   "theorems": [
    "Mpeg.TS.C101_config",
    "Mpeg.TS.C101_first",
    "Mpeg.TS.C101_panic",
    "Mpeg.TS.C101_hidden",
    "Mpeg.TS.C101_panic_reached",
    "Mpeg.TS.C101_again",
    "Mpeg.TS.C101_crash",
    "Mpeg.TS.C101_again_false",
    "Mpeg.TS.C101_err_kept"
   ],
   "note": "first run proved for all configurations. False: a panic of Next shows as an orderly end (channels closed, Err nil, done) before the crash, and not at all while nobody receives from done (C101_panic, C101_hidden); with at least one channel a second run never ends but in a crash (C101_again, C101_crash), and Err is not cleared"
  },
  {
   "property": "C102",
   "status": "partial",
   "theorems": [
    "Mpeg.Video.C102_first",
    "Mpeg.Video.C102_partial",
    "Mpeg.Video.C102_lower",
    "Mpeg.Video.C102_as_frame",
    "Mpeg.Video.C102_false"
   ],
   "note": "the order is proved: one frame is returned for each frame coded. False for the samples (C102_false): the frame returned is the first field, its lines one below the other in the upper half of the frame and zero below (C102_partial, C102_lower); the second field is decoded and dropped. C102_partial: concealment vectors off, pairs of intra fields"
  },
  {
   "property": "C103",
   "status": "partial",
   "theorems": [
    "Mpeg.TS.C103_only_partial",
    "Mpeg.TS.C103_partial",
    "Mpeg.TS.C103_false"
   ],
   "note": "false as stated: Next accepts a packet whose adaptation field is too short for the parts its flags announce, and one with the reserved adaptation field control (C103_false). Proved for the packets whose reported values are those of a packet of the standard (Spec.Faithful), extensions without splice data (C09)"
  },
  {
   "property": "C104",
   "status": "partial",
   "theorems": [
    "Mpeg.PES.C104_exact",
    "Mpeg.PES.C104_partial",
    "Mpeg.PES.C104_false",
    "Mpeg.PES.C63_false",
    "Mpeg.PES.C24_false"
   ],
   "note": "C104_exact says for all sources of whole bytes below 4 GiB exactly what is accepted, reported and consumed. Two deviations from the standard: PTS_DTS_flags 01 is accepted (C104_false), and of the seven other stream ids without header only the first six bytes are read (C63_false). C104_partial is the claim without these. Above 4 GiB lengths wrap (C24_false)"
  },
  {
   "property": "C105",
   "status": "partial",
   "theorems": [
    "Mpeg.PS.C105_exact",
    "Mpeg.PS.C105_partial",
    "Mpeg.PS.C105_false"
   ],
   "note": "C105_exact says exactly what is accepted, reported and consumed. It deviates from the standard in header_length, which is not checked, and in the values of the stuffing bytes (C105_false); C105_partial is the claim for headers reported with the right header_length, stuffing of any value"
  },
  {
   "property": "C106",
   "status": "partial",
   "theorems": [
    "Mpeg.PS.C106_first",
    "Mpeg.PS.C106_covers",
    "Mpeg.PS.C106_hidden",
    "Mpeg.PS.C106_orderly",
    "Mpeg.PS.C106_orderly_met",
    "Mpeg.PS.C106_again",
    "Mpeg.PS.C106_crash",
    "Mpeg.PS.C106_can_crash",
    "Mpeg.PS.C106_again_false",
    "Mpeg.PS.C106_err_kept"
   ],
   "note": "First run: proved, together with the correspondence to the interleavings of C32. A panic can show as the orderly end of a complete program before the crash (C106_orderly), and Go cannot be called again: no pack or packet comes and the program crashes (C106_again, C106_crash, C106_again_false)"
  },
  {
   "property": "C107",
   "status": "proved",
   "theorems": [
    "Mpeg.Video.C107",
    "Mpeg.Video.C107_harmless",
    "Mpeg.Video.C107_mpeg1"
   ],
   "note": "the fuel parameters of C107_harmless bound the rounds of loops by the bits left, as in C77; C107 and C107_mpeg1 hold for all"
  },
  {
   "property": "C108",
   "status": "partial",
   "theorems": [
    "Mpeg.TS.C108_live",
    "Mpeg.TS.C108_fair_exists",
    "Mpeg.TS.C108_lockstep",
    "Mpeg.TS.C108_abandoned",
    "Mpeg.TS.C108_done_unread"
   ],
   "note": "liveness proved (C108_live; its hypotheses can be met for every demuxer and source, C108_fair_exists). False: a consumer that stops receiving stops all others, no channel is closed and the goroutine stays (C108_lockstep, C108_abandoned); it also stays if nobody receives from done (C108_done_unread)"
  },
  {
   "property": "C109",
   "status": "partial",
   "theorems": [
    "Mpeg.PS.C109_live",
    "Mpeg.PS.C109_live_program",
    "Mpeg.PS.C109_fair_exists",
    "Mpeg.PS.C109_lockstep",
    "Mpeg.PS.C109_packs_only",
    "Mpeg.PS.C109_program"
   ],
   "note": "liveness proved. The last sentence is false: while a packet of a pack is unread, no later pack comes, Packs() is not closed and the done channel yields nothing (C109_lockstep; C109_packs_only and C109_program for a consumer that receives packs only)"
  },
  {
   "property": "C110",
   "status": "proved",
   "theorems": [
    "Mpeg.PS.C110_payloads",
    "Mpeg.PS.C110_progress",
    "Mpeg.PS.C110_terminates",
    "Mpeg.PS.C110_program",
    "Mpeg.PS.C110_ends"
   ],
   "note": "for every source: the packs and packets of the sequential reading (Hist, as in C32). A packet on which pes.NewPacket panics ends the program (C64, C106); C110_progress is about runs without one, and well-formed programs have none (C110_program)"
  },
  {
   "property": "C111",
   "status": "partial",
   "theorems": [
    "Mpeg.Video.C111_distinct",
    "Mpeg.Video.C111_shown",
    "Mpeg.Video.C111_partial",
    "Mpeg.Video.C111_whole",
    "Mpeg.Video.C111_cost",
    "Mpeg.Video.C111_false"
   ],
   "note": "false as stated: of every group of pictures exactly the pictures before the first missing one (in display order) are returned; the ones behind it are decoded and never returned (C111_false). The damage ends with the group of pictures: every later group without gaps is returned completely (C111_partial with C111_whole)"
  },
  {
   "property": "C112",
   "status": "partial",
   "theorems": [
    "Mpeg.TS.C112_transport",
    "Mpeg.TS.C112_pid_stream",
    "Mpeg.TS.C112_unit",
    "Mpeg.PES.C112_pes",
    "Mpeg.PES.C112_pes_stream_partial",
    "Mpeg.PS.C112_program",
    "Mpeg.PS.C112_stall_partial",
    "Mpeg.PS.C112_forever"
   ],
   "note": "proved for the three transport stream and PES readers and for program streams with end code. False for program streams without one: Read swallows the end and every error of the source, and ReadAll never returns (C112_forever); C112_stall_partial says exactly what the Reads return. The payload unit reader drops the last unit (C14_false) and padding repeats a payload (C26_false)"
  },
  {
   "property": "C113",
   "status": "partial",
   "theorems": [
    "Mpeg.Pipe.C113_partial",
    "Mpeg.Pipe.C113_pictures_partial",
    "Mpeg.Pipe.C113_swallow",
    "Mpeg.Pipe.C113_false"
   ],
   "note": "proved for PES packets of known length, possibly followed by one of unknown length at the end of the stream: all payloads are returned, and all pictures (as C75). False for a packet of unknown length that is not the last: everything behind its header is returned as its payload, including the headers of the later packets (C113_swallow in general, C113_false concretely)"
  },
  {
   "property": "C114",
   "status": "partial",
   "theorems": [
    "Mpeg.TS.C114_payload",
    "Mpeg.TS.C114_unit",
    "Mpeg.PES.C114_pes",
    "Mpeg.PS.C114_program_partial",
    "Mpeg.PS.C114_program_false"
   ],
   "note": "proved from every state for the three readers of transport streams and PES packets. False for the program stream reader: it stores bytes and returns 0, nil (C114_program_false); C114_program_partial is what is left"
  },
  {
   "property": "C115",
   "status": "partial",
   "theorems": [
    "Mpeg.TS.C115_exact",
    "Mpeg.TS.C115_units_exact",
    "Mpeg.TS.C115_partial",
    "Mpeg.TS.C115_leak",
    "Mpeg.TS.C115_false"
   ],
   "note": "proved if the packets of the PID carry payload. False otherwise: for a packet without payload (such as one with a clock reference only) the readers return the last payload of the stream again, whatever its PID (C115_leak); C115_exact and C115_units_exact say exactly what both readers return on every stream of well-formed packets"
  },
  {
   "property": "C116",
   "status": "partial",
   "theorems": [
    "Mpeg.TS.C116_partial",
    "Mpeg.TS.C116_duplicate",
    "Mpeg.TS.C116_gap"
   ],
   "note": "false: the readers look at PID, unit start indicator and payload only (C116_partial, for any two streams that agree in these); so a packet that is sent twice is returned twice (C116_duplicate), a gap is not reported (C116_gap), and payloads of damaged and scrambled packets are returned like all others"
  },
  {
   "property": "C117",
   "status": "partial",
   "theorems": [
    "Mpeg.Pipe.C117_join",
    "Mpeg.Pipe.C117_partial",
    "Mpeg.Pipe.C117_pictures_partial",
    "Mpeg.Pipe.C117_foreign"
   ],
   "note": "proved for SkipUntil(IsPID(k).And(IsPayloadUnitStart)), with PES packets as in C113 and pictures as in C87. False for SkipUntil(IsPayloadUnitStart): the payload of a unit start on another PID is returned first (C117_foreign)"
  },
  {
   "property": "C118",
   "status": "partial",
   "theorems": [
    "Mpeg.Video.C118_pieces",
    "Mpeg.Video.C118_partial",
    "Mpeg.Video.C118_none"
   ],
   "note": "as C71; at least one slice of the picture arrives. False if none does: an error is reported and the start code behind the picture is consumed (C118_none)"
  },
  {
   "property": "C119",
   "status": "partial",
   "theorems": [
    "Mpeg.Video.C119_partial",
    "Mpeg.Video.C119_false"
   ],
   "note": "the streams of C75; at least one slice of every picture arrives. False otherwise: Next reports an error, and complete pictures are not returned either (C119_false)"
  },
  {
   "property": "C120",
   "status": "partial",
   "theorems": [
    "Mpeg.Video.C120_pictures",
    "Mpeg.Video.C120_three",
    "Mpeg.TS.C120_payload",
    "Mpeg.TS.C120_unit_end",
    "Mpeg.TS.C120_unit_false",
    "Mpeg.PES.C120_payload",
    "Mpeg.PS.C120_pack"
   ],
   "note": "proved for the decoder (three is reached: C120_three) and for the payload readers of transport stream, PES and program stream. False for the payload unit reader: at the end of its input every Read stores the last payload again (C120_unit_end), so what it keeps grows with the number of Reads (C120_unit_false)"
  },
  {
   "property": "C121",
   "status": "partial",
   "theorems": [
    "Mpeg.TS.C121_same",
    "Mpeg.PES.C121_same",
    "Mpeg.TS.C121_packet",
    "Mpeg.PES.C121_packet",
    "Mpeg.TS.C121_packet_accepted",
    "Mpeg.PES.C121_packet_accepted",
    "Mpeg.TS.C121_packet_false",
    "Mpeg.PES.C121_packet_false"
   ],
   "note": "the model with requests is the model without them (C121_same). Every request is below the bound or almost 4 GiB, never in between, and accepted packets request no more than the input had (C121_packet). The bound itself is false: lengths that contradict each other wrap around, 188 and 9 bytes of input request almost 4 GiB (C121_packet_false)"
  },
  {
   "property": "C122",
   "status": "partial",
   "theorems": [
    "Mpeg.TS.C122_progress",
    "Mpeg.TS.C122_retry",
    "Mpeg.TS.C122_noise",
    "Mpeg.TS.C122_noise_packets",
    "Mpeg.PES.C122_progress_partial",
    "Mpeg.PES.C122_stuck",
    "Mpeg.PES.C122_stuck_again",
    "Mpeg.PES.C122_stuck_reader",
    "Mpeg.PES.C122_junk",
    "Mpeg.PES.C122_false",
    "Mpeg.Video.C122_progress_partial",
    "Mpeg.Video.C93"
   ],
   "note": "proved for transport packets. False for PES packets: ErrStartCodePrefixNotFound leaves the input where it is, so every later call reports it again and no packet behind the damage is ever returned (C122_stuck, C122_junk, C122_false); all other errors mean progress (PES.C122_progress_partial). The decoder likewise with ErrUnexpectedStartCode (Video.C122_progress_partial; C93 is the endless case)"
  },
  {
   "property": "C123",
   "status": "partial",
   "theorems": [
    "Mpeg.Pipe.C123_units",
    "Mpeg.Pipe.C123_pictures_partial",
    "Mpeg.Pipe.C123_known",
    "Mpeg.Pipe.C123_known_header",
    "Mpeg.Pipe.C123_false"
   ],
   "note": "proved for payload units with PES packets of unknown length whose header is in the first transport packet (as C14, the last unit is not delivered; the pictures as C119). False for PES packets of known length: the payload is completed with bytes of what follows, and unless a start code prefix happens to come next nothing of the rest of the stream is ever delivered (C123_known, C123_known_header, C123_false)"
  },
  {
   "property": "C124",
   "status": "partial",
   "theorems": [
    "Mpeg.TS.C124_packet",
    "Mpeg.TS.C124_payload_partial",
    "Mpeg.TS.C124_payload_minimal",
    "Mpeg.TS.C124_unit",
    "Mpeg.TS.C124_unit_ready",
    "Mpeg.TS.C124_skip_false",
    "Mpeg.PES.C124_packet_partial",
    "Mpeg.PES.C124_packet_false",
    "Mpeg.PES.C124_reader_partial",
    "Mpeg.PS.C124_pack_partial"
   ],
   "note": "proved for transport packets, the payload unit reader, the payload reader without SkipUntil, PES packets that say where they end, and for the PES and pack readers unless they have read everything there is. False with SkipUntil, where the error of Next is dropped: of a packet of which only the header has arrived the payload of the packet before it is delivered (TS.C124_skip_false); false for PES packets without a length, which take whatever follows (PES.C124_packet_false). The buffering of the bit reader itself is part of its contract"
  },
  {
   "property": "C125",
   "status": "proved",
   "theorems": [
    "Mpeg.Video.C125",
    "Mpeg.Video.C125_picture",
    "Mpeg.Video.C125_calls"
   ],
   "note": "for inputs that end with io.EOF; C125_picture is about pictures read from the input by the call (a picture that was waiting needs no input at all); the input is modelled as bits, so how many bytes the bit reader fetches from the source at once is not part of the statement"
  },
  {
   "property": "C126",
   "status": "partial",
   "theorems": [
    "Mpeg.Video.C126_partial",
    "Mpeg.Video.C126_stream_partial"
   ],
   "note": "for the streams of C75 (restrictions named there); that the pictures do not come earlier is C125_picture"
  },
  {
   "property": "C127",
   "status": "partial",
   "theorems": [
    "Mpeg.Pipe.C127_partial",
    "Mpeg.Pipe.C127_pictures_partial",
    "Mpeg.Pipe.C127_known_partial",
    "Mpeg.Pipe.C127_false"
   ],
   "note": "for payload units with PES packets of unknown length (as C123_units): the pictures are returned exactly from the first unit start behind that packet on, so one unit later than claimed (C127_false). C127_pictures_partial says which pictures of a legal stream these are, C127_known_partial the same for PES packets of known length over the payload reader, where the PES packet has to be complete"
  },
  {
   "property": "C128",
   "status": "partial",
   "theorems": [
    "Mpeg.Video.C128_partial",
    "Mpeg.Video.C128_seek_partial",
    "Mpeg.Video.C128_cut_false"
   ],
   "note": "for the streams of C75 (restrictions named there), a damaged picture that is the first of its coding group (C128_seek_partial: any state that holds the headers in force), and provided the failing call has not read beyond the start of the next group of pictures. Without that proviso the claim is false: when a picture is cut off, the failing call reads into the start code behind it, and AlignTo misses the group of pictures (C128_cut_false)"
  },
  {
   "property": "C129",
   "status": "proved",
   "theorems": [
    "Mpeg.Video.C129_next",
    "Mpeg.Video.C129_plain",
    "Mpeg.Video.C129_alignTo",
    "Mpeg.Video.C129_sequenceHeader",
    "Mpeg.Video.C129_gopHeader",
    "Mpeg.TS.C129_packet",
    "Mpeg.TS.C129_payload",
    "Mpeg.TS.C129_unit",
    "Mpeg.PES.C129_packet",
    "Mpeg.PES.C129_payload",
    "Mpeg.PS.C129_packHeader",
    "Mpeg.PS.C129_payload",
    "Mpeg.Video.C129_next_all",
    "Mpeg.Video.C129_source_all",
    "Mpeg.Video.C129_headers_all",
    "Mpeg.TS.C129_packet_all",
    "Mpeg.PES.C129_packet_all",
    "Mpeg.PES.C129_hidden",
    "Mpeg.PS.C129_pack_all"
   ],
   "note": "the lists are exact: the _all theorems give an input for each error. The converse is false for PES packets: a marker that cannot be read because the source fails is reported as ErrMarkerNotFound (PES.C129_hidden)"
  },
  {
   "property": "C130",
   "status": "partial",
   "theorems": [
    "Mpeg.Video.C130_above",
    "Mpeg.Video.C130_partial",
    "Mpeg.Video.C130_rows_partial",
    "Mpeg.Video.C130_row_false"
   ],
   "note": "the part about whole pictures is for the pictures of C71 (restrictions named there); C130_above is for all slices; that macroblocks of intact slices in the row of a damaged slice are unharmed is false (C130_row_false)"
  },
  {
   "property": "C131",
   "status": "proved",
   "theorems": [
    "Mpeg.Video.C131",
    "Mpeg.Video.C131_gops",
    "Mpeg.Video.C131_align_false"
   ],
   "note": "which pictures are decoded depends on how the reader is moved: AlignTo with the picture start code can pass over a group of pictures header, and an intact picture is lost (C131_align_false)"
  },
  {
   "property": "C132",
   "status": "partial",
   "theorems": [
    "Mpeg.Video.C132_partial",
    "Mpeg.Video.C132_seek_partial",
    "Mpeg.Video.C132_unique"
   ],
   "note": "for the streams of C75 (restrictions named there); the groups of pictures at which decoding is resumed are closed (C87_leading_false), and the failing call does not read on into the next group of pictures (C128_cut_false: otherwise the group is missed). C132_seek_partial: from any state that holds the headers in force; C132_unique: the pictures are determined"
  },
  {
   "property": "C133",
   "status": "proved",
   "theorems": [
    "Mpeg.Video.C133",
    "Mpeg.Video.C133_component",
    "Mpeg.Video.C133_picture",
    "Mpeg.Video.C133_intra"
   ],
   "note": "the bounds are attained (example beside the theorems). C133_intra is about a call of Next that reads one picture with nothing waiting in the store"
  },
  {
   "property": "C134",
   "status": "proved",
   "theorems": [
    "Mpeg.Video.C134",
    "Mpeg.Video.C134_lines",
    "Mpeg.Video.C134_picture",
    "Mpeg.Video.C134_p"
   ],
   "note": "the length of the lines does not change in between; seven lines of the reach are due to predictions that are written to field lines when dct_type is set (C69_field_false)"
  },
  {
   "property": "C135",
   "status": "proved",
   "theorems": [
    "Mpeg.Video.C135",
    "Mpeg.Pipe.C135_ts",
    "Mpeg.Pipe.C135_ps"
   ],
   "note": "Existence is constructive in substance: the coefficients are the rounded forward DCT of each block with the parity of the sum fixed for the mismatch control, coded with the finest quantiser. The bound 4 is from roundings of coefficients and of the inverse transform."
  },
  {
   "property": "C136",
   "status": "proved",
   "theorems": [
    "Mpeg.Video.C136",
    "Mpeg.Video.C136_watch"
   ],
   "note": ""
  },
  {
   "property": "C137",
   "status": "proved",
   "theorems": [
    "Mpeg.Video.C137",
    "Mpeg.Video.C137_watch"
   ],
   "note": ""
  },
  {
   "property": "C138",
   "status": "partial",
   "theorems": [
    "Mpeg.PS.C138_pack",
    "Mpeg.TS.C138_payload_partial",
    "Mpeg.TS.C138_unit_partial",
    "Mpeg.TS.C138_payload_rate",
    "Mpeg.PES.C138_payload_partial",
    "Mpeg.PES.C138_source_partial",
    "Mpeg.PES.C138_payload_rate",
    "Mpeg.PES.C138_stale"
   ],
   "note": "One byte per byte holds only for the program stream reader (C138_pack). The transport stream and PES readers repeat the previous payload for packets without payload; the exact rates are proved as bounds and shown to occur. After an error other than EOP the payload unit reader has no bound at all (C120_unit_false)."
  },
  {
   "property": "C139",
   "status": "proved",
   "theorems": [
    "Mpeg.Video.C139",
    "Mpeg.Video.C139_headers",
    "Mpeg.Video.C139_calls",
    "Mpeg.Video.posBlind_alignTo"
   ],
   "note": "noninterference: a relation between decoder states that leaves out the fields named is kept by every function of the decoder; for the stream form the headers are read from their encodings. progressive_sequence is among the fields without influence, which the standard does not intend (see C75_height_false)"
  },
  {
   "property": "C140",
   "status": "partial",
   "theorems": [
    "Mpeg.Video.C140_partial",
    "Mpeg.Video.C140_slices_partial"
   ],
   "note": "partial as C75 and C71: streams in `GroupsCode` (progressive 4:2:0 frame pictures as described there); decoders are then shown to agree since the pictures of the reference reconstruction depend on the content only"
  },
  {
   "property": "C141",
   "status": "proved",
   "theorems": [
    "Mpeg.Video.C141",
    "Mpeg.Video.C141_group"
   ],
   "note": "relational proof over all inputs; complements C87 (legal streams). A group that begins with a P picture shows that the condition is needed (example beside the theorem)"
  },
  {
   "property": "C142",
   "status": "proved",
   "theorems": [
    "Mpeg.Video.C142",
    "Mpeg.Video.C142_file"
   ],
   "note": "for all inputs, in contrast to C87 (legal streams). hok and hg are stated about stepHead, which is step up to the picture data (step_head); the example beside the theorem without a group header shows that hg is needed"
  },
  {
   "property": "C143",
   "status": "proved",
   "theorems": [
    "Mpeg.PES.C143_pes",
    "Mpeg.TS.C143_ts"
   ],
   "note": "an equivalence in both directions. The PES side is stated with a grammar of its own (PES/PanicSpec.lean); the TS side uses the model's sync and NewAdaptationField to say what is accepted there (their own characterisations: C03, C103)"
  },
  {
   "property": "C144",
   "status": "proved",
   "theorems": [
    "Mpeg.Pipe.C144_reader",
    "Mpeg.Pipe.C144_pictures",
    "Mpeg.Pipe.C144_carriers"
   ],
   "note": "the classes of multiplexes are those of C76, C113 and C86; outside of them the claim is false (C61_eop_false, C76_eop_false, C86_audio_false). C144_carriers gives TS and PS carriers with known length for up to 65532 bytes in one packet"
  },
  {
   "property": "C145",
   "status": "proved",
   "theorems": [
    "Mpeg.TS.C145_payload",
    "Mpeg.TS.C145_unit",
    "Mpeg.TS.C145_ts_bytes",
    "Mpeg.PES.C145_pes",
    "Mpeg.PS.C145_ps",
    "Mpeg.PES.panicWord_flag",
    "Mpeg.PES.C145_aligned_false"
   ],
   "note": "the hypothesis is on the input alone and is kept by each Read, so that it covers all histories. For PES and program streams the word must be absent at every bit position, because a failed read may leave the reader inside a byte (C145_aligned_false is such a case)"
  },
  {
   "property": "C146",
   "status": "partial",
   "theorems": [
    "Mpeg.Video.C146_slice",
    "Mpeg.Video.C146_slices",
    "Mpeg.Video.C146_alignTo",
    "Mpeg.Video.clean_word",
    "Mpeg.Video.C146_level_false",
    "Mpeg.Video.C146_scale_false",
    "Mpeg.Video.C146_fcode_false",
    "Mpeg.Video.C146_ten_false"
   ],
   "note": "false without the restriction on levels (C146_level_false: level 0 in an escape, accepted by the decoder, imitates a group start code) and on f_code (C146_fcode_false: a reserved value, accepted by the decoder, does the same in concealment vectors; C146_ten_false: 9 is the greatest bound for the syntax). Every restricted slice is a slice in the sense of C97 (clean_word). Headers between the slices are in C147"
  },
  {
   "property": "C147",
   "status": "partial",
   "theorems": [
    "Mpeg.Video.C147_element",
    "Mpeg.Video.C147_stream",
    "Mpeg.Video.C147_absent",
    "Mpeg.Video.C147_alignTo",
    "Mpeg.Video.C147_seek_partial",
    "Mpeg.Video.C147_group_partial",
    "Mpeg.Video.C147_marker_false",
    "Mpeg.Pipe.C147_transport_partial",
    "Mpeg.Pipe.C147_program_partial"
   ],
   "note": "false without the restrictions on field values (C147_marker_false: accepted by the decoder, imitates a picture start code). The theorems on Next are partial as C87 and C128 are; for them the hypothesis that no code occurs in what is skipped is now derived instead of assumed"
  },
  {
   "property": "C148",
   "status": "partial",
   "theorems": [
    "Mpeg.Video.C148_gap",
    "Mpeg.Video.C148_alignTo",
    "Mpeg.Video.C148_again",
    "Mpeg.Video.C148_seek_partial",
    "Mpeg.Pipe.C148_transport_partial",
    "Mpeg.Video.C148_gaps",
    "Mpeg.Video.C148_resume_partial",
    "Mpeg.Pipe.C148_lost_partial",
    "Mpeg.Video.C148_picture_false",
    "Mpeg.Video.C148_false"
   ],
   "note": "start codes and AlignTo: in full, for the streams of C147 (C148_false shows that the exception in the statement is needed; C148_picture_false that any number of gaps and the picture start code do not go together). The theorems on Next are partial as C87 and C123 are"
  },
  {
   "property": "C149",
   "status": "proved",
   "theorems": [
    "Mpeg.Video.C149",
    "Mpeg.Pipe.C149_transport",
    "Mpeg.Pipe.C149_program"
   ],
   "note": "existence of a coding for all images, no hypotheses left; transport streams with PES packets of unknown length (as C123)"
  },
  {
   "property": "C150",
   "status": "partial",
   "theorems": [
    "Mpeg.Video.C150_partial",
    "Mpeg.Video.C150_false",
    "Mpeg.Video.C150_nothing",
    "Mpeg.Video.C150_count"
   ],
   "note": "false as stated: the frame counter is reset by group of pictures headers only, so of a group of pictures without header only the pictures beyond the length of the longest group since the last header are returned (C150_partial: exactly what is returned, for every such stream); if it is not longer, all of it is decoded and dropped (C150_false)"
  },
  {
   "property": "C151",
   "status": "proved",
   "theorems": [
    "Mpeg.Video.C151",
    "Mpeg.Video.C151_calls"
   ],
   "note": "on the model with pointers of C84; the application of `History` does everything that is possible through the API"
  },
  {
   "property": "C152",
   "status": "proved",
   "theorems": [
    "Mpeg.Video.C152",
    "Mpeg.Video.C152_all",
    "Mpeg.Video.C152_headers"
   ],
   "note": "`cutGops` splits the pictures at the headers of groups of pictures; C152_all and C152_headers show that it does"
  },
  {
   "property": "C153",
   "status": "proved",
   "theorems": [
    "Mpeg.Video.C153",
    "Mpeg.Video.C153_two"
   ],
   "note": "C153_two is the form for two streams"
  },
  {
   "property": "C154",
   "status": "proved",
   "theorems": [
    "Mpeg.Video.C154"
   ],
   "note": "generalises C153_two"
  },
  {
   "property": "C155",
   "status": "proved",
   "theorems": [
    "Mpeg.Video.C155",
    "Mpeg.Video.C155_groups",
    "Mpeg.Video.C155_low_delay",
    "Mpeg.Video.C155_any_state"
   ],
   "note": "the lower bound that goes with C152; C155_any_state is the form for a decoder in any state, from the next header of a group of pictures on"
  }
 ]
}