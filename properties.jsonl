{"id": "C01", "title": "TS payload-only packet round trip", "statement": "For every combination of transport-packet header fields and every 184-byte payload, ts.NewPacket / Packet.Next on the 188 bytes that ISO 13818-1 assigns to it (adaptation_field_control = 01), followed by arbitrary further data, succeeds, reports exactly those header fields and that payload, and leaves the bit reader positioned exactly on the following data.", "quantifier": "all header field values (PID 13 bit, flags, scrambling, continuity counter), all 184-byte payloads, all following bits", "why_tests_cant": "2^24 headers times 256^184 payloads; the test suite parses six fixed packets", "anchors": ["ts/packet.go:NewPacket", "ts/packet.go:Packet.Next"]}
{"id": "C02", "title": "TS packet with adaptation field round trip", "statement": "For every adaptation field without an extension (all eight flags, PCR, OPCR, splice countdown, transport private data, any amount of stuffing) and adaptation_field_control 10 or 11, Packet.Next reports exactly the encoded values, a payload of 183 minus adaptation_field_length bytes when 11, and consumes exactly the 188 bytes of the packet.", "quantifier": "all flag combinations, field values, private data contents and stuffing lengths that fit, all payloads, all following data", "why_tests_cant": "one adaptation-field packet is tested, with no optional field present", "anchors": ["ts/packet.go:Packet.Next", "ts/adaptation_field.go:newAdaptationField", "ts/adaptation_field.go:newTransportPrivateData"]}
{"id": "C03", "title": "TS resynchronisation window", "statement": "Starting on a byte boundary, if the next 0x47 byte is g bytes away, Packet.Next parses the packet that starts there when g <= 187 and returns ErrNoSyncByte (having discarded exactly 188 bytes) when g >= 188; from a non-aligned position it first discards the rest of the current byte.", "quantifier": "all garbage prefixes without a sync byte, of every length, and all packets following", "why_tests_cant": "off-by-one at 187/188 and all garbage contents", "anchors": ["ts/packet.go:isAligned", "ts/packet.go:realign", "ts/packet.go:Packet.Next"]}
{"id": "C04", "title": "TS packet framing is conserved", "statement": "Whenever Packet.Next succeeds on byte-aligned input starting with 0x47, it has consumed exactly 188 bytes, so the following packet is found without resynchronisation.", "quantifier": "all byte streams on which Next succeeds", "why_tests_cant": "ranges over every malformed or exotic adaptation field", "anchors": ["ts/packet.go:Packet.Next", "ts/adaptation_field.go:newAdaptationField", "ts/adaptation_field.go:newAdaptationExt"]}
{"id": "C05", "title": "Truncated TS packets are never accepted", "statement": "On every proper prefix of a well-formed payload-only packet Packet.Next returns a non-nil error: io.EOF on the empty input, an end-of-input error on every other prefix.", "quantifier": "all packets and all truncation points at byte granularity", "why_tests_cant": "every cut point of every packet; the tests cut one packet at one place", "anchors": ["ts/packet.go:Packet.Next"]}
{"id": "C06", "title": "TS parsing never panics", "statement": "Packet.Next returns (possibly with an error) instead of panicking on every input.", "quantifier": "all byte streams", "why_tests_cant": "the space of malformed packets", "anchors": ["ts/packet.go:Packet.Next"]}
{"id": "C07", "title": "A packet without payload reports no payload", "statement": "After Packet.Next reads a packet whose adaptation_field_control says there is no payload (00 or 10), the packet carries no payload bytes, whatever the Packet value held before.", "quantifier": "all previous packet states and all payload-less packets", "why_tests_cant": "depends on the history of the reused Packet", "anchors": ["ts/packet.go:Packet.Next", "ts/payload_reader.go:payloadReader.Read", "ts/payload_unit_reader.go:payloadUnitBuffer.fill"]}
{"id": "C08", "title": "PCR and OPCR values", "statement": "PCR and OPCR are reported as base*300+extension for every 33-bit base and 9-bit extension, without overflow.", "quantifier": "all 2^42 clock values", "why_tests_cant": "2^42 values", "anchors": ["ts/adaptation_field.go:newAdaptationField"]}
{"id": "C09", "title": "Adaptation field extension fields", "statement": "For every adaptation field extension the legal time window, piecewise rate, splice type and 33-bit DTS_next_AU are reported exactly, and the bytes of the extension are consumed exactly.", "quantifier": "all flag combinations and field values, all amounts of reserved bytes", "why_tests_cant": "2^70 extensions; none is tested", "anchors": ["ts/adaptation_field.go:newAdaptationExt"]}
{"id": "C10", "title": "Packet testers form a Boolean algebra", "statement": "IsPID, IsPayloadUnitStart, Not, And and Or denote the pointwise Boolean operations: a composed tester accepts a packet exactly when the Boolean formula does, for every nesting.", "quantifier": "all tester expressions of any depth, all packets", "why_tests_cant": "unbounded nesting", "anchors": ["ts/packet_tester.go"]}
{"id": "C11", "title": "TS payload reader delivers exactly the matching payload bytes", "statement": "For every sequence of packets and every sequence of Read buffer sizes, the bytes returned by the successive Reads of ts.NewPayloadReader(source, where), concatenated, are a prefix of the concatenated payloads of the packets accepted by where, in order, and all of them once the reader reports the end of input; the split into Reads does not matter.", "quantifier": "all packet sequences, all testers, all Read schedules", "why_tests_cant": "the product of streams and schedules is unbounded", "anchors": ["ts/payload_reader.go:payloadReader.Read"]}
{"id": "C12", "title": "TakeWhile bounds the TS payload reader", "statement": "With TakeWhile(t) set, the reader delivers the matching payloads up to and including the first packet rejected by t and then reports io.EOF for ever, whatever the Read schedule.", "quantifier": "all packet sequences, testers and Read schedules", "why_tests_cant": "depends on how the buffer sizes fall on packet boundaries", "anchors": ["ts/payload_reader.go:payloadReader.Read", "ts/payload_reader.go:payloadReader.TakeWhile"]}
{"id": "C13", "title": "SkipUntil on the TS payload reader", "statement": "With SkipUntil(t) set, output starts with the first packet accepted by t; if there is no such packet Read reports the end of the input.", "quantifier": "all packet sequences and testers", "why_tests_cant": "includes streams in which the condition is never met", "anchors": ["ts/payload_reader.go:payloadReader.realign", "ts/payload_reader.go:payloadReader.SkipUntil"]}
{"id": "C14", "title": "Payload units are reassembled exactly", "statement": "ts.NewPayloadUnitReader(source, where) delivers, for every packet sequence and every Read schedule, the payload units one after another: each unit is the concatenation of the payloads of the matching packets from one payload-unit-start packet up to the next, terminated by exactly one EOP error, and every unit of the stream is delivered.", "quantifier": "all packet sequences, testers, Read schedules", "why_tests_cant": "unbounded streams and schedules, including empty units and the final unit", "anchors": ["ts/payload_unit_reader.go:payloadUnitBuffer.Read", "ts/payload_unit_reader.go:payloadUnitBuffer.fill"]}
{"id": "C15", "title": "Nothing precedes the first payload unit start", "statement": "Packets before the first matching packet with payload_unit_start_indicator contribute nothing to the output of the payload unit reader, and packets rejected by the tester never do.", "quantifier": "all packet sequences", "why_tests_cant": "unbounded prefixes", "anchors": ["ts/payload_unit_reader.go:payloadUnitBuffer.fill"]}
{"id": "C16", "title": "Demuxer delivers each channel its filtered packets in order", "statement": "Under every scheduling of the consumers, each channel created with Where receives a prefix of the packets of the stream (between skip and take bounds) accepted by its tester, in stream order, each exactly once, and all of them when the demuxer finishes.", "quantifier": "all packet streams, all sets of registered channels, all interleavings", "why_tests_cant": "scheduling nondeterminism", "anchors": ["ts/demuxer.go:Demuxer.Go", "ts/demuxer.go:Demuxer.Where"]}
{"id": "C17", "title": "Demuxer SkipUntil / TakeWhile window", "statement": "The demuxer delivers exactly the packets from the first one accepted by SkipUntil (which is delivered unconditionally) up to, not including, the first later one rejected by TakeWhile.", "quantifier": "all packet streams and testers", "why_tests_cant": "unbounded streams", "anchors": ["ts/demuxer.go:Demuxer.Go"]}
{"id": "C18", "title": "Demuxer termination protocol", "statement": "Under every interleaving, when the stream ends or TakeWhile stops it, every registered channel is closed exactly once, after its last packet, the done channel then yields exactly one value, nothing is sent after a close, and Err() is the stream error (nil if TakeWhile stopped it).", "quantifier": "all interleavings", "why_tests_cant": "scheduling nondeterminism", "anchors": ["ts/demuxer.go:Demuxer.Go", "ts/demuxer.go:Demuxer.Err"]}
{"id": "C19", "title": "Delivered packets are not overwritten", "statement": "A packet received from a demuxer channel keeps its contents while the consumer uses it.", "quantifier": "all interleavings of the demuxer with a consumer that looks at the packet later", "why_tests_cant": "a data race that needs a particular schedule", "anchors": ["ts/demuxer.go:Demuxer.Go"]}
{"id": "C20", "title": "PacketChannel transformers", "statement": "PayloadOnly forwards the payloads of the packets it receives, in order, one for one; PayloadUnit forwards one buffer per completed payload unit.", "quantifier": "all packet sequences and schedules", "why_tests_cant": "unbounded sequences", "anchors": ["ts/packet_channel.go", "pes/packet_channel.go"]}
{"id": "C21", "title": "PES packet round trip", "statement": "For every stream id that carries a header, every header (no timestamps, PTS, or PTS+DTS; optional extension with private data and P-STD buffer; any amount of stuffing) and every payload, pes.Packet.Next on the encoded packet followed by arbitrary data reports exactly the encoded header fields and payload and leaves the reader on the following data.", "quantifier": "all header values, payloads and following data", "why_tests_cant": "unbounded; one fixed packet is tested", "anchors": ["pes/packet.go:Packet.Next", "pes/header.go:readHeader", "pes/extension.go:readExtension"]}
{"id": "C22", "title": "PES time stamps", "statement": "The reported PTS/DTS equals the 33-bit value in the bitstream.", "quantifier": "all 2^33 time stamps", "why_tests_cant": "2^33 values", "anchors": ["pes/header.go:readTimeStamp"]}
{"id": "C23", "title": "Unbounded PES packets take the rest of the unit", "statement": "A PES packet with PES_packet_length = 0 yields as payload all remaining bytes of its source unit and no error, whether the unit ends with io.EOF or ts.EOP.", "quantifier": "all headers, payloads and unit ends", "why_tests_cant": "unbounded payloads", "anchors": ["pes/packet.go:Packet.Next"]}
{"id": "C24", "title": "PES packets consume exactly their length", "statement": "If Packet.Next succeeds on a packet with non-zero PES_packet_length L of a stream id with a PES header or of a padding stream, exactly 6+L bytes have been consumed.", "quantifier": "all byte streams on which Next succeeds", "why_tests_cant": "all malformed header lengths", "anchors": ["pes/packet.go:Packet.Next", "pes/header.go:readHeader"]}
{"id": "C25", "title": "PES markers and stuffing are checked", "statement": "A PES header with a wrong '10' marker, a wrong time stamp prefix or marker bit, or a stuffing byte different from 0xFF is rejected with ErrMarkerNotFound or ErrInvalidStuffingByte; no such packet is accepted.", "quantifier": "all headers with at least one such defect", "why_tests_cant": "all single and combined defects at all positions", "anchors": ["pes/header.go:readHeader", "pes/header.go:readTimeStamp", "pes/header.go:readStuffingBytes"]}
{"id": "C26", "title": "PES payload reader delivers exactly the payloads", "statement": "For every sequence of PES packets and every Read schedule the output of pes.NewPayloadReader is the concatenation of the payloads; padding packets contribute nothing.", "quantifier": "all packet sequences and Read schedules", "why_tests_cant": "unbounded streams and schedules", "anchors": ["pes/payload_reader.go:payloadReader.Read"]}
{"id": "C27", "title": "Stream ids with a PES header", "statement": "A packet is parsed with the optional PES header exactly when its stream id is not one of the eight ids that ISO 13818-1 excludes.", "quantifier": "all stream ids", "why_tests_cant": "all 256 ids through the parser", "anchors": ["pes/stream_assigments.go:hasPESHeader", "pes/packet.go:Packet.Next"]}
{"id": "C28", "title": "Program stream pack header round trip", "statement": "For every SCR base and extension, mux rate, and stuffing length 0..7 with arbitrary stuffing bytes, ps.NewPackHeader on the encoded header followed by data reports exactly the encoded values and stops exactly at the following data.", "quantifier": "all field values and following data", "why_tests_cant": "2^64 headers", "anchors": ["ps/pack_header.go:NewPackHeader"]}
{"id": "C29", "title": "Program stream system header round trip", "statement": "For every system header with any number of stream entries the parsed header reports the encoded rate bound, audio bound, video bound, flags and stream entries.", "quantifier": "all field values, all stream lists of any length", "why_tests_cant": "unbounded list of streams", "anchors": ["ps/system_header.go:readSystemHeader"]}
{"id": "C30", "title": "Start codes: Check never consumes, Assert consumes exactly on match", "statement": "StartCode.Check (ps and video) never moves the reader and is true exactly when the next 32 bits are the code; Assert succeeds exactly then, consuming 32 bits, and otherwise consumes nothing and returns ErrUnexpectedStartCode. ExtensionID behaves alike with 4 bits.", "quantifier": "all codes, all streams, all reader positions", "why_tests_cant": "2^32 codes and arbitrary positions", "anchors": ["ps/start_code.go", "video/start_codes.go", "video/extension_id.go"]}
{"id": "C31", "title": "Program stream reader delivers exactly the payloads", "statement": "For every well-formed program stream (packs of PES packets, optionally with system headers, ended by a program end code) and every Read schedule, ps.NewPackReader delivers the concatenated PES payloads and then io.EOF; bytes written into the caller's buffer are always counted.", "quantifier": "all program streams and Read schedules", "why_tests_cant": "unbounded streams and schedules", "anchors": ["ps/pack_reader.go:packreader.Read"]}
{"id": "C32", "title": "Program stream decoder protocol", "statement": "Under every interleaving ps.Decoder delivers the packs in order, each pack's packets in order on its own channel which is closed before the next pack is announced, and finally exactly one done value that is true exactly when the stream ended with a program end code.", "quantifier": "all program streams and interleavings", "why_tests_cant": "scheduling nondeterminism of two goroutines and two consumers", "anchors": ["ps/decoder.go:decoder.Go", "ps/pack.go:readPack"]}
{"id": "C33", "title": "Slice start codes", "statement": "IsSlice holds exactly for the codes 0x00000101..0x000001AF.", "quantifier": "all 32-bit codes", "why_tests_cant": "2^32 codes", "anchors": ["video/start_codes.go:StartCode.IsSlice"]}
{"id": "C34", "title": "Byte alignment to start codes", "statement": "next_start_code succeeds exactly when only zero bytes precede the next 0x000001 prefix after byte alignment and then stops at the prefix; it never consumes a start code; otherwise it reports ErrUnexpectedNonZeroByte or the end of input.", "quantifier": "all streams and bit positions", "why_tests_cant": "unbounded stuffing", "anchors": ["video/next_start_code.go:next_start_code"]}
{"id": "C35", "title": "AlignTo finds the first occurrence", "statement": "VideoSequence.AlignTo(code) stops at the first byte-aligned occurrence of the code at or after the current position, consumes nothing of it, and reports an end-of-input error when there is none; it always terminates.", "quantifier": "all streams, codes, positions", "why_tests_cant": "unbounded streams", "anchors": ["video/video_sequence.go:VideoSequence.AlignTo"]}
{"id": "C36", "title": "Sequence header round trip", "statement": "ReadSequenceHeader reports exactly the encoded fields for every header, and the decoder then uses the transmitted quantiser matrices when the load flags are set and the default matrices otherwise.", "quantifier": "all field values and matrices", "why_tests_cant": "2^1100 headers", "anchors": ["video/sequence_header.go:ReadSequenceHeader", "video/sequence_header.go:VideoSequence.sequence_header"]}
{"id": "C37", "title": "Picture dimensions", "statement": "Size() reports horizontal_size = extension*4096 + value (14 bit) and likewise vertically for every sequence header / extension pair; the decoded frame buffer has both dimensions rounded up to the next multiple of 16.", "quantifier": "all size values", "why_tests_cant": "2^28 sizes", "anchors": ["video/video_sequence.go:VideoSequence.Size", "video/picture_data.go:createFrameBuffer"]}
{"id": "C38", "title": "Sequence extension round trip", "statement": "The sequence extension parser reports every field exactly for all values and rejects a zero marker bit with ErrMissingMarkerBit.", "quantifier": "all field values", "why_tests_cant": "2^44 extensions", "anchors": ["video/sequence_extension.go:sequence_extension"]}
{"id": "C39", "title": "GOP header and time code", "statement": "ReadGOPHeader followed by TimeCode() yields exactly the drop-frame flag, hours, minutes, seconds, pictures, closed_gop and broken_link that were encoded, for every header.", "quantifier": "all 2^27 headers", "why_tests_cant": "2^27 headers times contexts", "anchors": ["video/group_of_pictures_header.go:ReadGOPHeader", "video/group_of_pictures_header.go:GroupOfPicturesHeader.TimeCode"]}
{"id": "C40", "title": "Picture header round trip", "statement": "The picture header parser recovers temporal reference, coding type, vbv delay, the P/B vector fields and any number of extra information bytes.", "quantifier": "all field values, all extra-information lists", "why_tests_cant": "unbounded list of extra bytes", "anchors": ["video/picture_header.go:picture_header"]}
{"id": "C41", "title": "Picture coding extension round trip", "statement": "The picture coding extension parser recovers every field for all values, with or without the composite display block.", "quantifier": "all field values", "why_tests_cant": "2^54 extensions", "anchors": ["video/picture_coding_extension.go:picture_coding_extension"]}
{"id": "C42", "title": "Extension and user data parsing terminates", "statement": "Skipping extension and user data after sequence, group and picture headers terminates on every finite stream.", "quantifier": "all streams, all three positions", "why_tests_cant": "termination on all inputs", "anchors": ["video/extension_and_user_data.go:VideoSequence.extension_and_user_data", "video/user_data.go:VideoSequence.user_data"]}
{"id": "C43", "title": "Quantiser matrix extension", "statement": "After a quant matrix extension each of the four active matrices is the most recently transmitted one that applies to it, for all 16 load-flag combinations and all matrices, and unloaded matrices keep their value.", "quantifier": "all flag combinations and matrices", "why_tests_cant": "16 combinations times 2^2048 matrices", "anchors": ["video/quant_matrix_extension.go:VideoSequence.quant_matrix_extension"]}
{"id": "C44", "title": "Variable length codes decode uniquely", "statement": "Every variable length code table of the video decoder is prefix free; decoding the code word of any table entry followed by arbitrary bits yields that entry and consumes exactly the code word.", "quantifier": "all table entries, all following bits", "why_tests_cant": "all continuations of all code words", "anchors": ["video/macroblock_addressing.go", "video/macroblock_type.go", "video/motion_vectors.go:motionCodeDecoder", "video/coding_block_pattern.go:cbpDecoder", "video/dtc_coefficients.go"]}
{"id": "C45", "title": "DC differentials", "statement": "For every intra DC differential in [-2047, 2047] and luma or chroma, decoding its size code and differential bits yields the differential, and the predictor is updated to the new DC value.", "quantifier": "all differentials and predictors", "why_tests_cant": "all values in context", "anchors": ["video/block.go:block.read"]}
{"id": "C46", "title": "Run/level coefficient decoding", "statement": "A block coded as any sequence of (run, level) events - by table code or by escape - that fits in 64 coefficients, closed by end of block, decodes to exactly that coefficient sequence with zeros elsewhere, for both coefficient tables.", "quantifier": "all event sequences, both tables, intra and non-intra", "why_tests_cant": "unbounded number of event sequences", "anchors": ["video/block.go:block.read", "video/dtc_coefficients.go:newDCTCoefficientDecoder"]}
{"id": "C47", "title": "Malformed blocks are reported, not fatal", "statement": "Reading a block whose runs exceed 64 coefficients returns an error instead of panicking.", "quantifier": "all bit streams", "why_tests_cant": "all overlong run sequences", "anchors": ["video/block.go:block.read"]}
{"id": "C48", "title": "Inverse scan is a permutation", "statement": "Both scan tables are permutations of the 64 coefficient positions, so the inverse scan loses no coefficient.", "quantifier": "both scan orders, all blocks", "why_tests_cant": "all blocks", "anchors": ["video/decode_block.go:scan", "video/decode_block.go:block.decode_block"]}
{"id": "C49", "title": "Inverse quantisation, saturation and mismatch control", "statement": "For every block, quantiser scale and matrix the reconstructed coefficients equal the ISO 13818-2 7.4 formula, all lie in [-2048, 2047], and their sum is odd; no 32-bit overflow occurs for any coefficient that can be decoded from the bitstream.", "quantifier": "all coefficient blocks, scales, matrices", "why_tests_cant": "2^700 blocks", "anchors": ["video/decode_block.go:block.decode_block"]}
{"id": "C50", "title": "IDCT of a DC-only block", "statement": "The inverse DCT of a block whose only non-zero coefficient is dc is the constant (dc+4)>>3 at all 64 positions, for every dc in the saturated range.", "quantifier": "all dc values", "why_tests_cant": "all values; exactness of rounding", "anchors": ["video/idct.go:block.idct"]}
{"id": "C51", "title": "IDCT accuracy and absence of overflow", "statement": "For every block of coefficients in the range of valid video the 32-bit fixed-point IDCT does not overflow and each sample is within 1 of the exact real-valued inverse DCT.", "quantifier": "all coefficient blocks in range", "why_tests_cant": "exponentially many blocks", "anchors": ["video/idct.go:block.idct"]}
{"id": "C52", "title": "Clamping", "statement": "Every decoded sample is the nearest value in 0..255 to the reconstructed value.", "quantifier": "all 32-bit sample values", "why_tests_cant": "2^32 values", "anchors": ["video/block.go:block.clamp"]}
{"id": "C53", "title": "Blocks land on their own pixels", "statement": "Writing the four luma and two chroma blocks of macroblock (row, address) changes exactly the pixels of that macroblock; each pixel receives the sample of the block that ISO 13818-2 assigns to it, for frame and field DCT, for every frame size.", "quantifier": "all frame sizes, rows, addresses, both DCT types, all samples", "why_tests_cant": "unbounded frame sizes", "anchors": ["video/macroblock.go:updateFrameSlice", "video/slice.go:VideoSequence.slice"]}
{"id": "C54", "title": "Skipped macroblocks of P pictures are copied from the past frame", "statement": "Skipping n macroblocks in a P picture copies exactly the co-located pixels of those macroblocks from the forward reference and changes nothing else.", "quantifier": "all frame sizes, rows, columns, counts, frames", "why_tests_cant": "unbounded frame sizes", "anchors": ["video/copy_macroblocks.go:pframe_copy_macroblocks"]}
{"id": "C55", "title": "Motion vector reconstruction", "statement": "For every f_code 1..9, every prediction and every vector in the legal range, decoding the standard's code/residual for the difference yields the vector; the reconstructed vector and the stored prediction always stay in the legal range.", "quantifier": "all f_codes, predictions, vectors, and all sequences of updates", "why_tests_cant": "2^30 combinations and unbounded histories", "anchors": ["video/motion_vectors.go:motionVectorData.update_actual", "video/motion_vectors.go:VideoSequence.motion_vectors"]}
{"id": "C56", "title": "Motion compensated prediction", "statement": "With integer vectors pointing inside the reference frame the prediction is the displaced block, with half-sample vectors the average of the 2 or 4 neighbouring samples, with two references the average of both; the prediction is always within 0..255 and reads only inside the reference frame.", "quantifier": "all frames, vectors, positions", "why_tests_cant": "unbounded frames", "anchors": ["video/motion_compensation.go:block.motion_compensation"]}
{"id": "C57", "title": "Reference frame selection", "statement": "In every coding order allowed by ISO 13818-2, a P picture is predicted from the most recent I/P picture and a B picture from the two I/P pictures that surround it in display order, across any number of groups of pictures.", "quantifier": "all legal picture sequences of any length", "why_tests_cant": "unbounded histories", "anchors": ["video/frame_store.go", "video/frame_provider.go:VideoSequence.step"]}
{"id": "C58", "title": "Frames are returned in display order", "statement": "For every legal coding order and any number of groups of pictures, successive calls to Next() return every frame exactly once, in display order.", "quantifier": "all legal picture sequences of any length", "why_tests_cant": "unbounded histories", "anchors": ["video/video_sequence.go:VideoSequence.Next", "video/frame_provider.go:VideoSequence.step", "video/frame_store.go"]}
{"id": "C59", "title": "Coded block pattern", "statement": "For every coded block pattern the set of blocks that is read from the bitstream is exactly the set bits of the pattern (all six for intra macroblocks).", "quantifier": "all patterns, intra or not", "why_tests_cant": "all combinations", "anchors": ["video/coding_block_pattern.go:codedBlockPattern.decode"]}
{"id": "C60", "title": "Macroblock address increments", "statement": "k escape codes followed by the code for v (1..33) advance the macroblock address by exactly 33k+v, for every k.", "quantifier": "all k and v, all following bits", "why_tests_cant": "unbounded k", "anchors": ["video/macroblock.go:VideoSequence.macroblock", "video/macroblock_addressing.go"]}
{"id": "C61", "title": "End to end: transport stream to elementary stream", "statement": "For every transport stream that carries, on one PID and interleaved arbitrarily with packets of other PIDs, a sequence of PES packets, the pipeline NewPayloadUnitReader -> pes.NewPayloadReader delivers the concatenation of the PES payloads under every Read schedule.", "quantifier": "all PES packet sequences, packetisations, interleavings and Read schedules", "why_tests_cant": "the composition of three unbounded dimensions", "anchors": ["ts/payload_unit_reader.go", "pes/payload_reader.go", "pes/packet.go"]}
{"id": "C62", "title": "PES parsing always returns", "statement": "pes.Packet.Next returns a packet or an error for every input: it neither loops nor panics.", "quantifier": "all bit streams and reader errors, all previous packet contents", "why_tests_cant": "one crafted flag combination in 2^48 header bits is enough; termination needs all inputs", "anchors": ["pes/packet.go:Packet.Next", "pes/header.go:readHeader", "pes/extension.go:readExtension"]}
{"id": "C63", "title": "PES packets without header are skipped whole", "statement": "For every stream id that carries no PES header (padding, program stream map, private stream 2, ECM, EMM, ...), Packet.Next leaves the reader directly behind the packet, whatever its length and contents.", "quantifier": "all eight stream ids, all lengths, contents and following data", "why_tests_cant": "lengths and contents are unbounded", "anchors": ["pes/packet.go:Packet.Next", "pes/stream_assigments.go:hasPESHeader"]}
{"id": "C64", "title": "Program stream parsing always returns", "statement": "ps.NewPackHeader and PackReader.Read return for every input: they neither loop nor panic.", "quantifier": "all bit streams and reader errors, all buffer sizes and reader histories", "why_tests_cant": "two nested unbounded loops (stream entries, packets) over arbitrary bits; termination needs all inputs", "anchors": ["ps/pack_header.go:NewPackHeader", "ps/system_header.go:readSystemHeader", "ps/pack_reader.go:packreader.Read"]}
{"id": "C65", "title": "Only well-formed pack headers are accepted", "statement": "If ps.NewPackHeader returns a header without error, the input starts with the pack start code, the 01 bits and six set marker bits at the positions the standard prescribes.", "quantifier": "all bit streams", "why_tests_cant": "acceptance is over all inputs; tests sample corrupted headers", "anchors": ["ps/pack_header.go:NewPackHeader"]}
{"id": "C66", "title": "Video header parsers never panic or loop", "statement": "sequence_header, sequence_extension, ReadGOPHeader, picture_header, picture_coding_extension, quant_matrix_extension, sequence_display_extension, picture_temporal_scalable_extension and user_data return on every input without panicking.", "quantifier": "all bit streams, positions and reader errors", "why_tests_cant": "termination of the unbounded loops (extra information, user data, start code search) needs all inputs", "anchors": ["video/sequence_header.go", "video/sequence_extension.go", "video/group_of_pictures_header.go", "video/picture_header.go", "video/picture_coding_extension.go", "video/quant_matrix_extension.go", "video/user_data.go"]}
{"id": "C67", "title": "VLC tables are those of the standard", "statement": "Every variable length code table of the decoder (macroblock address increment, macroblock types, coded block pattern, motion code, DC sizes, DCT coefficient tables zero and one) maps exactly the codes of ISO/IEC 13818-2 Annex B to the values given there.", "quantifier": "all table entries", "why_tests_cant": "one wrong entry in several hundred is only hit by particular streams", "anchors": ["video/macroblock_addressing.go", "video/macroblock_type.go", "video/coding_block_pattern.go", "video/motion_vectors.go", "video/dtc_coefficients.go"]}
{"id": "C68", "title": "User data", "statement": "user_data returns exactly the bytes between the user data start code and the next byte-aligned start code prefix and stops on that prefix.", "quantifier": "all user data of any length that contains no start code prefix", "why_tests_cant": "unbounded length", "anchors": ["video/user_data.go:VideoSequence.user_data"]}
{"id": "C69", "title": "Macroblocks are reconstructed as prescribed", "statement": "macroblock, on the bits of any legal macroblock, consumes exactly these bits, fills in the skipped macroblocks before it, sets every pixel of the macroblock to the clipped sum of its motion compensated prediction and its decoded difference, changes no other pixel, and leaves the DC predictors, motion vector predictors and quantiser scale that the standard prescribes.", "quantifier": "all macroblock types, address increments, vectors, patterns, coefficients and decoder states", "why_tests_cant": "the product of types, vectors, predictors and coefficients cannot be enumerated; state errors only show several macroblocks later", "anchors": ["video/macroblock.go:VideoSequence.macroblock", "video/block.go", "video/motion_vectors.go", "video/copy_macroblocks.go"]}
{"id": "C70", "title": "Slices are reconstructed as prescribed", "statement": "slice, on the bits of any legal slice, decodes all its macroblocks in order from reset predictors, and stops on the next start code.", "quantifier": "all numbers of macroblocks, skip runs, extra information, quantiser scales and stuffing lengths", "why_tests_cant": "slices have unbounded structure and every macroblock depends on its predecessors", "anchors": ["video/slice.go:VideoSequence.slice"]}
{"id": "C71", "title": "Pictures are reconstructed as prescribed", "statement": "picture_data, on the slices of any legal picture, returns a fresh frame every pixel of which is that of the reference decoder applied to the slices in order, and stops on the start code after the picture.", "quantifier": "all pictures: sizes, numbers and order of slices, references", "why_tests_cant": "unbounded sequences of slices over unbounded frame sizes", "anchors": ["video/picture_data.go:VideoSequence.picture_data"]}
{"id": "C72", "title": "Display and temporal scalability extensions round trip", "statement": "sequence_display_extension and picture_temporal_scalable_extension report every field as coded (the colour description exactly if it is present) and stop on the next start code.", "quantifier": "all field values and any stuffing", "why_tests_cant": "fields of the same width can be swapped without any sample stream noticing", "anchors": ["video/sequence_display_extension.go", "video/picture_temporal_scalable_extension.go"]}
{"id": "C73", "title": "Sequences of extensions and user data", "statement": "extension_and_user_data(i) consumes any sequence of user data and of the extensions the standard allows at place i, in any order and number, applies the quantiser matrices in their order, changes nothing else and stops on the start code that follows.", "quantifier": "all places, all lists of extensions and user data", "why_tests_cant": "lists of unbounded length, each element of unbounded length", "anchors": ["video/extension_and_user_data.go", "video/user_data.go"]}
{"id": "C74", "title": "Reserved extension ids", "statement": "ExtensionID.IsReserved is true exactly for the ids that Table 6-2 of ISO/IEC 13818-2 reserves.", "quantifier": "all 16 ids", "why_tests_cant": "a range with a missing end is only hit by streams that use the missing value", "anchors": ["video/extension_id.go:ExtensionID.IsReserved"]}
{"id": "C75", "title": "Whole video streams", "statement": "Consecutive calls of Next on any legal stream (sequence headers, groups of pictures, I, P and B pictures in coding order with extensions, user data and stuffing) return exactly the pictures of the reference decoder, one per call, in display order, and then the end of stream error.", "quantifier": "all streams of any number of pictures, groups of pictures and repeated sequence headers, all picture sizes", "why_tests_cant": "a picture depends on all earlier ones; streams have unbounded length", "anchors": ["video/video_sequence.go:VideoSequence.Next", "video/frame_provider.go", "video/frame_store.go", "video/picture_data.go"]}
{"id": "C76", "title": "End to end: transport stream to pictures", "statement": "For every transport stream that carries, on one PID among others, PES packets whose payloads together make up a legal video stream, consecutive calls of Next of a VideoSequence on top of pes.NewPayloadReader on top of ts.NewPayloadUnitReader return exactly the pictures of the reference decoder in display order, and then the end of stream error.", "quantifier": "all video streams, all divisions into PES packets and transport packets, all interleavings with other PIDs", "why_tests_cant": "the product of the packetisations of two layers with unbounded streams", "anchors": ["ts/payload_unit_reader.go", "pes/payload_reader.go", "video/video_sequence.go:VideoSequence.Next"]}
{"id": "C77", "title": "Next always returns", "statement": "Next returns (a picture, an error or a panic) on every input and in every state of the decoder, and a picture is only returned if it was waiting in the frame store or if input was consumed.", "quantifier": "all bit streams, chunkings and reader errors, all decoder states", "why_tests_cant": "endless loops on unforeseen input can only be excluded for all inputs at once", "anchors": ["video/video_sequence.go:VideoSequence.Next", "video/frame_provider.go", "video/extension_and_user_data.go", "video/slice.go", "video/picture_data.go"]}
{"id": "C78", "title": "Truncated video streams", "statement": "If the input of the decoder is cut off at any point, consecutive calls of Next return exactly what they return on the whole input, up to one error that reports the end of the input (io.EOF or io.ErrUnexpectedEOF), and io.EOF from then on: no picture that the whole input would not give at the same call, and no panic or hang that the whole input would not show there.", "quantifier": "all inputs, legal or not, all points of truncation, all numbers of calls", "why_tests_cant": "every position of truncation inside every syntax element is a case of its own", "anchors": ["video/video_sequence.go:VideoSequence.Next", "video/frame_provider.go", "video/slice.go", "video/macroblock.go", "video/block.go"]}
{"id": "C79", "title": "The end of the input is final", "statement": "Once Next has reported io.EOF or io.ErrUnexpectedEOF, every later call reports io.EOF.", "quantifier": "all states of the decoder, all inputs without read errors, any number of later calls", "why_tests_cant": "the input can end inside any syntax element, with any pictures in the frame store", "anchors": ["video/video_sequence.go:VideoSequence.Next", "video/frame_provider.go"]}
{"id": "C80", "title": "MPEG-1 streams are refused", "statement": "On a stream whose first sequence header is followed by anything but an extension, Next reports ErrUnsupportedVideoStream_ISO_IEC_11172_2 and has read up to the start code that follows the header.", "quantifier": "all sequence headers, all start codes that may follow, any stuffing and any continuation", "why_tests_cant": "any header with any matrices, followed by any of 255 start codes", "anchors": ["video/frame_provider.go"]}
{"id": "C81", "title": "The reader after a picture", "statement": "When Next returns a picture, either the reader has not moved (the picture had been waiting in the frame store) or the reader stands, byte-aligned, on a complete start code that is not one of a slice.", "quantifier": "all inputs and states of the decoder", "why_tests_cant": "the position after a picture depends on every code word of the picture", "anchors": ["video/picture_data.go", "video/slice.go", "video/next_start_code.go", "video/video_sequence.go:VideoSequence.Next"]}
{"id": "C82", "title": "Pictures are well formed", "statement": "Every picture that Next returns has planes and strides that cover whole macroblocks of some size, with 8 x 8 or 16 x 16 samples of each chroma component in a macroblock, and samples that are bytes; if the call has read anything, that size is the one Size then reports.", "quantifier": "all inputs, all states of a decoder in use (any calls of Next, the bit reader moved in any way)", "why_tests_cant": "the shape of a picture depends on all headers before it and on every copy and block written into it", "anchors": ["video/picture_data.go:createFrameBuffer", "video/macroblock.go:updateFrameSlice", "video/copy_macroblocks.go", "video/frame_store.go", "video/video_sequence.go:VideoSequence.Next"]}
{"id": "C83", "title": "Chroma formats", "statement": "Next never returns a picture that it has decoded in the chroma formats 4:2:2 and 4:4:4, whatever the input; a picture decoded in 4:2:0 has 8 x 8 samples of each chroma component in a macroblock; in the reserved format 0 intra pictures consist of zeros.", "quantifier": "all inputs, all states of a decoder in use", "why_tests_cant": "no test can show that no stream at all gives a picture", "anchors": ["video/macroblock.go", "video/coding_block_pattern.go", "video/picture_data.go:createFrameBuffer"]}
{"id": "C84", "title": "Returned pictures stay as they are", "statement": "A picture that Next has returned is never changed by later calls: looking at all returned pictures after any number of calls shows what each call returned. A caller that writes into a picture which the decoder no longer holds changes nothing that later calls return, and a picture that is neither intra nor predicted is not held once it has been returned.", "quantifier": "all inputs, all numbers of calls, all states of a decoder in use, also after the caller has written into pictures", "why_tests_cant": "whether a buffer is still shared shows only on streams and histories that reuse it", "anchors": ["video/picture_data.go", "video/frame_store.go", "video/frame_provider.go", "video/copy_macroblocks.go", "video/video_sequence.go:VideoSequence.Next"]}
{"id": "C85", "title": "Distance from exact decoding", "statement": "The pictures that Next returns for a stream differ in each sample from those of a decoder with the exact inverse DCT of Annex A (over the reals, rounded) and the roundings of ISO 13818-2 by at most 1 in an I picture, by at most 2 more than the reference picture in a P picture, and by at most 3 more than the reference pictures in a B picture.", "quantifier": "all streams of I, P and B pictures of the supported kind whose blocks have an inverse DCT within [-255, 255]; any number of pictures", "why_tests_cant": "the error of the fixed-point transform and of the two roundings accumulates over pictures and depends on all coefficients and vectors", "anchors": ["video/idct.go", "video/motion_vectors.go", "video/motion_compensation.go", "video/macroblock.go:updateFrameSlice", "video/video_sequence.go:VideoSequence.Next"]}
{"id": "C86", "title": "End to end: program stream to pictures", "statement": "For every program stream the payloads of whose packets together make up a legal video stream, cut anywhere into packets and packs, consecutive calls of Next of the video decoder on top of ps.NewPackReader return the pictures of the stream in display order and then the end of the stream.", "quantifier": "all such program streams, any pack and system headers, any padding packets, any division into packets and packs", "why_tests_cant": "division, stuffing, headers and schedules of Reads of the bit reader in between multiply", "anchors": ["ps/pack_reader.go", "pes/packet.go", "video/video_sequence.go:VideoSequence.Next"]}
{"id": "C87", "title": "Entry points and recovery", "statement": "Whatever has happened before (errors, panics that the caller recovered from, pictures of another size, the end of a sequence, seeking with AlignTo past any data), once the decoder stands at a sequence header that is followed by a group of pictures header and an I picture, where B pictures displayed before the I picture are not predicted from the past (a closed group of pictures), calls of Next return at most two pictures that were still waiting and then exactly the pictures from that point on that decoding from the beginning of the stream would return, in display order, and then the end of the sequence.", "quantifier": "all states of the decoder, all data before the entry point, all streams", "why_tests_cant": "the state left behind by an arbitrary history cannot be enumerated", "anchors": ["video/video_sequence.go:VideoSequence.AlignTo", "video/video_sequence.go:VideoSequence.Next", "video/frame_provider.go", "video/frame_store.go"]}
{"id": "C88", "title": "Several sequences in one stream", "statement": "On a stream of several sequences, each with its own headers and picture size and ended by a sequence end code, calls of Next return the pictures of the first sequence in display order, the end of stream error, the pictures of the second sequence, and so on, and consume everything.", "quantifier": "any number of sequences of any sizes and lengths, from any decoder state without waiting pictures", "why_tests_cant": "what one sequence leaves in the decoder may show only in a particular successor", "anchors": ["video/frame_provider.go", "video/frame_store.go", "video/video_sequence.go:VideoSequence.Next"]}
{"id": "C89", "title": "Noise between transport packets", "statement": "Up to 187 bytes other than the sync byte in front of any packet, and at the end of the stream, make no difference: Packet.Next yields the same packets and the same end, every Read of the payload reader and of the payload unit reader returns the same, the demuxer can produce exactly the same sequences of sends and closes with the same error, and the video decoder on top returns the same pictures.", "quantifier": "all streams of legal packets, all noise of that kind in any places, all testers, buffer sizes and interleavings", "why_tests_cant": "noise can be in any combination of places and the readers keep state across it", "anchors": ["ts/packet.go:Packet.Next", "ts/packet.go:realign", "ts/payload_reader.go", "ts/payload_unit_reader.go", "ts/demuxer.go"]}
{"id": "C90", "title": "Tuning in", "statement": "A recording of a transport or program stream may begin anywhere, in the middle of a payload unit and of the elementary stream. A new video decoder on top of the readers, after AlignTo with the sequence header code, returns from Next exactly the pictures from the next entry point on that decoding from the beginning would give, in display order, and then the end of the stream.", "quantifier": "all such streams and starting points, any noise between transport packets, any division into packets", "why_tests_cant": "the starting point and the divisions into packets multiply; what precedes the entry point is arbitrary data", "anchors": ["ts/payload_unit_reader.go", "pes/payload_reader.go", "ps/pack_reader.go", "video/video_sequence.go:VideoSequence.AlignTo", "video/video_sequence.go:VideoSequence.Next"]}
{"id": "C91", "title": "No byte lost or repeated over any history of Reads", "statement": "On any input, over any number of Reads with buffers of any sizes, also Reads after errors, the bytes delivered so far followed by the bytes the reader holds are exactly the concatenated payloads, in order, of the packets that Next has produced and the filter accepts: no byte is lost, repeated or invented. Every Read fills the buffer or reports an error, and returns unless Next panics on a packet.", "quantifier": "all byte streams, well formed or not, all sources, filters and histories of Reads", "why_tests_cant": "the remainder kept between Reads after errors depends on the whole history and on where damage falls", "anchors": ["ts/payload_reader.go:payloadReader.Read", "ts/payload_unit_reader.go", "pes/payload_reader.go:payloadReader.Read"]}
{"id": "C92", "title": "Truncated PES packets", "statement": "On every proper prefix of a packet, pes.Packet.Next reports an error that tells the end of the input and does not accept the packet; the payload reader delivers exactly the payloads of the complete packets before it and then the error.", "quantifier": "all packets with any fields and payload, all places where the stream is cut, all packets before it", "why_tests_cant": "the cut can fall into any of the optional fields in any combination", "anchors": ["pes/packet.go:Packet.Next", "pes/header.go", "pes/payload_reader.go:payloadReader.Read"]}
{"id": "C93", "title": "The decoder after an unexpected start code", "statement": "A video decoder that has a sequence header and no picture waiting and stands on 32 bits that are not the start code of a picture, a group of pictures or a sequence header, nor the end code, reports ErrUnexpectedStartCode from every further call of Next, changes nothing and consumes nothing; only AlignTo or another reader operation brings it on.", "quantifier": "all decoder states of this kind, all inputs, any number of calls", "why_tests_cant": "a test with some calls cannot show that no later call recovers or changes the state", "anchors": ["video/video_sequence.go:VideoSequence.Next", "video/frame_provider.go"]}
{"id": "C94", "title": "Printed forms", "statement": "TimeCode.String is injective on all time codes and, for the time code of any group of pictures header, has the form HH:MM:SS:FF with ';' before the frames for drop frame; PictureHeader.String and ts.Packet.String tell two values apart exactly if the printed fields (coding type and temporal reference; PID and continuity counter) differ; ChromaFormat.String names each format differently and everything else invalid.", "quantifier": "all time codes, picture headers, packets and chroma formats", "why_tests_cant": "leading zeros and separators matter for particular combinations of field values", "anchors": ["video/group_of_pictures_header.go", "video/picture_header.go", "video/chroma_format.go", "ts/packet.go:Packet.String"]}
{"id": "C95", "title": "Exactly the headers of the standard are accepted", "statement": "Each header function of the video layer succeeds if and only if the data begins with an encoding of a header of the standard (start code, marker bits and matrices included) followed by what next_start_code accepts (alignment with zero bits, zero stuffing bytes, a start code prefix); on everything else it reports an error and neither panics nor hangs. Accepted extension and user data is a list of extensions and user data of the standard, and the matrices and extensions stored are those of that list.", "quantifier": "all inputs; extension and user data: all inputs on a byte boundary whose end is final (nothing can be read behind it)", "why_tests_cant": "the inputs to be refused are the complement of an infinite language", "anchors": ["video/sequence_header.go", "video/sequence_extension.go", "video/group_of_pictures_header.go", "video/picture_header.go", "video/picture_coding_extension.go", "video/extension_and_user_data.go", "video/user_data.go"]}
{"id": "C96", "title": "The exported header functions", "statement": "ReadSequenceHeader and ReadGOPHeader return the header with exactly the encoded fields whatever follows it, and next to it exactly the error of finding the next start code, if any; they return a header if and only if the data begins with one, never a nil header with a nil error, and never panic or hang; with a nil error they agree with the decoder's own header functions.", "quantifier": "all inputs", "why_tests_cant": "a header that is returned together with an error depends on what follows it", "anchors": ["video/sequence_header.go:ReadSequenceHeader", "video/group_of_pictures_header.go:ReadGOPHeader"]}
{"id": "C97", "title": "Exactly the slices and pictures of the standard's syntax are accepted", "statement": "A picture's slices, macroblocks, motion vectors and blocks that follow the syntax of the standard (every optional element present exactly when the standard says so, every code from its table, end of block codes, alignment and stuffing) are never refused with an error: the picture is returned, and the reader stands on the start code behind it, or the decoder panics. Conversely whatever is accepted follows that syntax from the first slice to the start code behind the last, and an error means that the data does not.", "quantifier": "all 4:2:0 pictures of all types and structures, all inputs", "why_tests_cant": "the language is infinite and the inputs to be refused are its complement", "anchors": ["video/slice.go", "video/macroblock.go", "video/block.go", "video/motion_vectors.go", "video/coding_block_pattern.go", "video/picture_data.go"]}
{"id": "C98", "title": "The picture data on which the decoder panics", "statement": "Decoding picture data panics if, and (with enough data behind it) whenever, the data begins with slices in the syntax of the standard up to one of these faults: a slice that starts more than one row below the picture, a block with more coefficients than a block has, a block whose samples end beyond the end of its plane, skipped macroblocks of a P picture without a reference or beyond the end of the picture, a motion vector without a motion type, dual prime prediction, a picture coding type other than I, P and B, or a predicted block (of a macroblock with a vector, or of one skipped in a B picture) for which the vector, reconstructed from those coded since the start of the slice, points to samples that come before the first or after the last sample of the reference component; nothing else panics, and the addresses at which blocks fit are row < H and address < W(8(H-1-row)+1), so a macroblock to the right of the picture does not panic but in the last row.", "quantifier": "all 4:2:0 pictures with f_code 1 to 15 whose references, if there are any, have the size of the picture; all inputs; all earlier decoder states", "why_tests_cant": "that no other data panics is a statement about all inputs; the boundary of the frame buffer depends on row, address, transform type and block", "anchors": ["video/slice.go", "video/macroblock.go", "video/block.go", "video/motion_vectors.go", "video/copy_macroblocks.go", "video/decode_block.go", "video/picture_data.go"]}
{"id": "C99", "title": "Payloads through the demuxer and PayloadOnly", "statement": "Under every interleaving of the demuxer's goroutine, the goroutine of PayloadOnly on one of its channels and the consumers, the consumer of PayloadOnly receives, in order and one for one, the payloads of the packets between the skip and take bounds that pass the tester of the channel, and then the output is closed exactly once; neither goroutine is ever stuck except while it waits for a consumer.", "quantifier": "all streams, testers, channels and schedules", "why_tests_cant": "the two goroutines share one packet: whether a slice is overwritten before the consumer sees it depends on the schedule", "anchors": ["ts/demuxer.go:Demuxer.Go", "ts/packet_channel.go:PacketChannel.PayloadOnly", "ts/packet.go:Packet.Next"]}
{"id": "C100", "title": "Where Next panics", "statement": "If Next panics, whatever the input and the state of the decoder, then the decoder, with the headers and references it has at the panic, has come to a place of the input where there is a sequence scalable extension, or (after a picture header) a copyright, picture display or picture spatial scalable extension, or to picture data that is outside 4:2:0 or whose coding extension is illegal, has references of another size, has no sequence extension because the last one was in error, or begins with one of the faults of C98; and from every state in which no picture waits, a picture whose header, coding extension and data follow each other directly and which has such a fault, or no sequence extension, makes Next panic.", "quantifier": "all inputs whose end is final (nothing can be read behind it), all decoder states, all picture headers", "why_tests_cant": "that there are no other panics is a statement about all inputs and all histories of the decoder", "anchors": ["video/frame_provider.go", "video/video_sequence.go", "video/extension_and_user_data.go", "video/sequence_scalable_extension.go", "video/picture_data.go", "video/slice.go", "video/macroblock.go"]}
{"id": "C101", "title": "Configuring, crashing and restarting the demuxer", "statement": "For every sequence of calls of Where, SkipUntil and TakeWhile before Go, the channel of each Where receives exactly the packets its tester accepts of those in the window of the last SkipUntil and the last TakeWhile, and channels are closed, done yields one value and Err reports the error at the end; a packet on which Next panics does not show as an orderly end of the stream; and after a run is over, Go can be called again.", "quantifier": "all sequences of configuration calls, all sources, all interleavings of the goroutine, the program and the consumers, over any number of runs", "why_tests_cant": "interleavings and call sequences cannot be enumerated; a crash in a goroutine ends the test process", "anchors": ["ts/demuxer.go", "ts/packet_tester.go", "ts/packet.go"]}
{"id": "C102", "title": "Frames coded as two field pictures", "statement": "If every frame of a stream is coded as one picture or as two field pictures, in any mixture with P and B frames and groups of pictures, consecutive calls of Next return one frame for each frame coded, in display order; and if the frames are coded as two intra field pictures, the frame returned shows the lines of the two fields alternately.", "quantifier": "all streams of frame and field pictures (order), all streams of pairs of intra field pictures (samples), any number of frames", "why_tests_cant": "streams of unbounded length; only streams that use field pictures show it, and the frames then have the right size and number", "anchors": ["video/frame_provider.go", "video/frame_store.go", "video/picture_data.go", "video/macroblock.go", "video/picture_coding_extension.go"]}
{"id": "C103", "title": "Exactly the standard's transport packets are accepted", "statement": "At a sync byte on a byte boundary, Next returns a packet without error exactly if the 188 bytes there are a transport packet of ISO/IEC 13818-1 (adaptation field control not reserved, adaptation field with room for the parts its flags announce and filled by stuffing), and it takes exactly those bytes.", "quantifier": "all inputs of whole bytes, all previous contents of the packet", "why_tests_cant": "the rejected inputs are all those outside a language; tests can only sample them", "anchors": ["ts/packet.go:Packet.Next", "ts/adaptation_field.go:newAdaptationField"]}
{"id": "C104", "title": "Exactly the standard's PES packets are accepted", "statement": "On a source of whole bytes, Next succeeds exactly if the input begins with a PES packet of ISO/IEC 13818-1 with the supported optional fields (prefix, stream id, length, header with the right marker bits, stamp prefixes and stuffing, header data length and packet length that agree with the contents), of known or unspecified length, or with a padding packet; what it returns is what that packet contains, and it takes exactly its bytes.", "quantifier": "all inputs of whole bytes below 4 GiB, all previous contents of the packet", "why_tests_cant": "the rejected inputs are all those outside a language; tests can only sample them", "anchors": ["pes/packet.go:Packet.Next", "pes/header.go", "pes/extension.go"]}
{"id": "C105", "title": "Exactly the standard's pack headers are accepted", "statement": "NewPackHeader succeeds exactly if the input begins with a pack header of ISO/IEC 13818-1 (start code, marker bits, stuffing of the announced length with bytes 0xFF, optional system header with marker bits, stream entries and a header_length that agrees with them), followed by what lets the parser see its end, and it takes exactly its bits.", "quantifier": "all inputs without further segments", "why_tests_cant": "the rejected inputs are all those outside a language; tests can only sample them", "anchors": ["ps/pack_header.go:NewPackHeader", "ps/system_header.go:readSystemHeader"]}
{"id": "C106", "title": "Crashing and restarting the program stream decoder", "statement": "During the first run after NewDecoder nothing but a panicking packet brings the program down, and without one the run ends with Packs() closed; a packet on which pes.NewPacket panics does not show as an orderly end of the program; and after a run is over, Go can be called again.", "quantifier": "all sources, all interleavings of the decoder's goroutine, the pack goroutines, the program and the consumers, over two runs", "why_tests_cant": "interleavings cannot be enumerated; a crash in a goroutine ends the test process", "anchors": ["ps/decoder.go", "ps/pack.go", "pes/packet.go"]}
{"id": "C107", "title": "No picture without its start codes; streams of ISO/IEC 11172-2", "statement": "However often Next is called, a picture is returned only if the input contains the start codes of a sequence header, of an extension, of a picture and of a slice. On an input without the start code of an extension every call of Next returns an error: no panic, no picture, no endless loop. On a stream of ISO/IEC 11172-2 (sequence header, group of pictures header, picture header, slices) the first call reports ErrUnsupportedVideoStream_ISO_IEC_11172_2 and every later call ErrUnexpectedStartCode.", "quantifier": "all inputs, with errors of the source at any place; all numbers of calls; all sequence, group and picture headers", "why_tests_cant": "says something about every input that lacks a code, and about every number of further calls after the error", "anchors": ["video/frame_provider.go:step", "video/video_sequence.go:Next", "video/extension_and_user_data.go", "video/sequence_header.go"]}
{"id": "C108", "title": "Every consumer of the demuxer gets its packets; a consumer that stops", "statement": "If the goroutine is not starved and every consumer keeps receiving until its channel is closed, all packets are delivered, all channels closed and Err() final after finite time, and if somebody receives from done the goroutine ends. A consumer that stops receiving does not keep the other consumers from getting their packets.", "quantifier": "all sources that end with an error or the end of input, all configurations, all fair schedules, all moments at which a consumer may stop", "why_tests_cant": "liveness is about infinite runs; the schedules cannot be enumerated", "anchors": ["ts/demuxer.go"]}
{"id": "C109", "title": "Every pack and packet of the program stream decoder comes; packets left unread", "statement": "If the scheduler is fair and the consumer receives whatever is offered, the decoder finishes after finite time, with all packs and packets of a well-formed program delivered, or a packet on which pes.NewPacket panics brings the program down. Packs() can be read without reading the packets of the packs.", "quantifier": "all sources, all fair schedules, all points at which the consumer may stop to receive packets", "why_tests_cant": "liveness is about infinite runs; the schedules cannot be enumerated", "anchors": ["ps/decoder.go", "ps/pack.go"]}
{"id": "C110", "title": "Payloads through the program stream decoder and PayloadOnly", "statement": "A program that ranges over Packs() and, for each pack, over Packets().PayloadOnly(), and then receives from the done channel, gets the payload of every packet of the stream once, in order and unchanged, never blocks forever, and gets true from the done channel exactly if the stream ends with a program end code behind the last pack.", "quantifier": "all sources, all interleavings of the four goroutines", "why_tests_cant": "interleavings cannot be enumerated; holds for every stream", "anchors": ["ps/decoder.go", "ps/pack.go", "pes/packet_channel.go", "pes/packet.go"]}
{"id": "C111", "title": "A missing picture", "statement": "If pictures of a stream are missing (lost, or dropped by an editor) but every group of pictures keeps its header and at least one picture, Next returns all pictures that are there, in display order: a missing picture costs only itself.", "quantifier": "all sequences of legal groups of pictures of at most 1024 pictures, all sets of missing pictures, all contents of the pictures", "why_tests_cant": "the subsets of the pictures of all streams cannot be enumerated; a test uses intact streams", "anchors": ["video/frame_provider.go:step", "video/video_sequence.go:Next", "video/frame_store.go"]}
{"id": "C112", "title": "Reading a reader to its end", "statement": "ioutil.ReadAll (or io.Copy) on a reader of this module returns after finitely many Reads, whatever positive buffer sizes it uses: the transport stream payload reader yields exactly the payloads of the accepted packets, the PES payload reader the payloads of all packets up to the first EOP, the payload unit reader the first unit with EOP, the program stream reader the payloads of all packs; an error of the source other than io.EOF is reported.", "quantifier": "all sources (transport stream, PES), all well-formed program streams complete or cut off, all sequences of positive buffer sizes, all errors of the source", "why_tests_cant": "that a loop never ends cannot be tested; the sequences of buffer sizes cannot be enumerated", "anchors": ["ts/payload_reader.go:Read", "ts/payload_unit_reader.go:Read", "pes/payload_reader.go:Read", "ps/pack_reader.go:Read"]}
{"id": "C113", "title": "PES reader over the transport stream payload reader", "statement": "With pes.NewPayloadReader(ts.NewPayloadReader(r, ts.IsPID(k))), however the PES packets of the PID are cut into transport packets and whatever the unit start indicators say, the Reads return the payloads of all PES packets, including the last, without a break and end with io.EOF; the video decoder on top returns all pictures of the stream.", "quantifier": "all transport streams of well-formed packets, all PIDs, all sequences of PES packets, all cuts into transport packets, all read sizes, all read histories", "why_tests_cant": "the ways to cut a stream into packets and the read sizes cannot be enumerated", "anchors": ["ts/payload_reader.go:Read", "pes/payload_reader.go:Read", "pes/packet.go", "video/video_sequence.go:Next"]}
{"id": "C114", "title": "The io.Reader contract", "statement": "Whatever the source yields and whatever has been read before, Read(p) of every reader of the module returns at most len(p) bytes, and returns len(p) bytes whenever it returns no error (so io.ReadFull needs one call and 0, nil is only returned for an empty buffer).", "quantifier": "all sources including damaged ones, all reader states, all buffer sizes, all packet testers", "why_tests_cant": "holds for every state that a reader can be in; the states cannot be enumerated", "anchors": ["ts/payload_reader.go:Read", "ts/payload_unit_reader.go:Read", "pes/payload_reader.go:Read", "ps/pack_reader.go:Read"]}
{"id": "C115", "title": "What is read for a PID depends on this PID", "statement": "The Reads of the readers for a PID return payload bytes of packets of this PID only, and depend on these packets only: two transport streams with the same packets of the PID give the same Reads, whatever other packets they contain.", "quantifier": "all transport streams of well-formed packets with and without payload, all PIDs, all interleavings with other PIDs, all read sizes", "why_tests_cant": "a statement about pairs of streams; the interleavings cannot be enumerated", "anchors": ["ts/payload_reader.go:Read", "ts/payload_unit_reader.go:Read", "ts/packet.go:Next"]}
{"id": "C116", "title": "Duplicated, lost, damaged and scrambled packets", "statement": "The readers return the payload of a packet that is sent twice (ISO/IEC 13818-1 2.4.3.3) once, report a gap in the continuity counters, and return no payload of packets that are marked as damaged or scrambled.", "quantifier": "all transport streams of well-formed packets, all positions of the packets concerned, all read sizes", "why_tests_cant": "a statement about all streams and all positions of such packets", "anchors": ["ts/payload_reader.go:Read", "ts/payload_unit_reader.go:Read", "ts/packet.go:Next"]}
{"id": "C117", "title": "Joining a transport stream with SkipUntil", "statement": "A payload reader for a PID on which SkipUntil is called with a tester for unit starts returns exactly the payloads of the PID from the first unit start on; the PES reader on top returns the payloads of all PES packets from there on, and the video decoder, after AlignTo with the sequence header code, all pictures from the next entry point on.", "quantifier": "all transport streams of well-formed packets, all points at which the stream may be joined, all cuts into packets, all read sizes", "why_tests_cant": "the points at which a stream may be joined and the ways to cut it cannot be enumerated", "anchors": ["ts/payload_reader.go:Read", "ts/payload_reader.go:realign", "pes/payload_reader.go:Read", "video/video_sequence.go:AlignTo"]}
{"id": "C118", "title": "A lost slice costs only its own macroblocks", "statement": "If slices of a picture are missing from the stream, the picture is still decoded without error and agrees with the complete picture in every sample outside the macroblocks of the missing slices; samples that no slice gives a value to are 0.", "quantifier": "all legal pictures (as C71), all sets of missing slices", "why_tests_cant": "the sets of missing slices and the pictures cannot be enumerated", "anchors": ["video/picture_data.go:picture_data", "video/slice.go:slice"]}
{"id": "C119", "title": "Losses of slices in a stream", "statement": "If any slices of a stream are missing, Next still returns as many pictures as were sent, in display order; every picture whose reference pictures are undamaged agrees with the one that was sent outside the macroblocks of its own missing slices, so that losses in B pictures affect no other picture, and the damage of a reference picture ends at the next I picture.", "quantifier": "all legal streams (as C75), all sets of missing slices", "why_tests_cant": "the sets of missing slices and the streams cannot be enumerated", "anchors": ["video/video_sequence.go:Next", "video/picture_data.go:picture_data", "video/slice.go:slice"]}
{"id": "C120", "title": "What the readers and the decoder keep", "statement": "Over any history of calls the memory held back is bounded: the video decoder keeps pointers to at most three pictures, the transport stream readers keep at most the payload of the packets of one unit, and the PES and program stream readers at most the rest of the payload of one PES packet.", "quantifier": "all inputs including damaged ones, all histories of calls, all read sizes, all testers, all errors in between", "why_tests_cant": "a bound over histories of any length; a test sees one history", "anchors": ["video/frame_store.go", "ts/payload_reader.go:Read", "ts/payload_unit_reader.go:fill", "pes/payload_reader.go:Read", "ps/pack_reader.go:Read"]}
{"id": "C121", "title": "Sizes of the buffers requested by the parsers", "statement": "A buffer that parsing a transport packet or a PES packet requests is not longer than its length field announces, at most 255 and 65535 bytes; and whenever the packet is accepted, the input had as many bytes as were requested.", "quantifier": "all inputs including damaged ones, all states of the packet that is overwritten", "why_tests_cant": "the inputs cannot be enumerated; the lengths that go wrong are those where 32 bit arithmetic wraps around", "anchors": ["ts/adaptation_field.go", "ts/packet.go:Next", "pes/packet.go:Next", "pes/header.go", "pes/extension.go"]}
{"id": "C122", "title": "Calling again after an error", "statement": "A caller that calls Next again after an error comes to the end of the input after finitely many calls: a call that reports an error has consumed something, or the input was at its end. Noise of any length between transport packets costs one error for each full 188 bytes and no packet; PES packets behind damaged bytes are returned.", "quantifier": "all inputs, all numbers of calls, noise of any length and content without sync bytes, all read sizes", "why_tests_cant": "an endless loop of errors without progress depends on the position of the damage; neither positions nor numbers of calls can be enumerated", "anchors": ["ts/packet.go:Next", "ts/packet.go:realign", "pes/packet.go:Next", "pes/payload_reader.go:Read", "video/video_sequence.go:Next", "video/frame_provider.go:step"]}
{"id": "C123", "title": "Lost transport packets", "statement": "Whatever transport packets are lost, the elementary stream is what the packets received carry, in order: a lost packet costs the bytes it carried and nothing else. If the lost packets carried whole slices, the decoder returns all pictures, and a picture whose reference pictures are not damaged is shown as it was sent except for the macroblocks of its lost slices.", "quantifier": "all transport streams with any PIDs, all sets of lost packets, all read sizes, all legal streams of pictures (as C119)", "why_tests_cant": "the sets of lost packets and the streams cannot be enumerated", "anchors": ["ts/payload_unit_reader.go:Read", "ts/payload_unit_reader.go:fill", "ts/payload_reader.go:Read", "pes/payload_reader.go:Read", "pes/packet.go:Next", "video/video_sequence.go:Next"]}
{"id": "C124", "title": "Reading no further than necessary", "statement": "A call of the packet parsers and payload readers that succeeds needs no input behind what it consumed: if the input ended there, with whatever error, or went on differently, the call would return the same and leave the reader in the same state. The payload reader parses packets only as long as bytes are wanting, and the unit reader touches no input while it hands out a unit.", "quantifier": "all inputs of whole bytes, all continuations and ends of the input, all states of the readers, all read sizes, all testers", "why_tests_cant": "a reader that waits for input it does not need blocks on a live stream; a test compares finitely many continuations", "anchors": ["ts/packet.go:Next", "ts/payload_reader.go:Read", "ts/payload_unit_reader.go:Read", "pes/packet.go:Next", "pes/payload_reader.go:Read", "ps/pack_reader.go:Read"]}
{"id": "C125", "title": "How far the decoder looks ahead", "statement": "The decoder looks at most 32 bits ahead: if Next stops at least 32 bits before some point of the input, its result, error or picture, and the state it leaves do not depend on anything behind that point. A picture that Next reads from the input is returned as soon as the start code behind it is there, whatever follows it, and not earlier: with any shorter input Next reports the end of the input.", "quantifier": "all inputs including damaged ones, all continuations, all states of the decoder, all numbers of calls", "why_tests_cant": "a statement about pairs of inputs; on a live stream a decoder that looks too far ahead blocks, and a test compares finitely many continuations", "anchors": ["video/video_sequence.go:Next", "video/picture_data.go:picture_data", "video/slice.go", "video/next_start_code.go", "video/macroblock.go"]}
{"id": "C126", "title": "Delay of the pictures of a live stream", "statement": "When some coded pictures of a stream and one start code behind them have arrived, Next has returned all of them in display order, except for one reference picture if B pictures that are displayed before it are still to come; nothing that follows the start code is needed, and it may be anything.", "quantifier": "all legal streams (as C75), cut behind any coded picture, all continuations and ends of the input", "why_tests_cant": "the streams, the points where they are cut and the continuations cannot be enumerated; a decoder that delays a picture by one passes a test that reads the stream to its end", "anchors": ["video/video_sequence.go:Next", "video/frame_provider.go:step", "video/frame_store.go", "video/picture_data.go:picture_data"]}
{"id": "C127", "title": "When the pictures of a broadcast are available", "statement": "Pictures read from a transport stream (video decoder on the PES reader on the payload unit reader) are returned as soon as the transport packet has come that carries the last byte of the start code behind them, and not earlier; nothing that follows that packet is needed.", "quantifier": "all transport streams with any PIDs and any contents of the elementary stream, cut behind any packet, all numbers of pictures", "why_tests_cant": "a reader that waits for one packet more passes every test on recorded files; the points where a stream is cut cannot be enumerated", "anchors": ["ts/payload_unit_reader.go:Read", "ts/payload_unit_reader.go:fill", "pes/payload_reader.go:Read", "pes/packet.go:Next", "video/video_sequence.go:Next"]}
{"id": "C128", "title": "Resuming after a damaged picture", "statement": "After Next has failed on a picture whose data are damaged, a caller can resume: AlignTo with the group start code finds the next group of pictures, and if that is closed the calls of Next return exactly the pictures from there on, in display order and unharmed, although no sequence header is repeated; the pictures before the damaged one have been returned unharmed, too.", "quantifier": "all legal streams (as C75) with any damaged data in place of the slices of a picture, any data between the failure and the group of pictures, all states of the decoder that hold the headers in force", "why_tests_cant": "the damaged data cannot be enumerated; a decoder that forgets or half overwrites a header when a picture fails passes every test on intact streams", "anchors": ["video/video_sequence.go:Next", "video/video_sequence.go:AlignTo", "video/frame_provider.go:step", "video/picture_data.go:picture_data", "video/group_of_pictures_header.go", "video/frame_store.go"]}
{"id": "C129", "title": "Which errors are reported", "statement": "Every error returned by a function of the library is one of a short list of errors of that function, each of which does occur, or it is an error of the source, and then the source has been read to its end: the end of the input is never reported while input is left. Next of the video decoder has eight errors of its own, AlignTo none, ReadSequenceHeader three, ReadGOPHeader two, a transport packet one, a PES packet three, a pack header two; the readers add io.EOF where TakeWhile ends the stream or a program end code was read, and ts.EOP between units.", "quantifier": "all inputs, all sources (any segments and errors), all states of decoder and readers, all read sizes, all testers", "why_tests_cant": "that no other error ever occurs is a statement about all inputs", "anchors": ["video/video_sequence.go:Next", "video/video_sequence.go:AlignTo", "video/sequence_header.go:ReadSequenceHeader", "video/group_of_pictures_header.go:ReadGOPHeader", "ts/packet.go:Next", "ts/payload_reader.go:Read", "ts/payload_unit_reader.go:Read", "pes/packet.go:Next", "pes/payload_reader.go:Read", "ps/pack_header.go:NewPackHeader", "ps/pack_reader.go:Read"]}
{"id": "C130", "title": "Damage that goes unnoticed stays in its macroblock rows", "statement": "When the contents of slices of a picture are replaced by other bits that still are slices by their syntax (any quantiser, addresses, types, vectors and coefficients), the picture is decoded without error unless the decoder panics, decoding goes on at the start code behind the picture, and the damage does not spread: a slice, whatever its contents, changes no sample above its macroblock row; a sample that is coded by an intact slice such that all damaged slices behind it lie below it is decoded to the value that was sent; so in a picture whose slices are sent in the order of their rows, every coded macroblock row without damaged slices is decoded as it was sent, even if the damaged slices have macroblocks beyond the end of their row. Within the row of a damaged slice, macroblocks of intact slices can be destroyed.", "quantifier": "all legal pictures (as C71), any number of damaged slices, any slice syntax in place of each of them, all states of the decoder", "why_tests_cant": "the damaged contents cannot be enumerated; predictors that survive the end of a slice or a write above the row pass every test on intact streams", "anchors": ["video/slice.go:slice", "video/picture_data.go:picture_data", "video/macroblock.go:macroblock", "video/macroblock.go:updateFrameSlice", "video/copy_macroblocks.go"]}
{"id": "C131", "title": "Going on after failures costs no more than the damaged pictures", "statement": "An application that calls Next again and again and, after every failure (an error or a recovered panic), moves the reader somewhere (for instance with AlignTo) and goes on, gets exactly the frames that calls of Next return of a stream in which the pictures at which decoding failed are missing: a failing call leaves nothing in the frame store, discards no frame that waits there, and does not move the count of the frames, except that a group of pictures header which it has read stays read. Every call returns a frame or reports one of the failures.", "quantifier": "all streams (legal or not), all numbers and places of failures, all ways to move the reader", "why_tests_cant": "the places and kinds of failures cannot be enumerated; a decoder that keeps a half decoded picture or counts a failed one passes every test on intact streams", "anchors": ["video/video_sequence.go:Next", "video/video_sequence.go:AlignTo", "video/frame_provider.go:step", "video/frame_store.go"]}
{"id": "C132", "title": "An application that resumes at groups of pictures gets through a stream with any number of damaged pictures", "statement": "Whatever pictures of a stream are damaged so that their data violate the syntax, an application that calls Next until it fails, then BitReader AlignTo with the group of pictures start code, then Next again, and so on, receives, between one failure and the next, exactly the pictures that can be displayed before the damaged one, in display order and with the samples of the standard, and finally ErrEOS; no damaged picture, wherever it stands in its group and whether it is a reference picture or a B picture, affects a picture from the next group of pictures on.", "quantifier": "all streams of intact and damaged pictures, all numbers and places of damaged pictures, all picture sizes", "why_tests_cant": "tests damage one picture of one clip; here the number and the places of the damaged pictures are unbounded, and what is left in the frame store and the counter by one failure must not matter after the next", "anchors": ["video/video_sequence.go:Next", "video/video_sequence.go:AlignTo", "video/frame_provider.go:step", "video/frame_store.go", "video/group_of_pictures_header.go", "video/picture_data.go:picture_data", "video/slice.go:slice"]}
{"id": "C133", "title": "Errors in reference pictures do not grow", "statement": "Two decoders that are the same (input, position, headers, matrices, counter) except that the frames they hold differ in each sample by at most some bounds for luma, Cb and Cr: whatever the input and whatever an application does with them, every call of Next has the same outcome in both, and the frames returned and held differ by at most these bounds; so an error in a reference picture is never amplified by prediction, interpolation, averaging or copies and never passes from one component into another. An I picture is decoded to the same frame whatever frames are held, a P picture depends on the past frame only.", "quantifier": "all inputs (legal or not), all states of the decoder, all bounds, all sequences of calls and operations on the reader", "why_tests_cant": "a statement about pairs of runs of any length; an interpolation that amplifies small differences or reads the wrong plane shows on few of all contents", "anchors": ["video/motion_compensation.go", "video/copy_macroblocks.go", "video/macroblock.go:macroblock", "video/macroblock.go:updateFrameSlice", "video/block.go", "video/frame_store.go", "video/frame_provider.go:step", "video/video_sequence.go:Next"]}
{"id": "C134", "title": "Errors in reference pictures move by no more than the vectors reach", "statement": "If corresponding frames held by two otherwise equal decoders agree in a set of samples, then after n pictures the returned and the held frames agree in every sample all of whose neighbours within n times the reach of the vectors are in that set; the reach is (8 f + 7) lines and 8 f samples for f = 2^(f_code - 1). In particular damage above a line moves down by at most 8 f + 8 lines per picture, if vectors are not longer than lines. P pictures depend on the past frame only.", "quantifier": "all inputs, legal or not, all histories of calls and of operations on the reader, all sets of samples, all f_codes from 1 to 15", "why_tests_cant": "quantifies over pairs of decoders with arbitrary frames in their stores, over all sets of samples and over all bits of arbitrarily many pictures", "anchors": ["video/motion_compensation.go:motion_compensation", "video/motion_vectors.go:update_actual", "video/copy_macroblocks.go:pframe_copy_macroblocks", "video/copy_macroblocks.go:bframe_copy_macroblocks", "video/macroblock.go:updateFrameSlice", "video/frame_provider.go:step"]}
{"id": "C135", "title": "Every sequence of pictures can be transmitted", "statement": "For every picture size up to 16383 by 2800 and every non-empty list of 8-bit 4:2:0 images there is a stream from which a new decoder returns exactly as many pictures, each within 4 levels of its image in every sample of every component, and then the end of the stream. For every PID there is a transport stream of PES packets, and for every payload size a program stream of packs, that delivers these pictures through all layers of the library.", "quantifier": "for all widths 1..16383, heights 1..2800, all non-empty lists of 8-bit images, all preceding zero bytes, following bits and ways the source ends, all PIDs, all pack payload sizes", "why_tests_cant": "The claim ranges over all images and all sizes and says that none of them is out of reach: a quantiser table, clamp, code table, escape code or transform that loses part of the sample range would show only on images that need it.", "anchors": ["video/video_sequence.go:Next", "video/block.go:read", "video/idct.go:idct", "ps/pack_reader.go:Read", "pes/payload_reader.go:Read", "ts/payload_unit_reader.go:Read"]}
{"id": "C136", "title": "How many pictures an input can give", "statement": "For every input (any bits, delivered with any errors of the source in between) and any number of calls of Next on a new VideoSequence: 168 times the number of pictures returned by all calls together is at most the number of bits of the input. So no picture is returned twice, and an input of n bytes gives at most n/21 pictures. The same holds for an application that goes on after errors and panics and moves the reader forward in any way (for instance with AlignTo) before the next call.", "quantifier": "all inputs, all errors of the source, all numbers of calls, all loop limits of the model, all ways of moving the reader forward after failures", "why_tests_cant": "A picture is returned from the reference store in a later call than the one that decoded it, so that paying for it with bits is a property of the whole history (marks, counter, errors in between); a test only counts the pictures of some inputs.", "anchors": ["video/video_sequence.go:Next", "video/frame_store.go:tryGet", "video/frame_provider.go:step", "video/picture_data.go:picture_data"]}
{"id": "C137", "title": "How much picture a bit can make", "statement": "For every input and any number of calls of Next on a new VideoSequence: the samples (of all three components) that are not 0, summed over all pictures returned, are at most 1152 times the number of bits of the input, whatever picture sizes the input announces. 1152 is the rate of a macroblock escape (11 bits skip 33 macroblocks of 384 samples). The same holds for an application that goes on after errors and panics.", "quantifier": "all inputs, all errors of the source, all numbers of calls, all loop limits of the model, all ways of moving the reader forward after failures", "why_tests_cant": "The bound is a property of all inputs at all lengths, in particular of hostile ones; a test only measures the ratio of some streams.", "anchors": ["video/macroblock.go:macroblock", "video/picture_data.go:picture_data", "video/video_sequence.go:Next"]}
{"id": "C138", "title": "Readers do not return more bytes than they have consumed", "statement": "Over any history of Reads - any sizes, whatever the results - the number of bytes a reader returns is bounded by the number of bytes taken from its source. For the program stream reader the bound is one byte per byte. The full claim (one byte per byte for every reader) is false for the transport stream and PES readers: packets without payload repeat the previous payload. There the bounds are: at most 46 bytes for every byte of a transport stream (for the payload unit reader up to the first error other than EOP); at most n*n/6 bytes for n bytes of PES packets from a source that ends for good; at most n*(n+2^32)/6 for any source. The first and the second kind of growth occur: 184(k+1) bytes for 188+4k, m(k+1) bytes for 9+m+6k, and up to 2^32-2 zero bytes for fifteen bytes of a source that goes on after an error.", "quantifier": "every source (finite list of segments with their errors), every tester, every list of Read sizes; for the witnesses every number of repetitions", "why_tests_cant": "A test reads a stream it has made of whole packets; the ratio of output to input over all inputs and the inputs that maximise it are not visible in any one of them.", "anchors": ["ts/payload_reader.go:payloadReader.Read", "ts/payload_unit_reader.go:payloadUnitBuffer.Read", "ts/packet.go:Packet.Next", "pes/payload_reader.go:payloadReader.Read", "pes/packet.go:Packet.Next", "ps/pack_reader.go:packreader.Read"]}
{"id": "C139", "title": "Fields for display, buffering and time codes do not influence decoding", "statement": "Two decoders have the same input before them, at the same position within a byte, hold the same frames and matrices, and their current headers agree in picture size, chroma format, temporal reference, picture coding type and those fields of the picture coding extension that say how macroblocks are coded. All other header fields may differ (aspect ratio, frame rate, bit rate, buffer sizes, vbv_delay, constrained parameters flag, profile and level, low_delay, progressive_sequence, MPEG-1 vector codes, extra information, top_field_first, repeat_first_field, chroma_420_type, progressive_frame, composite display fields, the whole group of pictures header with its time code, closed_gop and broken_link), and so may the number of bytes read before. Then, whatever the input, every call of Next has exactly the same result in both. In the stream: if the headers before a picture are replaced by others that differ in such fields only, also by longer or shorter ones with other user data and other extensions (quantiser matrices excepted), with any padding and stuffing, then the call of Next that reads them and everything done afterwards have the same results.", "quantifier": "for all inputs (legal or not), all pairs of decoder states that agree in the fields named, all sequences of calls of Next and of operations on the reader that do not depend on the absolute position (AlignTo is one), all header blocks of any length", "why_tests_cant": "A test compares a few streams in which one field is changed; that none of some thirty fields, in no combination, influences any later picture through any path (sizes, prediction, store, error handling) for any input is a noninterference property, which needs a relational proof over the whole decoder.", "anchors": ["video/video_sequence.go:VideoSequence.Next", "video/sequence_header.go:ReadSequenceHeader", "video/group_of_pictures_header.go:ReadGOPHeader", "video/picture_header.go:picture_header", "video/picture_coding_extension.go:picture_coding_extension", "video/picture_data.go:VideoSequence.picture_data"]}
{"id": "C140", "title": "The same data coded differently give the same pictures", "statement": "Two legal streams have the same content when their pictures, in coding order, have the same coding type, DC precision, quantiser scale type, scan, use of concealment vectors and quantiser matrices in force, and the same slices (row, quantiser scale, macroblock data), in any order and any number of times each, where different slices have no macroblock in common. All else may differ: stuffing, user data and extensions, how the matrices came into force, groups of pictures and temporal references, repeated sequence headers, all other header fields (f_code, intra_vlc_format and frame_pred_frame_dct among them), the extra information of slices, and the codes chosen for macroblock addresses, types, vectors and coefficients (for example run/level codes or escapes, either DCT table). Then Next returns the same number of pictures from both streams, corresponding pictures agree in every sample, and both end with ErrEOS. For one picture: the picture decoded from its slices does not depend on their order nor on how often each of them comes.", "quantifier": "for all pairs of legal streams of any length with the same content (all picture sizes, all codes, all orders and repetitions of slices), all numbers of stuffing bytes", "why_tests_cant": "A test compares two encodings of a few pictures; the claim quantifies over all pairs of encodings of all streams and excludes every dependence of one slice on the one decoded before it (predictors, quantiser scale, address counters kept across slices).", "anchors": ["video/video_sequence.go:VideoSequence.Next", "video/picture_data.go:VideoSequence.picture_data", "video/slice.go:VideoSequence.slice", "video/macroblock.go:VideoSequence.macroblock", "video/block.go:block.read"]}
{"id": "C141", "title": "After an entry point the history of a decoder does not matter, whatever the input", "statement": "Two decoders are the same except for the frames they hold; the last n reference pictures are the same in both, and what else they hold is from earlier groups of pictures or absent. Whatever the input, damaged or not, and whatever an application does with them (calls of Next, operations on the reader): as long as no picture read refers to pictures before those n (it is an I picture; a P picture with one of the reference pictures decoded since before it in display order; a B picture between the two last reference pictures, both decoded since), all calls of Next have exactly the same results in both: the same pictures, errors and panics. In particular the frames held may be any when a group of pictures header comes next, nothing is waiting to be returned and the headers of its first picture are legal: from there on, a decoder that has been running for hours and one that holds no frame agree on every input in which no picture refers back behind the group.", "quantifier": "for all inputs (legal or not) behind the entry point, all frames held by the two decoders, all sequences of calls and reader operations", "why_tests_cant": "A test joins a few recordings at a few places; the claim is about all pairs of histories and all continuations, including damaged ones, and needs an invariant on what can flow from the frame store into pictures.", "anchors": ["video/frame_store.go:frameStore.set", "video/frame_store.go:frameStore.gop", "video/frame_provider.go:VideoSequence.step", "video/video_sequence.go:VideoSequence.Next", "video/picture_data.go:VideoSequence.picture_data"]}
{"id": "C142", "title": "A decoder started at an entry point continues like one that decoded everything before", "statement": "A decoder with any history (any headers, matrices, frames, counter) comes to a sequence header with nothing waiting to be returned; the headers behind it are legal up to a picture and contain a group of pictures header. Then all further calls of Next return exactly what they return on a new VideoSequence whose input begins with that sequence header, whatever the input behind the headers, damaged or not, as long as no picture refers to pictures before that point. Without a group of pictures header this is false: the display counter is not reset.", "quantifier": "all decoder states, all inputs behind the headers, all sequences of calls of Next and reader operations", "why_tests_cant": "The state left behind by everything decoded before is unbounded; a test compares one seek position of one file.", "anchors": ["video/video_sequence.go:VideoSequence.Next", "video/frame_provider.go:VideoSequence.step", "video/sequence_header.go:VideoSequence.sequence_header", "video/video_sequence.go:NewVideoSequence"]}
{"id": "C143", "title": "Exactly which inputs make packet parsing panic", "statement": "pes.Packet.Next panics exactly on those inputs that begin with a packet of a stream id with header, whatever its fixed fields, with well formed time stamps as announced, in which ESCR, ES_rate, trick mode, additional copy info or CRC is announced; or none of these, but an extension that announces a pack header or a sequence counter behind complete private data, or a second extension behind a complete and well marked P-STD buffer size. ts.Packet.Next panics exactly if behind the next sync byte there is a header with adaptation_field_control 11, behind which NewAdaptationField succeeds with a length above 183. On no other input, damaged, truncated or hostile, does either panic.", "quantifier": "all states of the packet, all inputs, all positions", "why_tests_cant": "The set of inputs without a panic is infinite; tests and fuzzing can find panics but not show that a list of them is complete.", "anchors": ["pes/packet.go:Packet.Next", "pes/header.go:readHeader", "pes/extension.go:readExtension", "ts/packet.go:Packet.Next"]}
{"id": "C144", "title": "The container makes no difference to the decoder", "statement": "The same bytes, read from a file, from a transport stream through payload unit reader and PES reader (units that end with a packet of unknown length), from a transport stream through payload reader and PES reader (PES packets of known length), or from a program stream through the pack reader, make the video decoder do exactly the same at every call of Next: the same pictures, or the same error at the same call. This holds for all bytes, legal video, damaged or no video at all, and for all ways of cutting them into packets. Every byte sequence can be carried in each of these ways.", "quantifier": "all elementary streams (any bytes), all multiplexes of them in the given classes, all numbers of calls", "why_tests_cant": "There are infinitely many ways to cut an elementary stream into packets, and the claim includes streams that are not legal.", "anchors": ["ts/payload_unit_reader.go:Read", "ts/payload_reader.go:Read", "pes/payload_reader.go:Read", "ps/pack_reader.go:Read", "video/video_sequence.go:VideoSequence.Next"]}
{"id": "C145", "title": "Inputs on which no reader ever panics", "statement": "If the rest of the input of a payload reader or payload unit reader is a run of whole bytes in which nowhere a sync byte is followed, three bytes further, by adaptation_field_control 11 and a length above 183, then no Read panics, with whatever testers and buffer sizes, nor does any Read after it, whatever errors were reported and however synchronisation was lost and found in between. If the rest of the input of a PES payload reader or of a program stream pack reader nowhere contains, at any bit position, a word on which PES packet parsing panics (C143), then no Read panics, nor does any Read after it. It suffices that behind every start code prefix, at any bit position, there is the id of a stream without header, or two bits other than 10, or none of the six flags behind the time stamp flags is set.", "quantifier": "all inputs with the stated property, all states of the readers, all testers, all histories of Reads with any buffer sizes", "why_tests_cant": "The absence of a panic in every history of Reads on every input of an infinite set, including all ways in which the reader may get out of step with the packets, cannot be sampled.", "anchors": ["ts/payload_reader.go:Read", "ts/payload_unit_reader.go:Read", "pes/payload_reader.go:Read", "ps/pack_reader.go:Read", "ts/packet.go:Packet.Next", "pes/packet.go:Packet.Next"]}
{"id": "C146", "title": "The data of slices never imitate a start code", "statement": "Take a slice of the standard's syntax, at any row, for any picture type, chroma format and motion, in which no escape code carries level 0, the f_codes in use are at most 9 and, in pictures with more than 2800 lines, the quantiser scale code is not 0. In that slice, followed by any number of zero bits and a start code, there is no start code prefix at any bit position, aligned or not, except the one it begins with, until the zeros before the next one. In a run of such slices every start code prefix is the first one of a slice. So AlignTo, asked for any start code that is not that of a slice and called anywhere in the run of slices, finds the first one behind the run and stops nowhere before. Without the condition on levels this is false: a slice with an escape code of level 0 is decoded without error and contains a group start code. The condition on the quantiser scale code is necessary as well, for prefixes at any bit position.", "quantifier": "all slices of the standard's syntax with the stated restrictions, all numbers of macroblocks and slices, all starting positions inside them, all bit offsets", "why_tests_cant": "Emulation of a start code depends on the concatenation of arbitrary code words of ten tables; no set of streams covers the pairs and triples of code words that occur.", "anchors": ["video/video_sequence.go:VideoSequence.AlignTo", "video/slice.go", "video/macroblock.go", "video/block.go"]}
{"id": "C147", "title": "Nothing in a stream imitates a start code", "statement": "Take a stream of sequence headers, sequence extensions, display, quant matrix and temporal scalable extensions, group of pictures headers, picture headers, picture coding extensions and slices (C146) in any order and number, with any field values except those the standard forbids (zero sizes, frame rate code, f_codes, picture coding type and matrix entries, picture structure and chroma format 00, marker bits 0, zero colour descriptions), and of user data and other elements without 23 zero bits in a row, each followed by any number of zero bits. Every start code prefix in it, at any bit position, aligned or not, is the beginning of one of these elements. So AlignTo, called at any byte position of the stream, also inside an element, stops exactly at the next element with the code asked for. From there, whatever state the decoder was in, the calls of Next return the pictures of the sequence that begins there (or of the closed group, if the headers it needs are known). Without the marker bit this is false: a group header with marker 0 is read without error and contains a picture start code.", "quantifier": "all streams of the stated elements, all field values, all orders, all positions, all states of the decoder", "why_tests_cant": "Whether fields of different headers together imitate a start code depends on their combination; the border cases (22 zeros in a row) occur for single combinations of values out of 2^60.", "anchors": ["video/video_sequence.go:VideoSequence.AlignTo", "video/video_sequence.go:VideoSequence.Next"]}
{"id": "C148", "title": "A gap in a stream makes at most one false start code", "statement": "Of a stream as in C147 only a first part is received (cut at any bit), and then, after a gap, the rest of the same or of another such stream (entered at any bit). Every start code prefix in what is received, at any bit position, is the beginning of an element of the first or of the second stream, with at most one exception, and that one overlaps the gap. AlignTo, called anywhere before the gap for a code that does not occur in between, stops either at the wanted element behind the gap or at a false code overlapping the gap; after skipping these four bytes the next call stops exactly at the wanted element. With any number of gaps (parts cut out anywhere, also shorter than a start code) there is at most one wrong stop for each gap, for every code but that of pictures, for which it is false. So whatever transport packets have been lost, the application gets to the next sequence header with at most one wrong stop for each gap, and Next returns all pictures from there. The exception does occur: two streams without sequence header, cut and joined, in which AlignTo stops at a sequence header.", "quantifier": "all streams of C147, all places at which the first is cut and the second is entered, all codes, all positions and reader states", "why_tests_cant": "Lost packets cut streams at arbitrary places; which pairs of bytes meet at the gap cannot be enumerated.", "anchors": ["video/video_sequence.go:VideoSequence.AlignTo"]}
{"id": "C149", "title": "Every sequence of pictures has a stream that can be joined anywhere", "statement": "For every picture size up to 16383 x 2800 (width no multiple of 4096, which the standard forbids) and every list of 8-bit 4:2:0 images there is a stream, one coding per image, such that: a new decoder returns all pictures; a decoder in any state that gets the stream from any byte on (also in the middle of a slice) calls AlignTo with the sequence header code, which stops exactly at the next picture, and then returns exactly the pictures from there on; and so it does if what it gets before the next complete picture are any parts of the codings in any order with any gaps, with at most one wrong stop per part. In all cases at most two frames decoded earlier come first (none from a new decoder), every sample of every picture is within 4 levels of its image, and then the end of the stream is reported with the data behind it unread. The same through the transport stream and PES readers, for recordings that begin at any packet and for any lost packets, and through the program stream reader, for recordings that begin at any pack and for any lost packs.", "quantifier": "all picture sizes, all contents and numbers of images, all byte positions at which the stream is entered, all previous states of the decoder, all parts and gaps, all packetisations, all lost packets", "why_tests_cant": "The claim quantifies over all images and all entry points at once; a test tunes in to a few recordings at a few places.", "anchors": ["video/video_sequence.go:VideoSequence.AlignTo", "video/video_sequence.go:VideoSequence.Next", "video/slice.go:VideoSequence.slice", "video/macroblock.go:VideoSequence.macroblock", "ts/payload_unit_reader.go:payloadUnitBuffer.Read", "pes/payload_reader.go:payloadReader.Read"]}
{"id": "C150", "title": "A missing group of pictures header", "statement": "If headers of groups of pictures are missing in a stream (lost after the encoder restarted the temporal references) but no pictures, Next returns all pictures: those of each group of pictures in display order, the groups one after the other.", "quantifier": "all sequences of complete legal groups of pictures of at most 1024 pictures, all sets of missing headers but the first, all contents of the pictures", "why_tests_cant": "the subsets of the headers of all streams cannot be enumerated; a test uses streams with all headers", "anchors": ["video/video_sequence.go:Next", "video/frame_provider.go:step", "video/frame_store.go:tryGet", "video/group_of_pictures_header.go"]}
{"id": "C151", "title": "No picture is returned twice", "statement": "The pictures that Next returns are pairwise different pictures (different pointers), for every input and everything an application may do: any number of calls, calls after errors and after recovered panics, writing into pictures it was given, moving the reader anywhere between calls (also back) or giving it other input.", "quantifier": "all inputs, all histories of calls, failures, writes and moves of the reader", "why_tests_cant": "histories and inputs are unbounded; that no reference picture is returned a second time out of the frame store depends on an invariant of its two slots and the counter over the whole history, including illegal orders and repeated temporal references", "anchors": ["video/video_sequence.go:Next", "video/frame_provider.go:step", "video/frame_store.go", "video/picture_data.go"]}
{"id": "C152", "title": "Never out of order, whatever the coding order", "statement": "Let ps be the pictures that a new decoder can decode up to the first failure, whatever their order and temporal references. The calls of Next return of every group of pictures the frames of pictures with the temporal references 0, 1, 2, ... in this order and without gap, one group of pictures after the other, and the call after them reports the failure. No picture is returned in front of an earlier one, or after a gap, also when the order of coding is illegal, temporal references are repeated or missing, or headers of groups of pictures are missing.", "quantifier": "all inputs, all coding orders and temporal references, all numbers of pictures", "why_tests_cant": "tests use streams in legal order; the order has to hold for every sequence of picture headers, also for those no encoder makes", "anchors": ["video/video_sequence.go:Next", "video/frame_provider.go:step", "video/frame_store.go"]}
{"id": "C153", "title": "The order of the pictures depends on the headers only", "statement": "Which of the decoded pictures Next returns, and in which order, is decided by their headings alone: whether a header of a group of pictures precedes, whether the picture is a reference picture (I or P), and its temporal reference. For all sequences of headings there is one list of positions, all different, such that for every stream with these headings, whatever its other headers, sizes, macroblocks and coefficients are, the calls of Next return the pictures at these positions, and the call after them reports the failure.", "quantifier": "all sequences of headings, all streams with them", "why_tests_cant": "a claim about all pairs of streams with equal headings and any contents; a test compares two", "anchors": ["video/video_sequence.go:Next", "video/frame_provider.go:step", "video/frame_store.go"]}
{"id": "C154", "title": "What follows does not change what was returned", "statement": "Two streams of any contents, the headings (C153) of the pictures of the first being the first headings of those of the second: the pictures that Next returns of the first, before it reports its end or failure, are at the same positions as the first ones it returns of the second. So cutting a stream, appending to it, or an error later in it never changes which pictures are returned before and in which order.", "quantifier": "all pairs of streams of which the headings of one are a prefix of those of the other", "why_tests_cant": "a claim about all pairs of streams, all points at which they part and all contents", "anchors": ["video/video_sequence.go:Next", "video/frame_provider.go:step", "video/frame_store.go"]}
{"id": "C155", "title": "Pictures that come in order are returned", "statement": "For every input and every order of coding, with the order of C152: if a group of pictures has, in the order of coding, pictures with the temporal references 0, 1, ..., n - 1, whatever other pictures are between them, then Next returns at least n pictures of this group. So at least one picture is returned of every group with a picture of temporal reference 0, and all pictures of streams without reordering are returned, in the order of coding.", "quantifier": "all inputs, all coding orders and temporal references, all n", "why_tests_cant": "the pictures between those that come in order are arbitrary, also illegal; legal streams do not exercise this", "anchors": ["video/video_sequence.go:Next", "video/frame_provider.go:step", "video/frame_store.go"]}
