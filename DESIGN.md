# Formal model of 32bitkid/mpeg in Lean 4

## 1. What is modelled, and how

| layer | Lean modules | Go code |
|---|---|---|
| bit reader contract | `Verif/Base/*` | the interface `bitreader.BitReader` as used by the repo (external dependency, not in /repo) |
| Huffman contract | `Verif/Video/VlcModel` (`huffDecode`) | the interface of `huffman.HuffmanDecoder` (external dependency) |
| transport stream | `Verif/TS/*` | `ts/*.go` |
| packetised elementary stream | `Verif/PES/*` | `pes/*.go` |
| program stream | `Verif/PS/*` | `ps/*.go` |
| video | `Verif/Video/*` | `video/*.go` |
| printed forms, exported header functions | `Verif/Text/*` | `String` methods in `ts/` and `video/`; `ReadSequenceHeader`, `ReadGOPHeader` with both results |
| stacked readers | `Verif/Pipe/*` | composition of the above; no source of its own |

Each package has
* `*Model.lean` (and `Video/VlcTables.lean`): the Go functions, one definition per function, each with the file and lines it models;
* `*Spec.lean`: an independent, small specification (encoders written from the bitstream syntax tables, list functions, formulas, a reference decoder over the syntax elements);
* `*Props.lean`: the property theorems, each with a non-vacuity example;
* `*/RepoTests.lean`: the repository's own tests of ts, pes and video run on the model (checks of the model against the tests' expectations, by the kernel; the decoder on the encoder-made video data of the pes test, by the evaluator);
* every other file (`*Lemmas*`, `Inv*`, `Trunc`, `View`, `*Total`, `RefRel`, ...): helper lemmas.

`RefRel` and `PicSpec` contain the relation between decoder state and reference decoder state and the legality conditions used in the statements of C69-C71 and C75.

### Execution model
A Go function that can fail is a function `σ → Res α × σ`, where
`Res` is `ok a | err e | panic | hang`.  State changes made before an error are kept, as in Go.
`panic` is a Go run-time panic (explicit `panic(...)`, index or slice out of range, nil dereference).
Go `for` loops that are not bounded by a counter take a fuel argument and yield `hang` when it runs out;
we prove that `hang` is unreachable for enough fuel, or, for the loops that really diverge, that it is the result for every fuel.

Values read from the stream are `Nat`; `uint32` arithmetic that can wrap is written with an explicit
`% 2^32`; `int32` arithmetic in the video decoder uses an explicit wrap-around `i32`.
Byte slices are lists; where the code depends on aliasing (the `Packet` shared by the demuxer and its consumers) the shared cell is explicit in the state.
Goroutines and unbuffered channels are small-step state machines, and the theorems quantify over every schedule.

### The bit reader contract (trusted; `github.com/32bitkid/bitreader` is not in /repo)
The source is a sequence of segments, each ending with an error value (`io.EOF`, or `ts.EOP` when the source is a
`payloadUnitBuffer`). `ReadN(k)`/`PeekN(k)` deliver the next k bits, most significant first; if fewer
than k bits are left in the segment the request fails with the segment's error (with `io.ErrUnexpectedEOF` in place of `io.EOF` when
some but not enough bits are left) and the rest of the segment is lost. `Read(p)` copies whole bytes. `Align` discards the rest of the current byte.
No theorem distinguishes `io.EOF` from `io.ErrUnexpectedEOF` except at a clean end of input.

### The Huffman contract (trusted; `github.com/32bitkid/huffman` is not in /repo)
`Decode` reads one bit at a time, stops at the first code word matched, and fails with
`ErrMissingHuffmanValue` when no code word starts with the bits read. Spaces in code words are ignored.

## 2. Trusted base
* Lean 4.33.0 kernel; axioms used: at most `propext`, `Classical.choice`, `Quot.sound` (checked with `#print axioms` on every theorem of MANIFEST.json). No axiom of our own, no `sorry`, no `native_decide`, no `bv_decide`.
* The reading of the Go source (each definition cites its lines).
* The two external contracts above, and the documented behaviour of `io.ReadFull`, `io.ReadAtLeast`, `ioutil.ReadAll`, `bytes.Buffer`, `image.NewYCbCr`, and the verbs `%d`, `%02d`, `%x`, `%s`, `%v` of `fmt.Sprintf` on non-negative numbers.
* The specifications (`*Spec.lean`), which are our reading of ISO/IEC 13818-1 and 13818-2.

### Not modelled
* `log.go` and the example programs.
* `log.Printf`/debug output. Memory limits and allocation failure: a request always succeeds (how much the parsers of transport and PES packets request is C121, how much readers and decoder keep is C120). Data races as such (the demuxer model has a shared `Packet` cell and explicit steps; a packet is read as a whole by a consumer step).
* Timing, garbage collection, and goroutine leaks other than as "no further step possible".
* 4:2:2 and 4:4:4 block decoding panics in the source (`coding_block_pattern.go`, `macroblock.go`); the model panics at the same place.

### Simplifications (each is also noted at the definition)
* Planes are a length and an index function; writing outside the length panics; byte values are kept as `Nat < 256`, a lemma shows that every written sample is clamped.
* Fuel for unbounded loops, see above.
* `VideoSequence` fields that hold pointers are `Option`s; a nil dereference is `panic`.
* In `MacroblockModel` frames are values. `HeapModel` is the same decoder with frames in a memory and pointers in the frame store, every row of samples being written through the pointer; C84 proves that both return the same, so every theorem about `VS.next` is one about the decoder with pointers. The planes of a frame are one cell of the memory (`image.NewYCbCr` allocates them together).

## 3. Property by property
Status and theorem names are in MANIFEST.json, statements in properties.jsonl. "False" below always comes with a theorem that proves a
counterexample (or the exact behaviour), and with a `_partial` theorem under the weakest hypothesis we found.

* C01, C02, C05: encoder for transport packets in `TS/Spec`; round trip by symbolic execution of `Packet.Next` on the encoded bits; truncation by a continuity lemma (a computation on a truncated input either ends with an end-of-input error or does what it does on the full input).
* C03: induction on the garbage prefix.
* C04, C06: exact-consumption lemma for `Packet.Next` over arbitrary input; full claims false.
* C07: false (stale payload); `_partial` for fresh packets.
* C08, C09: part of the adaptation field round trip; C09's framing half is false (39 of 40 bits read).
* C10: syntax of tester expressions with a Boolean denotation, induction on the expression.
* C11-C13: state machine of the payload reader over the packets observed by successive `Next` calls; induction on the Read schedule; C12, C13 false corners.
* C14, C15: same for the payload unit reader; last unit is dropped (C14 false).
* C16-C19: small-step model of demuxer goroutine, channels and consumers; invariants over all schedules; C19 false.
* C20: transformer state machines; `PayloadUnit` never emits (false).
* C21-C25, C27, C62, C63: encoder for PES packets, round trip and exact-consumption lemmas, inversion of successful parses.
* C26: reader state machine over packets; false for padding packets.
* C28-C30, C65: encoders and round trips, inversion; C28, C29 false corners.
* C31, C64: reader state machine over a program stream; several false corners.
* C32: small-step model of the two goroutines; refinement of sequential reading.
* C33-C43, C66, C68: bit-level models, encoders, round trips, induction for loops; C36, C42 false corners.
* C44, C67: tables transcribed by a script from the Go map literals; prefix-freeness and equality with Annex B decided over the whole (finite) table in the kernel and lifted to all continuations.
* C45-C47: symbolic decoding, induction on event lists; C47 false with exact panic condition.
* C48, C49, C52: finite permutation check; arithmetic with explicit 32-bit wrap.
* C50: the integer IDCT with wrap, for blocks that only have a DC coefficient.
* C51: `Spec.realIdct` is the formula of Annex A over the real numbers (`Real.cos`).  The fixed-point transform is compared
  with it in three steps: the passes without wrap-around (`rowZ`, `colZ`) differ from an integer linear map by bounded
  rounding; the matrix of that map differs from the cosine basis by at most 0.00201 per entry (numeric enclosures of
  `√2 cos(jπ/16)`); the Parseval identity of the basis turns a bound on the exact samples into bounds on the coefficients,
  on the intermediate columns and hence on every `int32` intermediate.  Proved for blocks whose exact samples lie in
  [-255, 255]; false for arbitrary saturated coefficients (`C51_false`).
* C53, C54, C56: planes as index functions with explicit bounds (panic outside).
* C55: arithmetic over all f_codes.
* C57, C58: `step` is shown to have a fixed effect on the frame store and counter (`step_effect`), decoding is shown independent of the frame counter (`Sim`), then induction over groups of pictures. False beyond 1024 pictures per group of pictures.
* C59, C60: bit lemmas; induction on the number of escapes.
* C61: `Pipe/Spec` states the contract between two readers: `IsSource reads br` says that `br` is the bit reader over a reader whose Reads, for every list of positive sizes, return `reads`; `IsSource.unique` shows that this determines `br`. The units of the transport stream (C14) then are the segments of the bit reader of the PES layer; induction over the units with `Next` of PES (a packet of unknown length runs over the end of its unit without a visible `EOP`, one of known length does not), and C26 for the Reads. `exists_carries` (a multiplexer) shows that every list of units is carried by some transport stream.
* C69-C71: a reference decoder over syntax elements (`RefSpec`, `PicSpec`) written from clauses 7.2-7.6 of ISO 13818-2, with the rounding of this decoder (see C56); the Go decoder run on the encoded bits of a legal macroblock, slice, picture produces the reference decoder's image. Scope: 4:2:0, frame pictures, frame prediction with frame DCT in predicted macroblocks, concealment vectors only with frame_pred_frame_dct (else every intra macroblock panics: `C69_conceal_false`), vectors inside the reference pictures.
* C72: encode/decode round trips field by field.
* C73: `Spec.ItemsCode` describes the bits of a list of extensions and user data; induction on the list through the two nested loops of extension_and_user_data.
* C74: the whole table.
* C75: `StreamSpec` describes whole streams: `GroupsCode` relates the bits of groups (a reference picture and the B pictures displayed before it, each with optional sequence and group of pictures headers, extensions, user data and stuffing) to the images of the reference decoder in display order. Proof: the headers are round trips (C35-C43, C73), the pictures C71, the references and the order C57, C58; the invariant between pictures says which image every frame of the frame store shows.
* C76: C61 and C75 joined by `IsSource`.
* C77: every parser only moves forward (`BR.Moves`: the rest of the input is a suffix), every loop round consumes bits, so the fuel never runs out; the only loop that can spin is that of extension_and_user_data(1), and inverting the parsers shows what the input looked like then (`GroupThenExtension`). `C77_progress`: pictures cost input.
* C78, C79: causality (`Caus`, CausLemmas*.lean): every parser does the same on a truncated input and on its continuation, unless it comes to the end of the input; then it reports an error of the end of the input and nothing is left. `outcomes` (CausSpec.lean) is the list of what consecutive calls return. The two exceptions inside the parsers (alignment at the very end succeeds, two results are ignored by the source) are carried by `Weak` and absorbed by the read that follows.
* C80: any sequence header (`encSeq` of C36) with leading zero bytes, padding and stuffing, then any start code but that of an extension.
* C81: from the result of next_start_code after every slice (`NscResult`) and the peek of the slice loop.
* C82, C83: `Used` (ShapeSpec.lean) are the states of a decoder in use; the invariant is that every frame of the frame store fits a buffer of `createFrameBuffer` and consists of bytes (ShapeLemmas*.lean). For 4:2:2 and 4:4:4 no macroblock succeeds: either the pattern panics or block 6 has no channel.
* C84: simulation (HeapLemmas*.lean): inside a picture the current frame is apart from the references because its address is new; between pictures all addresses of the frame store have been allocated. `Held` (HeapSpec.lean) says which addresses the decoder still has; `HUsed` allows the caller to write through any pointer between calls.
* C85: the decoder of the standard with exact arithmetic (IsoSpec.lean: `realIdct` rounded, `isoInterpolate`, mean rounded up, chroma vectors towards zero), which shares with RefSpec.lean only syntax elements and states, not arithmetic. Simulation with a distance (`Twin`, IsoLemmas.lean) from the reference decoder; C75 carries it to the frames. It removes the reliance of C69-C75 on the rounding of the source: 1 per transform, 1 per prediction, 2 for the mean of two.
* C86: C31 and C75 (C85) joined by `IsSource`, as C76.
* C87, C88: `RecoverSpec` says what an entry point is (`Entry`) and what a stream of several sequences is (`Sequences`). The theorems quantify over all decoder states `s : VS`, reachable or not. `RefsRel` (RefRel.lean) requires reference frames only of pictures that refer to them, so an I picture decodes the same whatever the frame store holds; `RefsIf` and `SameIf` are the versions in which the past frame is only required if some macroblock uses forward prediction, so B pictures of a closed group decode the same too (example with a real stream: `RecoverExamples`); `groups_entry` shows that the pictures from an entry point on do not depend on what precedes it, `groups_drop` splits a stream at a group.
* C89: `TS/NoiseSpec` defines streams with noise. The proof is a bisimulation: `Sim` relates a state on the noisy stream to one on the clean stream, `InStep` says that a program has the same outcome on related states; for the demuxer the relation is preserved by every step of either side.
* C90: composition of C89, C61, C31 and C87 (`Pipe/TuneProps`); the same file has C88 on top of the readers.
* C91: `TS/ConserveSpec` has the histories of Reads (`all`) and of the calls of `Next` under them (`Calls`). Invariant of `Read`'s loop, induction on the history; nothing is assumed about the input.
* C92: `PES/TruncProps` relates a run on a prefix to the run on the whole packet (`Tr`): it agrees until the input ends.
* C93: one step of `Next` and induction on the number of calls (`Video/FaultProps`, which also has counterexamples to extensions of C59, C66, C70).
* C94: decimal and hexadecimal printing are injective; the separators are no digits.
* C95: inversion of every header parser (`AcceptLemmas`): from a successful run to the bits read, field by field, then to the encoder of the specification. Together with the round trips (C35-C43, C73) each is an equivalence.
* C96: from C95 and the round trips, with the error of next_start_code kept next to the header.
* C97: `Video/SynSpec` is a grammar: languages of bit strings, no values and no decoder state but the headers. `Reads p m v L` (SynLemmas) says that a program accepts exactly the words of `L` (if 24 more bits follow; it may panic) and that its result tells no more than `v`; it is closed under the program constructs, so the parsers of vectors, modes, blocks and macroblocks get their language by composition. The swallowed error of coded_block_pattern is the only place where this fails: `BrokenWord`. SynLemmas3 has the loops over macroblocks and slices.
* C98: `Video/PanicSpec` has the languages of the faults. `Traps p m I F G` (PanicLemmas2) says that a program panics on data that begins with a word of `F` (if 24 more bits follow), and otherwise only on data that begins with a word of `G`; composition with `Reads` of C97 gives the faults of blocks, vectors, macroblocks, slices and pictures. `C98_fits` turns the bounds of the writes into a bound for addresses. `Video/PanicSpec2` adds the vectors: the languages of macroblocks carry the predictions and vectors before and after (`Vecs`), so that the faults of predicted and of skipped B macroblocks are languages too. `RG` (PanicLemmas6) is `Reads` with the vectors in the state; PanicLemmas7 and 8 repeat the composition (`C98_exact_sure`, `C98_exact_only`).
* C99: `TS/PipeModel` composes the demuxer machine with the `PayloadOnly` goroutine on one channel; both refer to the one packet `p` of `Go`, so a slice under way is a length only and its bytes are those of the buffer when the consumer receives it. `FastReach` restricts the schedules.
* C100: `Blame P Q m` (NextPanicLemmas) says that each panic of `m` has a place: a state `t` reached by moves of the reader at which the decoder hits an unimplemented extension or picture data on which `pictureData` panics, and that differs from the state after the panic in the reader only. `C98_exact_only` turns the latter into the faults of the data.
* C101: `TS/LifeModel` puts the configuration calls, `Go` (any number of times), the closed channels and the deferred function after a panic around the machine of C16-C18. `First` is the invariant of the first run (it is a run of the old machine until a panic), `Again` that of a run that begins with closed channels.
* C102: `FieldSpec` has frames of one or two coded pictures (`FGroup`, `FLegal`), the picture two fields make up (`frameOf`) and streams of pairs of intra fields at the bit level (`FieldsCode`). `fgroups_next` extends the order proof of C57/C58 by pictures whose temporal reference has passed; `pictureData_field` is an equality of programs: the data of an intra field picture are decoded as those of a frame picture with frame_pred_frame_dct = 1, from which the samples follow by the proof of C75. Predicted field pictures are covered in the order only.
* C103: inversion of `Next` and of the adaptation field (`TS/AcceptProps`): from a successful run to the bits taken, field by field, then to a packet of `TS/Spec`. `Faithful` is a condition on what is reported only.
* C104: `next_inv`, `readHeader_sound` and `bounded_took` (inversion of the parser) against the encoder of `PES/Spec`; the equivalence gives the packet returned and the state of the reader in each of the four cases.
* C105: as C104, with `encPHdrLen`, the encoder with a free header_length, for the exact statement.
* C106: the transition system of C32 with the deferred calls after a panic, the closing of `d.packs` and `Go` made explicit (`Life`, `LifeStep`). A first run without a panicking packet is exactly a run of C32 (`C106_first`, `C106_covers`).
* C107: the four start codes without which no picture comes out of the decoder (`Occurs`: at any bit), by an invariant over the history of calls (`Idle`: no code left, nothing decoded); without an extension code all calls return errors (`C107_harmless`, with C77); the exact outcomes on a stream of ISO 11172-2 (`C107_mpeg1`, with C80 and C93).
* C108: infinite schedules of the demuxer of C16-C18 (goroutine step, consumer starts a receive, or nothing): with a fair scheduler and consumers that keep receiving everything is delivered and closed after finite time (`C108_live`, by the work measure of C18); such schedules exist for every demuxer and source (`C108_fair_exists`); the demuxer runs in lockstep with its slowest consumer (`C108_lockstep`), so one that stops receiving stops all (`C108_abandoned`).
* C109: the same for the program stream decoder of C32 (`C109_live`, `C109_live_program`); sequential reading is a function (`hist_det`), so a packet left unread fixes where every run can be (`C109_lockstep`).
* C110: decoder, pack goroutine, `PayloadOnly` goroutine and the program that ranges over both as one system (PS/PipeModel); every state projects to a state of C32; invariant `PipeInv`. Payloads are passed by value because every packet has its own buffer (contrast C99).
* C111: `Emits` gives what `Next` returns for pictures in any order, from the effect of a step on store and counter; `emits_calls` shows that it does. `Ord` is the part of the coding order that survives the removal of pictures; `LostSpec` states the damaged groups and what is due of them. False as stated.
* C112: `readToEnd` (Base/ReadToEnd.lean) is the consumer. `upTo`/`cut` reduce it to the Read sequences of C11, C14, C26, C31. For program streams without end code `step_open` repeats the run of C31 with anything behind the packs, and `Stuck` is an invariant under which every Read returns (0, nil).
* C113: `pr_source` says which bit reader the PES reader gets from the transport stream payload reader (C11), `run_unit` runs it over packets of known length and a last one of unknown length (`next_unbounded`), C26 turns this into Reads and C75 into pictures. `C113_swallow` is the same theorem with the rest of the stream counted to the last packet.
* C114: induction over the fill loops, from arbitrary states; no hypothesis on the source.
* C115, C116: `Spec.shown` pairs every packet with the payload the readers take for its own; `observed_shown` relates it to the packets of the model, C11 and C14 turn it into Reads. C116 compares two streams packet by packet.
* C117: `skip_reads` is C13 for encoded streams and any tester of the header; `pes_unit` (C113) and `tune` (C90) do the rest.
* C118: a slice starts from a state that depends on its header only, so its image is a function of the old picture outside the macroblocks of the slice and independent of it inside (`image_cover`, `image_uncovered`); its bits can be put at any byte boundary (`slices_move`). C71 does the rest.
* C119: by induction over the groups, the stream without the lost slices is again a stream of C75, with other pictures (`groups_lost`); `exposed` follows the references.
* C120: invariants over histories. `Few` for the frame store on the heap of C84 (`HUsed`), `Slim` for the readers.
* C121: the models of both `Packet.Next` with a log of `make` (AllocModel), a proof that the log changes nothing, and a triple (`Asks`) for what is requested and what the source must have had on success.
* C122: a measure of what is left of the input (`BR.todo`) and a compositional predicate (`Prog`, with `Takes`) saying that an error means progress; the calls after an error as functions of the state (`again`, `PR.calls`).
* C123: a transport packet together with the bytes it contributes (`Piece`), so that losing packets is taking a sublist; the reduction to C61 by division at the unit starts; the pictures from C119. `packets_exist` shows that every stream of C119 can be sent like that.
* C124: `Local` says that a call consumed bits that were there and does the same on every source that begins with them (and with `p` bits of lookahead). It is compositional: `Loc` for every parser, a dropped error of `Skip` is either harmless or leaves nothing for the next read (`LocD.kill`). `Local.cut` and `Local.more` are the two readings. The loops whose number of iterations the model bounds by the length of the input need an argument that fewer suffice.
* C125: `Near m` says that a run on a cut input is the run on the whole input, or ends at the cut while the run on the whole input ends less than 32 bits before the cut or behind it; with monotonicity of the position this is compositional without any distinction of results (`Near.byHandle` covers code that goes on after an error), so every function has a one-line lemma. `LeN` compares a loop with the same loop with more fuel. `C125_picture` joins `Near` with C81 (the reader stands on a start code) and the causality of C78.
* C126: `Begun` describes the beginning of a stream behind any coded picture; `groups_cut` shows that every legal stream has such a beginning for every number of coded pictures. The proof reuses the invariants of C58 and C75 (`Mid`, `Between`) for a group of which only the first B pictures have come.
* C127: `Near`/`Caus` for any number of calls give an exact statement about cut elementary streams (`nexts_exact`); `core_mono`, `core_last` and `complete_iff` translate a number of bytes into the packet that carries the last of them and the first unit start behind it.
* C128: `headers_step` reduces a step on intact headers to the picture data; the data fail because C97 accepts only the syntax; `pictureData_state` keeps the headers; `closed_next` is C87 with the headers in force instead of a sequence header.
* C129: `Base/ErrSpec` says what the errors of a source are and when it has been read to its end. `Go.Er F gt m` (Video/ErrLemmas) says that `m` only moves forward over the input (C122) and that its errors are in `F` or the source's; it is closed under the program constructs, so the lists of the parsers come by composition (Video/ErrLemmas, Pipe/ErrLemmas). Pipe/ErrProps has the theorems and one input for each error.
* C130: `Video/DamageSpec` describes pictures of which slices arrive with other contents (`LooksLikeSlice`: a slice of the syntax of C97, of any row) and which samples are `unharmed`. `Frame.Below` (Video/DamageLemmas): the parts that write to the frame, started in row `row`, keep all samples before `16*row*stride`; so a slice with arbitrary contents changes nothing above its row (`slice_below`). An intact slice is decoded on top of any frame, in particular of one that a damaged slice has left behind (C70, with `slices_move`), and what it covers does not depend on that frame (`image_cover`). `sliceLoop_damaged` runs through the pieces and keeps track of the samples that agree with the picture sent. Example: a picture of 2 × 2 macroblocks, a slice of which is replaced by one that overwrites the macroblock before it and runs over the end of its row.
* C131: `Video/SessionSpec` lists the events of a session (a picture, or a failure) and the pictures that are `kept`; `Steps` and `watch` (Video/SessionLemmas) are the session and the application. `step_fails`: a failing step leaves the two slots of the frame store and the counter as they were, or as a group of pictures header leaves them (`gopRead`). `Emits` (C111) is the list of frames for any pictures; `emits_some` shows that it always exists, `emits_watch` that the application gets it, `emits_rel` that it depends on the headers only. No legality of the stream is assumed. `realign` is any computation on the reader. Finding (`C131_align_false`): after damage in the last picture of a group, `AlignTo` with the picture start code passes over the next group header, the frame counter is not reset, and intact pictures of the next group are decoded but never returned; with the group start code they are returned.
* C132: `Video/RoundsSpec` says which streams are meant: `UpTo` is the beginning of a stream up to the end of any coded picture (in the last group B pictures may be missing) with the pictures that can be displayed so far; `BadPicture` a picture with intact headers and data that violate the syntax; `Received` pictures, a damaged picture, pictures from the next closed group on, and so on up to the sequence end code. `Play` and `Viewing` are the application: `Next` until it fails, `AlignTo` with the group start code, and so on. The proof goes round by round (`round`): after a failure the headers in force are held and nothing is left to display (`bad_fails`), and `AlignTo` finds the next group (`realign`), which is where the induction hypothesis applies. Example (Video/RoundsExample): six pictures, a damaged B and a damaged P picture; the three I pictures are returned.
* C133: `Video/DriftSpec` has the relation of frames (`FrameNear`), stores and decoders (`Twins`), and the applications (`Action`, `perform`). `Go.Step` (Video/DriftLemmas) is a relational logic for two runs in step; it is carried from samples (`sample_near`: the means and the clamp are monotone and commute with adding a constant, so they do not enlarge differences) over blocks, macroblocks and slices to `Next`. For I and P pictures (Video/DriftLemmas3) the invariant is that the flags of backward and, in I pictures, forward prediction stay off. No legality of the stream is assumed.
* C134: C134 (SpreadSpec, SpreadLemmas*, SpreadProps): the relational reasoning of C133 for an arbitrary relation between frames that single blocks and copies respect (`Respects`, `twins_picture_rel`), together with the range of the vectors of C55 as an invariant (`VecInv`). Instance: frames that agree in a set of samples. The distance is counted along the plane, because the source does not check vectors against the ends of the lines.
* C135: every list of 8-bit images of every size up to 16383 × 2800 has a stream that the decoder turns into these pictures within 4 levels (`C135`), also through transport streams on every PID (`C135_ts`) and program streams with packs of every size (`C135_ps`). Uses the orthogonality of the DCT matrix, `C51_intra_partial` style error bounds and existence of codes for every block.
* C136: every picture returned by `Next` is paid for by 168 bits of the input of its own, over the whole life of a decoder (potential argument: pictures that wait in the store and can still be returned count as bits not yet consumed)
* C137: the pictures returned over the whole life of a decoder together have at most 1152 samples that are not 0 for each bit of the input; the potential of C136 with the number of samples as price and 1152 for each bit; the samples of one macroblock (skipped ones included) are bounded by its bits through the table of address increments
* C138: bytes returned against bytes consumed: potential functions over the readers (bytes kept plus a price for every bit of the source); the bounds, and streams that attain them.
* C139: header fields that decoding must not (or, like progressive_sequence, in this code does not) depend on are left out of a relation `Alike` between decoder states, which also forgets the number of bytes read; every function of the decoder keeps it (`Blind1`/`Blind2` for the reader and macroblocks, `Blind3` for the sequence level, `EnvAlike` for the picture environment), so results are equal (`C139`). `C139_headers`/`C139_calls` replace the encoded header block before a picture by another one (`HeadsAlike`), of any length.
* C140: `SamePictures` (EquivSpec) relates pictures with the same content; the picture that the reference reconstruction gives to a list of slices is, at each sample, what the slice that covers the sample gives it (`slices_value`), so order and repetition do not matter (`same_slices`), and a slice gives the same samples in two environments that agree in the fields named (`EnvSame`); with C75 on both sides this is `C140_partial`, with C71 `C140_slices_partial`.
* C141: `Since n` relates stores with the same last `n` references whose other slots are old; `refersSince` follows one decoder and checks each picture's references against the store. Slots are selected the same way (`past_set`, `future_set`), I pictures depend on no frame and P pictures on the past one only (C133), so results agree and `n` grows with each reference picture decoded.
* C142: `Joined n` relates decoders on the same input that agree in the first `n` kinds of headers read since the entry point; each header that is read makes them agree in more (`Gain`), so that behind the headers they are `Twins (Since 0)` and C141 applies. `C142_file` moves the input to position 0 by C139.
* C143: inversion of each reading step on a panicking run gives the word, the encoder lemmas the converse. Strengthens `C06_panic_only_partial` and the panic parts of the PES claims to an exact set.
* C144: each chain is a source of the bytes (`IsSource`), and sources are unique, so the bit readers are equal; hence for all inputs, not only those of C75.
* C145: the hypothesis is an invariant of every reading step (`Calm`, `Keeps`); a panicking step of `Packet.Next` gives, by C143 and the inversion of `sync`, a forbidden word at the place where the packet began.
* C146: each code word gets a bound on the zeros at its start and its end and on its longest run inside; 'at most a zeros before the first one, at most b after the last, never 23 between' composes over concatenation (`Fit`), and `prefix1` needs 23 zeros. The restrictions are necessary: level 0 in an escape, scale code 0 and a reserved `f_code` each have a counterexample (`C146_level_false`, `C146_scale_false`, `C146_fcode_false`), and `f_code` 9 is the exact bound (`C146_ten_false`).
* C147: as C146: every header field has a bound on the zeros at its ends; `Fit 0 22` for each element, with sizes 2048 x 1 and picture structure 01 as the border cases that reach 22 zeros. `C147_absent` gives the hypothesis of C87, C90 and C128 about the data that are skipped.
* C148: two prefixes never overlap (`prefix_apart`), an occurrence on one side of the gap is one of the uncut stream, to which C147_stream applies; so only one can overlap the gap. For any number of gaps: behind a false code there is one part less (`gap_code`). `Pipe/GapChain.lean` joins C147 and C148 to the chains of C90 and C123.
* C149: the coding of C135 (I pictures, quantiser 1) with zero stuffing is a clean stream in the sense of C147 (`parts_clean`: no event has level 0, all fields that the standard forbids to be 0 are not), at every aligned position the same bits; C147_seek_partial and C148_resume_partial then apply to every suffix of the list. For recordings, what the packets from any one on carry is a suffix of the elementary stream (`core_drop`).
* C150: the invariant `Inside` of C111 with a counter ahead of the pictures: late pictures are missed and leave no frame at the counter in the store; the counter after complete groups is the maximum of their lengths.
* C151: invariant over histories: a picture in a slot of the current group of pictures that has been returned has a temporal reference below the counter, the two slots hold different pointers, and every decoded picture gets a pointer never used before; the counter never exceeds 1024 (from C136), so it does not wrap.
* C152: invariant: a slot of the frame store that is not of the previous group holds a picture of the current group with its temporal reference; induction over the decoded pictures, with an inner induction over 1024 minus the counter for the calls that find their picture in the store.
* C153: relation between two frame stores that differ in the pictures only, kept by every decoded picture; the list of positions is read off a run over pictures that are marked with their positions.
* C154: every run over pictures can be continued over further pictures without changing what it returned, with the relation between frame stores of C153.
* C155: the induction of C152 with a further invariant: if pictures with the temporal references from the counter on are still to come in order, as many are returned; a picture that is not the awaited one does not change this, and neither do pictures found in the store.

## 4. What the proofs found in the code
Items with a theorem name are machine-checked on the model; the others were noticed while reading the code for the model and are not proved.

Transport stream
* Seamless splice data read 39 of 40 bits, so the rest of the packet is shifted (`C04_false_splice`, `C09_false`); short adaptation-only packets and control 00 do not consume 188 bytes (`C04_false_short_af`).
* Adaptation field longer than 183 bytes with payload panics (`C06_panics`). Transport private data length larger than the field underflows a `uint32`, and everything that follows is taken as stuffing (`C04_false_private`).
* `Packet.Next` keeps the payload and the adaptation field of the previous packet (`C07_false`).
* Payload reader: the part of the packet rejected by TakeWhile that does not fit the current Read is lost (`C12_false`); SkipUntil without a match never returns (`C13_hangs`).
* Unit reader: the last unit is never delivered (`C14_false`); after a non-EOF error in the initial seek the next Read treats the stale packet as part of a unit (`C91_unit_before_start_false`); the unit buffer is not cleared after an error inside a unit, so its bytes are delivered twice (`C91_unit_duplicated_false`).
* Demuxer: one `Packet` is shared by all sends (`C19_overwritten`); `PayloadUnit` never sends because its condition is inverted (`C20_payload_unit_silent`).

Packetised elementary stream
* Time stamps and SCR lose bit 32 (`C22_false`, `C28_false`).
* ESCR, ES rate, trick mode, copy info, CRC and several extension flags panic (`C62_panics`).
* `HeaderDataLength` smaller than the fields read, and `PacketLength` smaller than the header, underflow (`C24_false`).
* Stream ids without header, other than padding, consume 6 bytes only (`C63_false`). A failed read of a marker bit is reported as a missing marker (`C92_marker_false`).
* The payload reader repeats the previous payload for packets without payload (`C26_false`).

Program stream
* AudioBound receives the video bound, VideoBound stays 0 (`C29_false`).
* Truncated streams lose bytes silently, packs without packets are misparsed, Read after the end returns `0, nil` (`C31_false_*`). The pack reader inherits the panics of `pes` (`C64_false`).
* The pack reader does not select a stream: a program with audio packets gives the video decoder their bytes too (`C86_audio_false`).
* The decoder goroutine masks packet errors (`C32_masked_error`).

Video
* Quantiser matrices are stored in raster instead of zigzag order (`C36_false`). An extension start code after a group of pictures header makes the decoder loop forever (`C42_false`, `C77_never`, `C77_false`; no other input does: `C77_partial`). A picture is delivered only if a start code follows it (`C81`): the last picture of a stream without sequence end code is lost (`C81_lost`). Copyright, picture display, spatial and sequence scalable extensions panic (`C73_rejected`). `ExtensionID.IsReserved` misses 11 (`C74_false`). quant_matrix_extension ignores a failed id check (not observable, the id was peeked before the call); sequence_display_extension ignores a failed read of the colour description flag (not observable, the next read fails too).
* A block with more than 64 coefficients panics (`C47_false`). coded_block_pattern errors are swallowed (`return 0, nil`; `C59_error_swallowed`), so slices outside the standard's syntax are accepted (`C97_false`).
* `demuxer.Where(...).PayloadOnly()` may lose data: the demuxer parses the next packet into the buffer of the slice that the consumer has not received yet (`C99_overwritten`).
* A consumer of the demuxer that stops receiving stops all other consumers, and the goroutine stays (`C108_abandoned`, `C108_done_unread`); a consumer of the program stream decoder that takes packs without draining them gets one pack (`C109_program`).
* A panic of `Next` in the demuxer's goroutine first looks like the end of the stream (channels closed, `Err` nil, a value from `done`), and the program does not crash before somebody receives from `done` (`C101_panic`, `C101_hidden`). `Go` cannot be called twice: the second run sends on and closes closed channels and crashes (`C101_again`, `C101_crash`); `Err` keeps the error of an earlier run (`C101_err_kept`).
* Slices below the picture, macroblock addresses beyond its last row, motion types 0 and 3 (dual prime), concealment vectors in pictures with frame_pred_frame_dct 0, and skipped macroblocks without a reference panic (`C98_sure`, `C98_panics`). Addresses beyond the right edge of any other row do not: they overwrite the lines below (`C98_fits`). Likewise vectors beyond the upper and lower edge panic, those beyond the left and right edge take samples of other lines (`C98_prediction`, `C98_inside`, `C98_outside`, `C98_panics_vector`).
* After a sequence extension in error the decoder has a sequence header but no extension: the call of `Next` that follows the error panics on the next picture, whatever it contains (`C100_missing`).
* The IDCT overflows `int32` for saturated coefficient blocks (`C51_false`). The DC predictor of a slice is not bounded: after 131137 luma blocks with the greatest difference the reconstructed DC coefficient changes its sign (`C49_false`).
* Half sample averages are truncated instead of rounded (`C56_iso_false`), chroma vectors are floored instead of truncated (`C56_chroma_iso_false`); vectors that leave the frame horizontally read the adjacent line (`C56_left_unchecked`); macroblock addresses beyond the row are not rejected (`C53_address_unchecked`); a P picture without reference panics (`C54_no_reference`); a slice row outside the frame panics (`C70_row_panics`, `C70_row_false`).
* Field DCT in predicted macroblocks is combined with a frame-ordered prediction (`C69_field_false`). The two vectors of field prediction are decoded (`C55_field`) but only the first is used, as a frame vector (`C56_field_false`); `predictions[1]` is not updated for a single vector (`C55_second_prediction`); concealment vectors without frame_pred_frame_dct panic (`C69_conceal_false`). f_code 0 underflows `r_size`.
* Interlaced sequences are given `(lines + 15) / 16` rows of macroblocks instead of `2 * ((lines + 31) / 32)`; the last row of a legal picture then panics (`C75_height_false`).
* Field pictures are never paired: `Next` returns the first field of a frame, in the upper half of a picture of the height of the frame, and drops the second (`C102_partial`, `C102_lower`, `C102_false`).
* A transport packet whose adaptation field is too short for the parts its flags announce is accepted, and the missing parts are reported as zero (`C103_false`).
* The PTS_DTS_flags 01, which the standard forbids, are accepted as no time stamps (`C104_false`).
* The header_length of a system header and the values of pack stuffing bytes are not checked (`C105_false`).
* A panic of `pes.NewPacket` in a pack goroutine of the program stream decoder waits for the consumer to take the pack (`C106_hidden`), and if a program end code follows, it shows as the end of a complete program, done = true, before the crash (`C106_orderly`). `Go` cannot be called twice (`C106_again`, `C106_again_false`); `Err` keeps the error of an earlier run (`C106_err_kept`).
* `Next` keeps the reference frames across sequence end codes and sequence headers, also when the picture size changes: a B picture between the first I picture of the new sequence and its display is predicted from a picture of the old sequence; if that is smaller, `Next` panics (`C87_leading_false`).
* `EOP` of the payload unit reader passes through the PES payload reader and the video decoder wherever a unit ends with a PES packet of known length (`C61_eop_false`, `C76_eop_false`); with packets of unknown length it is swallowed.
* The slice row extension of pictures with more than 2800 lines is ignored (`C70_extension_ignored`).
* The temporal reference is 10 bits, the frame counter is not: a group of pictures with more than 1024 pictures loses every picture after the 1024th (`C58_false`) and uses wrong references (`C57_false`).
* `Next` waits for the temporal reference the counter stands at. If that picture is missing, no later picture of the group of pictures is returned although all are decoded; only the next group of pictures header restarts the count (`C111_false`).
* A picture of which all slices are lost is an error, and the start code behind it is consumed, so that the next header is lost as well (`C118_none`, `C119_false`). Macroblocks of lost slices are left 0 in P and B pictures, too (`C118_partial`).
* The pack reader turns every failure to peek or to read a packet into `return 0, nil`. On a program stream without end code, or with a byte too many between two packs, `io.ReadAll` and `io.Copy` therefore spin forever, and the bytes stored by the Read that met the end are lost (`C112_forever`, `C112_stall_partial`).
* Each of the two ways to read PES packets from a transport stream is wrong for one kind of packet. Over the payload unit reader packets of known length make the reader stop with `EOP` (`C61_eop_false`); over the payload reader a packet of unknown length takes in all later packets with their headers (`C113_swallow`).
* A packet of a PID that carries only an adaptation field (a clock reference, for instance) makes both transport stream readers repeat the last payload of the stream, also if it belongs to another PID (`C115_leak`, `C115_false`).
* Continuity counter, error indicator and scrambling control are parsed and never used: duplicate packets are returned twice, gaps are silent, damaged and scrambled payloads are returned (`C116_partial`, `C116_duplicate`, `C116_gap`).
* `SkipUntil` returns the payload of the packet it stops at without asking the reader's own tester, so `SkipUntil(IsPayloadUnitStart)` puts the payload of another PID in front (`C117_foreign`).
* Packets without payload repeat the previous payload, so the readers return more than they read (C138): 184 bytes for four in a transport stream (`TS.C138_payload_rate`), any earlier payload for the six bytes of an empty padding packet in a PES stream (`PES.C138_payload_rate`, quadratic growth). A PES packet that announces less than its header takes leaves a payload of almost 4 GiB of zeros in the packet; if the source goes on after the error, the next padding packet delivers it (`PES.C138_stale`).
* At the end of its input the payload unit reader stores the last payload again with every Read (`C120_unit_end`): a caller that polls for more data leaks memory, 184 bytes per Read (`C120_unit_false`).
* Lengths that contradict each other wrap around in 32 bits and are passed to `make`: a transport packet whose private data is longer than its adaptation field, or nine bytes of a PES packet whose header is longer than the packet, request almost 4 GiB (`C121_packet_false`).
* `pes.Packet.Next` only peeks at the start code prefix and never searches for one. A single byte between two PES packets, or a packet that ends early, ends the stream: every later Read reports `ErrStartCodePrefixNotFound` and delivers nothing (`C122_stuck`, `C122_junk`, `C122_false`).
* One lost transport packet within a PES packet of known length ends the stream for `pes.PayloadReader`: the payload is completed with the beginning of what follows, and the next call does not find a start code prefix (`C123_known`, `C123_false`). With PES packets of unknown length over the payload unit reader the loss costs only the bytes lost (`C123_units`).
* With `SkipUntil`, a matching packet of which only the four header bytes are there delivers the payload of the packet before it, without an error (`C124_skip_false`): `realign` drops the error of `Next`, and the payload buffer still holds the old bytes.
* 4:2:2 and 4:4:4 pictures are never decoded (`C83`), they panic (`C83_panics`, `C59_422_panics`); the reserved chroma format is accepted and gives pictures of zeros (`C83`); a picture that waits keeps its size when a sequence header changes it (`C82_size_false`); a failed first sequence extension leads to a nil dereference in picture_data (`C66_nil_extension`). The decoder does not resynchronise after an unexpected start code (`C93`, `C93_damage`).
* Time codes before 10 o'clock are printed with one digit for the hour, the other fields with two (`C94_hours_false`).
* The intra and predicted pictures that `Next` returns are the decoder's own references: a caller that writes into one changes the pictures that follow (`C84_aliasing`).
* Pictures of a broadcast come one payload unit late: the payload unit reader hands out a unit only when the next one starts, so a picture whose following start code has arrived is not returned before a packet with a unit start has come behind that start code (C127_false).
* A call of `Next` that fails on a picture cut off by damage has read up to seven bits into the start code behind it, or more; `AlignTo` then misses the group of pictures that begins there (`C128_cut_false`).
* `AlignTo` with the picture start code after a failure can pass over a group of pictures header; the frame counter is then not reset, and intact pictures of the next group are decoded but never returned (`C131_align_false`).

## 5. Testing the theorems
`seeded/LOG.jsonl` has one line per seeded bug: the definition edited in a scratch copy, the edit, the claim it breaks, the theorems that failed and the theorems tightened.

`diff/` holds a differential test of the video model; it is a test of how faithful the model is, not a proof, and no theorem depends on it. `diff/port.py` is a line by line port of `/repo/video` to Python, written from the Go text and reading the tables out of it, independent of the Lean files. `diff/gen.py` makes random streams (intra, predicted and bidirectional pictures, frame and field modes, concealment vectors, matrices, extensions, user data, flipped bits, cuts). `diff/mk.sh` compiles the model natively in `/tmp/vdiff`, with memoised blocks and planes, and `diff/cmp.py A B` compares both for the seeds A to B: every sample of every picture, the error, panics, the final bit position and the frame counter. 1440 streams with 1944 pictures showed no difference.

The same is done for `ts`, `pes` and `ps`: `diff/sysport.py` is the port, `diff/sysgen.py` the generator (packets with adaptation fields, lost sync, cuts and flipped bits; headers, stamps, extensions, stuffing, padding; packs and system headers), `diff/sysmk.sh` compiles the models unchanged, `diff/syscmp.py A B` compares `ts.Packet.Next`, both transport stream readers with testers, `pes.Packet.Next`, the PES payload reader over several segments, `ps.NewPackHeader` and the pack reader with random buffer sizes: every field of the packets, the bytes, the counts, the errors, panics, endless loops, the bit position and the size of the buffered remainder after every call. 11500 streams with 113190 calls showed no difference. (Streams with a packet shorter than its header, where the source allocates about 4 GB, are left out.)
