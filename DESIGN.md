# Formal model of aboukirev/ouro in Lean 4

## Layout

* `lean/Verif/Go/*` – the small piece of Go semantics used by the model: panics, slices, byte strings,
  big-endian integers, `strings.*`/`strconv.*` functions.
* `lean/Verif/Model/*` – the model, function by function; every definition cites file and lines in /repo.
* `lean/Verif/Spec/*` – small specifications that do not mention the model (bit strings, Exp-Golomb codes,
  RFC wire formats, RFC 6184 `don_diff`, RFC 2617 digest, ...).
* `lean/Verif/Lemmas/*` – helper lemmas.
* `lean/Verif/Props/*` – one theorem (or a few) per property, named `Cnn_...`, each with an `example`
  showing that its hypotheses are met by a concrete case. `_partial` marks a theorem that covers only part of
  a property, `_refuted` a theorem proving that the unrestricted property is false of the code.

## Modelling conventions

* A Go function that can panic returns `Go α = Except Panic α`. A Go `(T, error)` result is a value.
* `[]byte` and `string` are `List UInt8`. Slices are values; that this makes no difference for
  the H.264 code is proved against a second model with arrays and capacities (`Model/NalHeap`, C81).
* Unsigned machine integers other than bytes are `Nat` with an explicit `% 2^k` wherever an operation can wrap;
  signed ones are `Int` with an explicit wrap function. `int` is 64 bits.
* Loops become structural or well-founded recursion; termination is therefore part of what is checked.
* Map iteration order is an arbitrary permutation argument.
* Goroutines become interleavings of explicit atomic steps.

## Plan per property

| id | model | proof |
|----|-------|-------|
| C01 | `BitReader` state (buffer, byte index, bit index), 32-bit accumulator | invariant + bit-list refinement; expected to FAIL for reads that straddle five bytes, so partial + exact law + refutation |
| C02 | same | invariant over op sequences |
| C03, C04 | Golomb readers | induction on the zero prefix, using the bit-list refinement; partial for long codes because of C01 |
| C05 | skip functions | position equality |
| C06 | SkipTrailingBits | exact characterisation; "whole tail" part is false (only the current byte is checked): refutation |
| C07 | ReadPayloadParam | induction on the 0xFF run |
| C08 | ReadScalingList | refinement to the scaling_list() recurrence |
| C09 | EBSPToRaw | equality with a zero-counter decoder |
| C10-C12 | RBSPToEncapsulated | exact characterisations of failing inputs (zero runs); refutations |
| C13, C14 | SplitAnnexB | loop invariant; inversion of framing |
| C15-C20 | NALSink | state machine; round trips through RFC 6184 encoders; exact conditions for legal H.264 units under every fragmentation (Spec/NalUnits); refutations for MTAP24 timestamps, MTAP DON, panics, lost units |
| C21, C22 | DonDiff, accessors | arithmetic |
| C23-C27 | RTP/RTCP Unpack, Pack | round trips with RFC 3550 encoders; exact panic conditions |
| C28-C34 | ParameterSets | store = abstract map; round trips through SPS/PPS bit encoders; refutations (1080p crop, poc type 2, PPS without extension, ...) |
| C35-C37 | sdp.Parse | fold over lines; section locality; exact panic condition |
| C38-C40 | Playlist | ring refinement to the list of all segments; exact bound 2n; refutation |
| C41-C45 | Digest | md5 abstract; RFC 2617 spec; the whole grammar of challenges in Spec/Challenge, with an exact law (C41_iff); which nonce counts repeat, exactly (C44_iff); refutations for md5-sess and nc |
| C46-C48 | Transport | text round trips |
| C49-C51 | Request/Response | text round trips, any map order |
| C52-C54 | Conn reader + receive | stream reader with explicit timeouts and the 2048 byte buffer limit; exact law by induction on what arrives (C52_exact) |
| C75 | Session, Main | totality of every operation under an invariant on protocol and stored descriptions; exactly when the session and the client panic (C75_session_iff, C75_client_iff) |
| C73, C74 | Message | which status and header lines `Unpack` accepts, for every line; pack and unpack composed |
| C55-C61, C64, C72, C77, C79, C80 | Session | state machine over commands and responses; concurrent variant for C56, exact law C56_iff by counting numbers (Props/Overlap); `C56_same_run` (Props/ConcurrentSame): with one goroutine the concurrent model and the session model have the same counter, queue and numbers written |
| C62, C63 | UDP sink loop, HTTP write | step machines; refutations |
| C65, C66 | handleStates | step machine composed with the RTP and NAL models; a sender of legal units (Spec/Sending), which may pad its packets (Spec/Padded) |
| C76 | receive, handleStates | invariant on what was read and what is left of the message sequence, composed with C66 |
| C84 | the client together with a server and a schedule (Spec/Dialogue) | well-founded measure that some fair event always lowers; three refutations by runs that get stuck |
| C81-C83 | annexb.go and packet.go over a heap of arrays | refinement to the model with values; ownership invariant over histories; refutations; `C83_list_exact` says what a kept list shows after any one NAL unit: the new units, and the old ones behind them (a property kept by every `append` to the units is kept by `parseNAL`); `C83_list_many` for payloads of any number of NAL units (Spec/Covered.lean) |
| C85 | Transport.Parse | for every text, accepted exactly if every field is in an independent grammar; refutations |
| C86 | `bufio.Reader` with pieces (Go/BufioChunks), receive, http.go, client | generic model over the methods of a reader; simulation between two readers that hold the same events; C86_array: the same client on the array of `bufio.Reader`, by a map from its states to unread bytes |
| C87, C88 | process with a clock (Model/Process) | invariant over histories with increasing times; exact law for a turn; refutations |
| C89 | handleRtsp; Spec/FollowUps | case analysis for every status; exact law C89_iff (and C72_told_iff) in Props/FollowUps; refutations |
| C90-C92 | Dial up to the network, `net/url`, `net.SplitHostPort` (Go/Url, Model/Dial) | grammar of addresses after RFC 3986; decomposition of any text into parts; non-interference; classes of bytes; C90 also for addresses with an empty port or a fragment (`C90_exact`, `C90_port_iff`, `C90_fragment_iff`) and for all without `//` (`C90_no_host`) |
| C93 | NewPlaylist with `path.Join`, `filepath.Base` | relational spec of percent-escapes; induction over components; `C93_any` (Spec/Walk): every path and credentials |
| C94 | NewDigest, Authenticate, Pack, Dial | exact laws; refutations |
| C95 | handleRtsp (DESCRIBE), Setup, Dial | exact law relative to RFC 3986 5.2 and RFC 2326 C.1.1 (Spec/Resolve); refutations |
| C96 | the whole session | two runs with different credentials, induction over the history (non-interference) |
| C97 | Unpack, NewDigest, handleRtsp; Spec/Offers: challenges in lines of their own | exact law (the last line counts), composed from C50, C41 and C58; `C97_iff`: Digest is used exactly if the last challenge is a Digest one; refutations |
| C98 | ParsePPS: the one slice whose size is a number in the data (Model/Alloc) | instrumented prefix of the parser, tied to the parser for accepted data; every accepted unit takes a bit; bound for all data from the bits each number takes, with data that meets it; refutations |
| C99 | ParseSprop, ParseSPS, ParsePPS | NAL units with emulation prevention bytes (Spec) carried over to the parsers' input: what was sent is there while the bytes are clean; refutation |
| C100 | Push, AddFragment, handleStates | the sender of C66 with packets lost on the way (Spec/Loss); induction over units; refutations for every unit in fragments |
| C101 | handleStates, process | the client of C65; deadlock = no event changes anything (Spec/Deadlock); law from the invariant of C65, induction over schedules |
| C102 | String, AddSegment | a reader of media playlists after RFC 8216 (Spec/Playlist), applied to the rendered text; induction over the segments; refutations for all histories |
| C103 | handleStates, Unpack, Push | arrivals as merges of packet sequences (Spec/Streams), on top of the pipeline law of C66; induction over the merge; refutations for all units |
| C104 | handleStates, Push | two senders on two channels, merges as in C103; any number of senders, induction over the packets with the unit that has begun; refutation for all overlapping units in fragments |
| C105 | rtcp Unpack, handleStates | frames as lists of RTCP packets (Spec/Compound); reading below a length is independent of what follows; exact law of acceptance |
| C106 | Pack, session, Dial, Digest, SDP | a server that cuts the bytes of a connection at empty lines (Spec/Wire); invariant: no text in the session has a carriage return, no URI a blank; refutations by injected requests |
| C107 | main, rtp, packet | the client as a function of the packets it has taken (Lemmas/Replay); two clients with equal timestamps and contents report the same; refutation by an audio packet |
| C108 | main, packet, session | invariant over all client steps for the channels; exact content of the fragment buffer; families of runs, one for every size, that refute a bound for fragments and pending requests |
| C109 | feed | TransportSetup against the grammar of C85 and an inductive reading of all parameter sets; induction over calls; refutation by a refused header that turns TCP off |
| C110 | `Open` on any reachable session of Model/Session, its first request and the answer to it | Invariant: the session holds credentials exactly if it has answered a challenge. The first request is exactly characterized; that passwords and session identifiers reach the next server, and that a session that has reported a stage never gets past OPTIONS, is proved as refutation. |
| C111 | handleRtsp, process, the client of C65 | `Spec/Unusable` says which responses a session can use; which of them give an error is proved exactly. A request of the server or another message that cannot be used ends the reading for good, for every schedule of the client. |
| C112 | the methods of Session before `Open`; each says where it reads through the nil `*Conn` | Exactly which sequences of calls panic, and that no history after `Open` does. |
| C113 | `handleStates`, the loop of the command line client, with the session below it | Pipeline invariant of C66 with the frames split into those of the two channels; a run for each odd channel, by the kernel, for the exact law. |
| C114 | The client of C65/C66 | The trace determines the state of the unit assembler (`NALSink`): invariant that it is a fold over the video packets taken; two runs with the same packets agree |
| C115 | Session of C55, all its operations | Simulation: the run with frames and the run without them stay equal but for the frames in the log; `Blind` says that the network does not look at them |
| C116 | Model/Clock: the client of C65 with a time on every step; `tmr.Reset` notes the time, the timer fires five seconds later or after | Invariant over timed runs: the timer has fired only five seconds after the last stage that set it, and everything that must wait came after it |
| C117 | The client of C65/C66, `Push` and all below it | Invariant: the kept fragments and every reported unit are sublists of the video packets taken; each parser returns slices of its input |
| C118 | As C117 | Potential: reported bytes plus the bytes of the unit that is open are at most the bytes received; a run for every n for the refutation |
| C119 | Model/Cost: the parsers of Model/ParamSets once more, each call of ReadBits and each round of a loop counted | shown equal to the parsers (C119_same); amortised: every loop whose length is read from the data consumes a bit per round, so steps ≤ 24·bytes + 482 (C119_sps, C119_pps_partial, C119_sprop_partial); fails for 2^32 slice groups where uint(-Inf) is 0 (C119_refuted) |
| C120 | `Model/Main`, `Model/Session`, `Model/Receive`; `Spec/Amount` counts requests and the bytes not yet taken | a potential: ten times the requests sent, stages to be received and timers set, and the bytes left, never grows; a response takes thirteen bytes and its body, a video section of a description ten bytes (`Lemmas/Amount`) |
| C121 | `Model/Main`, `Model/Session`, `Model/Receive`; `Spec/Firsts` counts first requests by method | the session of the client has gone through a history of commands and items read (`Lemmas/ClientRun`); an invariant weighs a pending OPTIONS as one DESCRIBE and 204 SETUP, a pending DESCRIBE as 204 SETUP (a body has at most 2048 bytes, a video section takes ten); PLAY, PAUSE and TEARDOWN by C65; repetitions by C60 |
| C122 | the session and the client after Done | invariant: nothing is pending in the client once Done is reported; one-step law for every session; refutations; `C122_iff` (Props/OverExact): exactly which sessions stay over, by a response to each kind of pending request |
| C123 | the client with its log (Model/Log): entries of the session and of the loop, `log.Println`, the error of `url.Parse`; texts of errors and times are left open | simulation: two runs that differ in the credentials stay equal but for them as long as the challenges do not tell them apart; for Basic the invariant of C79 on the printed requests |
| C124 | the client with its log (Model/Log); a reader of its output (Spec/Output): lines, dates, lines that begin with `NAL ` | no request and no header of a response has a line feed in it: invariant of the session over all that can get into a request (Lemmas/LineFeed) and of what can be read from the connection; each entry of the log then says what it should; refuted by a description and by a user name that forge a line |
| C125 | the session with listeners (Model/Session), where listening on a port can fail for the moment or for good; the goroutine that reads with its clock (Model/Process) | invariant over all histories: every listener in `sinks` was opened with those before it open; induction on the grants before the one that fails, then evaluation of the answer; refuted by runs in which Ready is reported without listeners for a stream, and by a law: once reading has ended nothing is reported |
| C126 | Transport.Parse, ParsePair | every text cut at semicolons; the first bad field (Spec/TransportField) splits the header; what it leaves is a relation of its own (Spec/Spoilt); case analysis over the names |
| C127 | Setup, command and handleSetup with other goroutines, one access to shared memory at a time (Model/ConcurrentSetup) | invariant over all schedules: noted numbers rise, a call that read the counter later is above them, the queue still has each noted number until its answer; a schedule refutes the general claim; `C127_iff` (Spec/Overtaken, Props/Overtaken): for commands that do not overlap, exactly the schedules in which no other goroutine counts between the counting and the noting of a SETUP get ready; `C127_same`, `C127_same_answer` (Props/SetupSame): undisturbed, Setup and the answers to it do in this model what they do in Model/Session |
| C128 | Model/SessionWords: `s.session` as the two words of a Go string, stored and loaded one word at a time in either order, sequentially consistent memory, any number of calls of `enqueue` | Invariants over the schedule: pairs of words that belong together when assignments and readings are apart; the origin of each word in any schedule; a schedule built from any two headers for the refutation |
| C129 | Go/BufioArray: `bufio.Reader` with its array; Model/Body: `ReadBytes` and `Unpack` with the part of the array they return | The array is unchanged while the number of `Read`s is (reflexive and transitive, kept by every method of the reader, hence by receiving); the array after one `Read`, index by index; a calculated case through `Unpack` |
| C130 | Model/Session; Spec/Gist: the parts of a response that are used | Every step commutes with reducing responses to these parts (one lemma per function, as for C115); hence runs do, and two histories with the same reduction agree. On the wire through C50 |
| C131 | Model/Sdp; Spec/Ignored: which words of an attribute tell something | Every function on a `Media` in the loop acts as a record of values set and sets added, composed; the record is empty exactly if no word tells anything, and two descriptions that differ in every value tell an effect from none |
| C132 | Model/Nal; Spec/Timestamps: the reports of a sequence of pushes, with other timestamps | Two sinks that are the same but for timestamps stay so in every push: induction over packets, entries and pushes |
| C133 | The same, timestamps ahead by d | Every timestamp of a unit is the one of the push plus an offset modulo 2^32; for MTAP24 it is 257 times the one of the push, so 257·d = d modulo 2^32 decides |
| C134 | Model/Session, Model/Digest; Spec/Credentials: requests, what was done and what happens, without credentials; two worlds with the same network | A relation of two sessions: the same but for credentials, both with a text of the Authorization header that is not empty or both without. Every function keeps it |
| C135 | Model/Resetup: `Setup` in steps of one use of the shared list of streams each, which `process` may replace between any two; Spec/Resetup: what the request for a stream has to say | Invariant over schedules (where `Setup` is, by the number of its steps); for the converse the schedule that replaces the list just before the first stream that differs |
| C136 | Model/Sdp; Spec/Sections: two results put together, lines that speak for themselves | An m= line does not depend on what was before; streams before the last are never written to: induction over lines. The converse with the effects of C131 |
| C137 | Model/Nal; Spec/Join: reports without numbers, streams that end a unit they have not started | Law of one part of a payload for two sinks (NalLaw): the same, or a start after which they keep the same, or an end that shows what they kept; induction over parts and payloads; both directions |
| C138 | Model/ParamSets; Spec/SetOrder: the identifier a picture set names, collections, orders | A picture set is read in the same way if the set it names is the same (ppsBits_agree); what is known at the end depends only on which sets were given (spset_after, walk); for the exact law each call is an update that reads at most one sequence set (opKind), and the orders that tell are: other calls, the two, sequence sets |
| C139 | Model/TwoReaders: the calls of two goroutines in receive on an old and a new connection, any schedule, deadlines; Spec/TwoReaders: what the frames on the wire are, delivered as sent | Alone: an invariant for each call of a frame, and a measure of the turns still needed; together: bytes delivered, held and left never become more, and a schedule that loses one (C139_iff) |
| C140 | Model/Transport; Spec/TransportOrder: what a field says about each part of the transport, for every text | Each part of the result is what the last field says about it (fields_part); parts that each say something may be put in any order exactly if none disagree (Lemmas/Order, order_iff) |
| C141 | Model/Sdp; Spec/AttrOrder: a section alone, with its lines in any order | Every line is an effect that sets parts and appends parameter sets; effects that commute on one stream commute on all (SdpEff.comm_all); put the two lines last for one direction, permutations of commuting steps for the other |
| C142 | Model/Nal; Spec/Distance: two sinks after arbitrary histories take the same payloads | Each reported number is either counted from the join or carried by a packet; induction over payloads, parts and the loops of STAP and MTAP gives the tags for all sinks at once; exact law and two refutations |
| C143 | Model/Program (`main`, `flag.Parse` without flags, exit status) on top of Model/Main and Model/Dial; Spec/Program | Case analysis of the arguments; invariant of client runs: the end comes once and last; C65 gives the milestones |
| C144 | Model/Nal; Spec/Duplicate: the units got from a stream in which one payload is repeated | The exact law of C137 for the sinks after the first and the second time; two sinks report as many units and the same errors (reports_shape), so that equal lists of units are equal report by report |
| C145 | Model/ParamSets `parseSPS`, `parsePPS`, `parseSprop`; Spec/Surplus: `SurplusIgnored`, `CutSafe` | a successful read does the same on longer data, closed under sequencing (`Grows`); for the optional tail of a picture parameter set a zero byte decides (`GrowsOr`) |
| C146 | Model/Served: `AddSegment` one write at a time and `String` one read at a time, over any schedule (sequential consistency; Go promises less, so the refutations stand and the partial theorem is for hardware that keeps the order); Spec/Served: `OfAMoment`, `PartlyFilled` | two invariants over the schedule: slots of the ring (`SInv`) and what was read (`ShowInv`); five steps of the adder are one call (`add_refines`), `String` alone is the sequential one (`string_alone`); a count of the steps left (`StepsLeft`); schedules as witnesses |
| C147 | Model/ConcurrentAuth: `response` one access to the shared digest at a time, over any schedule of challenges and calls (sequential consistency); Spec/ConcurrentAuth: `carries` (RFC 2617 or Basic), `LatestHash`, `OwnHash`, `NoMix` | invariant over all schedules: what is fixed in each digest, and that `ha2` is the hash of the latest verb written; a call that runs alone is `authCall` (`respond_alone`); a schedule refutes the general claim for every hash function; exact law `C147_iff` for hash functions without collisions. md5-sess, which fails for one goroutine already (C43), has its own invariant over all schedules in Props/ConcurrentSess: every key written or read is the session key hashed some number of times |
| C148 | rtpUnpack, clientPacket | the reported units are a fold over the video packets (C114), and a step of the fold depends on the timestamp and the payload alone (C23) |
| C149 | unpackRsp, receiveHTTP, sdpParse, trimSpace | two readers with the same lines and different ends go through the header loop together; trimming does not see a blank at the end; carriage returns alone are refuted for all lines |
| C150 | handleRtsp, handleSetup, transportSetup, checkReady | the step for an answer to a pending SETUP over TCP is a function on the session without its log; two such functions commute when the numbers differ, so any permutation folds to the same; over UDP the sinks after any list of granted answers are computed by induction on it |
| C151 | unpackRsp, headerLoop, Header.set, Header.get | the map after the header lines answers with the last line of each name, so it depends on the lines of each name only; two readers that have the same left read the same body |
| C152 | sdpParse, sdpField, sdpParams | what an fmtp line makes of a feed is a fold over the parameters after the clock rate is set; parameters with different names commute; the clock rate is the only field that depends on the order |
| C153 | Transport.parse, unpackRsp, sdpParse, newDigest | `Spec/LetterCase.lean` says which names may differ in case. Transport: field by field, the parts between slashes are equal once in upper case. Headers: the two maps are equal. Descriptions: an `rtpmap` line is the same function on a feed in both cases. Challenges: the fold of C41. Refuted for the names of format parameters and for the scheme of a challenge |
| C67, C68 | AddFragment | exact laws of the fragment list; refutations |
| C69 | Transport.Parse | text grammar of RFC 2326 12.39, induction over the parameters |
| C70 | Dial for HTTP, ConnectHTTP, ReceiveHTTP | stream reader in pieces of any size; exact law for accepted answers; refutations |
| C71 | Start/Stop of UDP listeners | step machine; refutations |
| C78 | handleSetup, AddSink, Start | whole session runs; exact law and refutations |

Every property can be expressed in a model; none is `not_applicable`.

## Trusted base

* Lean's kernel (4.33.0) and the elaborator's translation of the statements.
* Axioms: every theorem named in MANIFEST.json depends on at most `propext`, `Classical.choice` and `Quot.sound`, the axioms of
  Lean's own library (checked with `#print axioms`). No axiom is added, and there is no `sorry`, `admit`, `native_decide` or `bv_decide`.
* That the definitions in `Model/` say what the cited Go lines do, and that `Go/` says what the cited parts of the Go
  standard library do (`strings`, `strconv`, `encoding/binary`, `bufio.Reader`, `encoding/base64` streams,
  `net/url`, `net.SplitHostPort`, `path` and `filepath` as of Go 1.20; go.mod names no version). Most theorems use a reader that takes single bytes; C86 proves that a reader
  with a buffer and reads of any size shows the same to the program, and so does one with the array of `bufio.Reader`, its two positions and the moving
  of unread bytes (Go/BufioArray, C86_array). To make a slip in `Go/` less likely, its functions are proved to keep to laws
  written from the Go documentation (Spec/Lib, the theorems `lib_…` of Props/Lib and Props/LibUrl): `Atoi` and `Itoa` against the value of a numeral,
  `TrimSpace` against the list of white space runes, `Split` against joining, `path.Clean` against its four rewriting rules, `SplitHostPort` against the
  two forms it accepts, base64 and the escaping of URIs against their alphabets. These laws are not claims about /repo. There is no mechanical link
  between the Go text and the model.
* That the definitions in `Spec/` say what the RFCs and the H.264 recommendation say.

MD5 is an arbitrary function on byte strings, the random client nonce and the compressed data formats are arbitrary inputs, and the
network is an environment: which writes and listens succeed, what arrives, in which pieces and when a deadline expires are
universally quantified (structure `World` and the event lists).

### What is modelled

| file | modelled | not modelled |
|------|----------|--------------|
| net/h264/bits.go, annexb.go, packet.go | all functions; annexb.go (decoding) and packet.go also with shared arrays | |
| net/h264 parameter sets (SPS, PPS, sprop) | all functions | memory other than the slice group map (C98) |
| net/rtp, net/rtcp | Unpack, Pack, accessors, sender report | - |
| net/sdp | Parse | - |
| net/hls | all functions | - |
| net/rtsp/digest.go | all functions | hex and random source are parameters |
| net/rtsp/transport.go, feed.go | all functions | - |
| net/rtsp/message.go | Request.Pack, Unpack, Response.Pack, headers | nothing |
| net/rtsp/connection.go, http.go | reading, writing, UDP sinks, HTTP handshake, Stop | resolving names and connecting in `Dial`; read deadlines are events; the local address of listeners (always 127.0.0.1) |
| net/rtsp/session.go | all functions; the session loop; what is logged, for the client (Model/Log) | the clock is only in Model/Process, elsewhere whether a keep-alive is due is an input |
| cmd | main (arguments, exit status), handleStates, the session it drives and what it prints (Model/Log) | signals; what the package flag prints |

Other simplifications, each also stated at the definition: `int` is 64 bits; CSeq counters do not wrap; one call of a session method is one
atomic step in `Model/Session` (`Model/Concurrent` splits commands into their reads and writes of shared fields, `Model/ConcurrentAuth` the making of credentials). A session that is opened
again (C110) gets a second reading goroutine in Go; that model reads from the new connection only, one message at a time; Model/TwoReaders (C139) has both goroutines, with every call a step.

## Disagreements between the code and the properties

Each is proved as a `_refuted` theorem with a concrete witness or for a whole class of inputs; MANIFEST.json says which.

* Bits: reads spanning five bytes lose bits (C01), with them long Exp-Golomb codes (C03, C04); only the current byte is examined for trailing bits (C06).
* Annex B: runs of three or more zeros are escaped wrongly (C10, C11); data ending in 00 00 panics (C12); zero padding becomes a unit (C13).
* NAL sink: emulation removal before depacketizing breaks fragments and aggregates (C15, C16, C66): exactly when (C15_unit_iff, C16_stapA_iff, C16_stapB_iff); header bytes with zeros are taken for start codes (C15_don_refuted, C16_stapB_don_refuted, C17_offset_refuted); units of 65534 bytes and more in aggregates (C16); order
  numbers in MTAP and MTAP24 timestamps (C17); panics on short payloads (C18); only the last unit of an Annex B payload is reported but each takes a number (C19, C20); the order
  number of an FU-B is lost (C67); fragments of a lost unit leak into the next (C68).
  RTP sequence numbers are not looked at: a unit with a hole is reported, and two units are joined to one (C100).
* NAL sink: the timestamp of the packet is shifted into the 24-bit offset of units of MTAP24 packets, so they do not follow the sender's clock (C133_mtap24_refuted); of all other packets they do (C133_clock_partial).
* NAL sink: the distance of two units depends on when the receiver joined if one number is counted and the other is carried (a single unit and then a STAP-B packet), and `DonDiff` of units exactly 32768 apart changes its sign with the join (C142).
* NAL sink: RTP packets that arrive twice are not noticed: units are reported twice, and a repeated fragment is in the unit twice (C144).
* Program: a packet that cannot be read makes the program end with status 0, as if all had gone well (C143).
* Parameter sets: data that ends exactly with the mandatory part of a picture parameter set is accepted, and any byte added to it is read as the extension (`C145_pps_refuted`), so padding changes or voids the set.
* RTP: padding is left in the payload (C23); truncated packets panic (C24, C27); Pack writes eight bytes only (C25).
* Parameter sets: frame_mbs_only_flag is stored inverted, poc type 2 is rejected (C29); every MBAFF set without cropping and VUI is refused (`C29_mbaff_refuted`), and a field set without MBAFF exactly if fewer than three alignment zeros follow (`C29_paff_iff`); cropped heights are wrong (C30); a PPS without extension is rejected, slice group types 3 and 4 are
  misread, a set with an 8x8 scaling matrix is refused if it comes before its sequence parameter set (C32); short PPS data panics (C33); ten bytes of a PPS of slice group type 6 make it ask for gigabytes (C98); emulation prevention bytes are left in
  parameter sets of a description (C99); so the order in which sets are given matters (C138).
* SDP: a control URL or base64 text with a number after its first slash changes the clock rate, a lone fmtp parameter is ignored, and parameters after a semicolon in a control URL are taken as format parameters (C36, exact law C36_exact); a line `m=video` panics (C37). Attributes that are not used are read in the same way: `a=framerate:30000/1001` sets the clock rate to 1001 (C131, exact law C131_iff). So the order of the attribute lines matters: with that line before the `a=rtpmap` line, the clock rate is 90000 (C141, exact law C141_iff).
* HLS: after twice the window size rendering always panics (C38, C40). `AddSegment` publishes the slot before its fields: a playlist rendered meanwhile lists an empty segment, or the newest before an older one (C146).
* Addresses: an empty port is not replaced by 554, a fragment is sent, `rtsp:host` connects to the own machine (C90); a space in the query breaks the
  request line (C92); escaped line breaks and quotes in the user name are copied into the Authorization header (C94). Playlists: escaped slashes of the
  directory's address are lost, an address without a scheme does not get the file name (C93).
* Digest: unknown parameters, spaces around `=`, commas in quoted values (C41); md5-sess from the second request on (C43); nc never advances (C44); of several challenges the
  last line counts, so the password may go in clear although Digest was offered, and two challenges in one line are not understood (C97).
* Transport: the interleaved flag is not restored (C46); a value with two slashes switches the lower transport (C69); headers that do not name
  RTP, ranges of three numbers and negative numbers are accepted, `destination` without an address is refused (C85); a refused header has already changed the transport (C126); `interleaved` says unicast, so its order with `multicast` matters (C140, exact law C140_iff).
* Message: status codes such as `+20` are accepted (C73); Pack writes a line end after the body that is not part of the message (C74).
* Connection: bodies and frames of more than 2048 bytes end the session (C50, C53); a deadline expiring inside a message loses data (C54); over HTTP every write panics (C63) and
  the status of the handshake is ignored (C70); UDP listeners deliver nothing before Stop, at most one packet each, and are never closed (C62, C71), are on port 0 for unicast, and report
  on channels shifted by two (C78).
* Message: the body of a response is a window into the array of the connection's reader, and later reads overwrite it (C129).
* Session: concurrent commands may share a CSeq (C56); a command of another goroutine between a SETUP and the noting of its number leaves the session never ready, even when the commands do not overlap (C127); a command sent while a Session header is taken in may carry a text that is no identifier (C128); a retry after 401 takes the number of the latest request (C57, C58, C61); retries are unlimited, one for each refusal that can be answered (C60, `C60_exact`); a second DESCRIBE gives an early
  Ready, since answers are counted for the whole session (C59, `C59_again_refuted`; what holds in every history: `C59_ready_any`); a description without video never gets Ready (C61); refused commands are ignored without notice, refused SETUPs still lead to Ready (C72); a control URL `*` is
  appended to the base (C77); Content-Base is ignored, and a control URL is appended to the address even after a query (C95); the reading goroutine goes on after the session is done or a keep-alive failed (C88); the status of answers to OPTIONS and DESCRIBE is ignored (C89); the keep-alive sends an empty Session header if none was assigned (C80).
* Session: a description that arrives while the user's Setup runs makes it panic or mix the streams of two descriptions (C135_refuted): exactly when (C135_iff, C135_panic_iff).
* Session: a session that is opened again while its first goroutine is alive has two readers of the new connection; frames can be lost, torn or invented (C139_refuted): exactly when (C139_iff).
* Session: the hash of the method is kept in a field all calls share; of two commands issued at the same time one can carry the Authorization value for the method of the other (C147_refuted): exactly when (C147_iff).
* Digest and session: the `uri` of a SETUP's Authorization is that of the presentation, not of the request (C79).
* Crashes: a bare `m=video`, a PPS with nine slice groups, a truncated RTP or RTCP packet or an aggregate with size 0 end the program with a panic (C75).
* Client: units are reported with padding, always and only then (C66_padded_iff), and any unusable packet ends it (C65, C66).
* The list `sink.Units` shares its array with the next push, so a list that was kept is overwritten; the data of the units of an aggregate
  share an array, so appending to one overwrites the next (C83).
* A description without video streams, or with a picture parameter set that has no extension (as in the example of RFC 3984), leaves the client
  waiting for ever after the server has granted DESCRIBE or SETUP, without an error (C84).
* If credentials are asked for the SETUP of two streams, the second stream is never set up and the client stops reading, without an error (C84_setup_refuted).
* Playlist: no target duration, no comma after a duration, no media sequence number, and the end announced in every playlist (C102).
* Sequence numbers of RTP packets are not looked at: packets out of order or arriving twice (C103).
* One reassembly buffer for all streams (C104).
* RTCP: only the first packet of a frame is looked at; lengths are not checked; goodbyes have no effect (C105).
* Credentials and descriptions are put into requests as they are: an escaped empty line in the user name adds a request of its own to the connection (C106).
* The client does not look at payload types, sources or sequence numbers: audio on a video channel is reported as video (C107).
* Fragments without an end and unanswered keep-alive messages are kept for ever (C108).
* Fragments are kept after the end of their unit: each further end fragment reports all of them again, so what is reported can grow with the square of what was received (C118). It never grows faster: the whole is at most the square (`C118_square_partial`).
* A picture parameter set that announces 2^32 slice groups makes the width of a slice group number `uint(-Inf)`. Where that is 0 (arm64) the parser runs through as many rounds as the data says, up to 2^32, without reading (C119).
* A session that is opened again is not started afresh (C110): the stage, the function that makes credentials, the session identifier, the feeds and the counter of set-ups are kept. So the password for one server goes, unasked, to the next, as does the session identifier; and once any stage was reported the answer to the OPTIONS of the new connection leads to nothing.
* A Transport header that is refused has already changed the feed up to the bad field, and a feed set up before still says so (C109).
* Any message that is not a response or a frame, and any response that cannot be used, ends the reading goroutine, which logs the error and tells nobody (C111): a server that asks OPTIONS of the client, announces a change or redirects it, or answers twice, ends the session.
* `command` returns an error if there is no connection, but its callers read the address through the nil `*Conn` before: every call before `Open`, or after an `Open` that could not connect, panics (C112).
* Done is not final: a PLAY or PAUSE that is granted after the TEARDOWN is still reported, and over UDP the keep-alive messages start again (C122).
* The client decodes RTP on even channels and RTCP on odd ones, whatever pair the server granted: with the pair 1-2 no video is reported, with 0-2 sender reports are reported as video (C113).
* When the connection is lost, `process` returns and `handleStates` is not told: the client waits for ever, unless its timer is running and the
  session is done or the next request cannot be written (C101). (The Go runtime may abort a program whose goroutines all sleep; not modelled.)
* The client prints its requests with their Authorization header, so that with Basic authorization the password is in the output (session.go:103, 245), and an address that cannot be parsed is printed with the password in it (main.go:108) (C123).
* The client prints the body of a response as it is, so that a description can have lines in it that look like those about NAL units (session.go:226, main.go:76); a user name with a line feed, written `%0A` in the address, can do the same (C124).
* A port that cannot be listened on is passed over: the stream counts as set up (session.go:295), and if the failure was temporary the session is reported to be ready without listeners for it (or with one); if not, reading ends and the user is not told (C125).
* Lines ended by a carriage return alone, which RFC 2326 lets a server send, are not seen to end: such a response is lost at the next timeout (message.go:113) and such a description has no feeds (sdp/packet.go:39) (C149).
* The channels that data over UDP is reported on come from the number of SETUP answers so far (session.go:295-300), not from the place of the stream in the description. If a server answers the second SETUP first, the streams change places (C150).
* A number between the first two slashes of the format parameters becomes the clock rate (packet.go:74-86), so that base64 text can overwrite it and the order of the parameters matters (C152).
* The names of format parameters are compared byte by byte (packet.go:94-107), though they may be written in any case (RFC 4855, 3): with `Sprop-Parameter-Sets` the parameter sets are lost. The scheme of a challenge is compared in the same way (digest.go:47-55): `digest` is refused (RFC 2617, 1.2). `C153_parameter_refuted`, `C153_scheme_refuted`.

Seen but outside the model: listeners are bound to 127.0.0.1; the connection is not closed after TEARDOWN.

## Testing the theorems

`seeded/LOG.jsonl` has one line per wrong program tried: the definition edited, the edit, the claim it breaks, the theorems that failed and those tightened.

## Axioms of each theorem

From `#print axioms` for each of the 628 theorems named in MANIFEST.json.

* no axiom (4): C41_unknown_refuted, C41_comma_refuted, C41_spacing_refuted, C97_one_line_refuted.
* `propext` alone (20): C36_control_refuted, C36_sprop_clock_refuted, C36_single_param_refuted, C40_no_slots, C46_unwritten_refuted, C51_token_iff, C54_refuted, C56_same_start, C63_refuted, C63_silent_loss_refuted, C73_sign_refuted, C74_body_refuted, C78_unicast_refuted, C85_accepts_bad_refuted, C85_destination_refuted, C123_refused, C135_refuted, C149_response_refuted, C149_description_refuted, C153_parameter_refuted.
* `propext` and `Quot.sound` (232): C01_readBits_refuted, C02_available_initial, C05_skipBits_empty_refuted, C07_payloadParam_cases, C08_scalingList_range, C19_only_last, C19_single_partial, C19_refuted, C20_exact, C20_iff, C20_split_refuted, C21_donDiff_antisymm, C21_donDiff_succ, C22_accessors, C22_flags, C24_version, C25_pack_exact, C25_nil, C26_other, C32_early_refuted, C36_attributes_partial, C36_exact, C36_clock_iff, C41_parsed_partial, C41_order_partial, C41_scheme, C42_response, C43_iff, C43_every_request_partial, C43_sess_refuted, C44_refuted, C44_next_partial, C45_basic, C46_echo_partial, C46_fresh_partial, C46_echo_iff, C46_fresh_iff, C46_interleaved_refuted, C47_pair, C47_text, C48_disjoint, C48_feeds, C49_request, C49_any_order, C51_case_insensitive, C51_not_names, C53_delivered_iff, C53_refuted, C54_inside_refuted, C55_numbered, C56_exclusive_partial, C56_one_by_one_partial, C56_refuted, C56_same_command, C56_same_remove, C56_same_run, C57_unreadable, C57_unknown, C57_answered, C57_once_partial, C57_refuted, C58_exact, C58_latest_partial, C58_overwritten_refuted, C58_refuted, C59_granted, C59_reported, C59_ready_partial, C59_refuted, C60_exact, C60_refuted, C60_per_refusal_partial, C60_no_credentials_partial, C61_none_refuted, C61_refuted, C62_refuted, C62_one_per_listener_refuted, C62_faithful_partial, C64_session, C65_early, C66_padding_refuted, C66_emulation_refuted, C69_server_header_partial, C69_refuted, C69_lone_port, C70_version_refuted, C71_never_closed_refuted, C71_blocks_refuted, C72_not_granted_partial, C72_silent_refuted, C72_setup_refuted, C72_describe_refuted, C73_status_partial, C73_header, C73_accepted, C75_bare_refuted, C75_pps_refuted, C75_packet_refuted, C75_aggregate_refuted, C77_star_refuted, C78_exact, C78_multicast_partial, C78_channels_refuted, C78_run_refuted, C79_before, C79_basic, C79_digest_partial, C79_digest_exact, C79_setup_never, C79_uri, C79_setup_refuted, C80_exact, C80_session, C80_empty_refuted, C83_list_refuted, C83_append_refuted, C84_audio_refuted, C84_pps_refuted, C84_setup_refuted, C85_accepted_iff, C85_refused_partial, C88_reading_partial, C88_done_refuted, C88_keepAlive_refuted, C89_nothing_partial, C89_options_refuted, C89_describe_refuted, C90_empty_port_refuted, C90_fragment_refuted, C90_no_host_refuted, C90_no_host, C92_no_control, C92_read_partial, C92_space_refuted, C93_escape_refuted, C93_no_scheme_refuted, C93_no_control, C94_return_iff, C94_return_refuted, C94_quote_iff, C94_quote_refuted, C95_other_refuted, C95_moved_refuted, C96_before_challenge, C96_digest_only, C101_never, C106_read_partial, C106_address_partial, C106_smuggled_refuted, C106_control_refuted, C108_pending_refuted, C109_accepted_iff, C109_set_iff, C109_failed_refuted, C110_password_refuted, C110_followed_iff, C110_session_refuted, C111_usable_iff, C111_request_refuted, C111_response_refuted, C113_shifted_refuted, C113_report_refuted, C114_determined, C114_prefix, C115_step, C115_run, C115_dialogue, C115_panics, C119_same, C122_nothing_partial, C122_crossing_refuted, C122_refuted, C122_iff, C123_refused_refuted, C124_name_refuted, C125_started, C125_error, C125_exact, C125_silent_refuted, C125_ready_refuted, C127_refuted, C127_same_setup, C127_same, C128_apart_partial, C128_refuted, C128_first_refuted, C129_buffered_partial, C129_iff, C130_run, C130_exact, C131_session, C132_labels, C133_clock_partial, C133_mtap24_iff, C133_mtap24_refuted, C134_exact, C135_panic_iff, C136_section, C136_order, C138_refuted, C139_alone_partial, C139_prefix_partial, C140_accepted, C140_iff, C140_refuted, C141_refuted, C142_half_refuted, C142_refuted, C143_usage, C144_panic, C144_refuted, C145_pps_refuted, C146_order_refuted, C147_law_partial, C147_iff, C147_apart_partial, C147_refuted, C147_sess_law_partial, C149_response_partial, C149_tunnel_partial, C149_description_partial, C150_tcp_partial, C150_udp_exact, C150_udp_refuted, C151_any_order, C152_partial, C152_iff, C152_refuted, C153_transport_partial, C153_encoding_partial, C153_challenge_partial, C153_scheme_refuted.
* `propext`, `Classical.choice` and `Quot.sound`: all 372 others.
