{"id": "C01", "title": "ReadBits returns the next n bits", "statement": "When ReadBits(n) succeeds, the returned number is the big-endian value of the next n unread bits of the buffer, whatever was read before.", "quantifier": "every buffer, every sequence of earlier reads and skips, every n from 0 to 32", "why_tests_cant": "The result depends on the bit offset left by all earlier reads and on n; the failing offsets are a thin band a sample can miss.", "anchors": ["net/h264/bits.go:ReadBits"]}
{"id": "C02", "title": "Bit accounting and end of stream", "statement": "Available() is exactly the number of bits not yet consumed; ReadBits(n)/SkipBits(n) fail exactly when n>32 or n exceeds Available(), a failed call consumes nothing, a successful one consumes exactly n bits, and a read of at least one bit never panics.", "quantifier": "every buffer and every sequence of reads and skips with any arguments", "why_tests_cant": "An invariant over unbounded operation histories.", "anchors": ["net/h264/bits.go:Available", "net/h264/bits.go:ReadBits", "net/h264/bits.go:SkipBits"]}
{"id": "C03", "title": "Unsigned Exp-Golomb decoding", "statement": "If the unread bits begin with the ue(v) code of v, ReadUnsignedGolomb returns v and consumes exactly that code.", "quantifier": "every 32-bit value v, every bit offset, every following data", "why_tests_cant": "2^32 values times 8 alignments times all suffixes.", "anchors": ["net/h264/bits.go:ReadUnsignedGolomb"]}
{"id": "C04", "title": "Signed Exp-Golomb decoding", "statement": "If the unread bits begin with the se(v) code of v, ReadSignedGolomb returns v and consumes exactly that code.", "quantifier": "every signed value v, every bit offset, every following data", "why_tests_cant": "Same as C03, plus the sign mapping.", "anchors": ["net/h264/bits.go:ReadSignedGolomb"]}
{"id": "C05", "title": "Skipping is reading and discarding", "statement": "SkipBits(n) and SkipGolomb() succeed or fail exactly when ReadBits(n) and ReadUnsignedGolomb() do and leave the reader at the same position.", "quantifier": "every reader state reachable from any buffer, every n (at least one bit if the buffer is empty)", "why_tests_cant": "Two separately written loops must agree on every state.", "anchors": ["net/h264/bits.go:SkipBits", "net/h264/bits.go:SkipGolomb", "net/h264/bits.go:ReadBits", "net/h264/bits.go:ReadUnsignedGolomb"]}
{"id": "C06", "title": "Trailing-bit check", "statement": "SkipTrailingBits succeeds exactly when the remaining bits are one stop bit followed by zero bits up to the end of the byte, and on success that whole tail has been consumed.", "quantifier": "every buffer and every reader position", "why_tests_cant": "All bit patterns at all positions.", "anchors": ["net/h264/bits.go:SkipTrailingBits"]}
{"id": "C07", "title": "SEI payload parameter decoding", "statement": "ReadPayloadParam returns 255 times the number of leading 0xFF bytes plus the first other byte (modulo 2^32), consumes exactly those bytes and fails at end of stream if there is no terminating byte.", "quantifier": "every run length of 0xFF bytes, every terminator, every bit offset", "why_tests_cant": "Run length is unbounded.", "anchors": ["net/h264/bits.go:ReadPayloadParam"]}
{"id": "C08", "title": "Scaling list decoding", "statement": "ReadScalingList fills the list as the H.264 scaling_list() syntax prescribes and reports use-default exactly when the first delta makes the scale zero; every written entry is non-zero and lies strictly between -256 and 256 whatever the stream holds.", "quantifier": "every list length and every bit stream", "why_tests_cant": "The recurrence runs over attacker-controlled deltas with 32-bit wrap-around.", "anchors": ["net/h264/bits.go:ReadScalingList"]}
{"id": "C09", "title": "Emulation prevention removal", "statement": "EBSPToRaw never panics and deletes exactly the 0x03 bytes that directly follow two zero bytes of the encapsulated data, counted afresh after each deletion, and nothing else.", "quantifier": "every byte string", "why_tests_cant": "All lengths and all overlaps of the pattern.", "anchors": ["net/h264/annexb.go:EBSPToRaw"]}
{"id": "C10", "title": "Encapsulation round trip", "statement": "EBSPToRaw(RBSPToEncapsulated(x)) == x.", "quantifier": "every byte string x", "why_tests_cant": "The failing inputs are specific zero-run lengths; no finite sample settles all.", "anchors": ["net/h264/annexb.go:RBSPToEncapsulated", "net/h264/annexb.go:EBSPToRaw"]}
{"id": "C11", "title": "Encapsulated data has no start code", "statement": "The output of RBSPToEncapsulated never contains 00 00 00, 00 00 01 or 00 00 02, so a decoder cannot mistake payload for a start code.", "quantifier": "every byte string", "why_tests_cant": "Overlapping zero runs.", "anchors": ["net/h264/annexb.go:RBSPToEncapsulated"]}
{"id": "C12", "title": "Encapsulation is total", "statement": "RBSPToEncapsulated returns for every input without panicking.", "quantifier": "every byte string", "why_tests_cant": "The failure depends on the length of the final run of zeros.", "anchors": ["net/h264/annexb.go:RBSPToEncapsulated"]}
{"id": "C13", "title": "Annex B splitting inverts framing", "statement": "If NAL units (non-empty, free of start-code patterns and not ending in zero) are written one after another, each preceded by a 3- or 4-byte start code, SplitAnnexB returns exactly those units, in order, with emulation prevention removed.", "quantifier": "every list of units, every choice of start code lengths", "why_tests_cant": "Unbounded number and sizes of units; interplay of the 3-byte stride with the data.", "anchors": ["net/h264/annexb.go:SplitAnnexB"]}
{"id": "C14", "title": "Annex B splitting is total and invents nothing", "statement": "SplitAnnexB never panics, returns at least one unit, returns no empty unit for non-empty input, and data without any start code comes back as a single unit.", "quantifier": "every byte string", "why_tests_cant": "All inputs, including malformed ones.", "anchors": ["net/h264/annexb.go:SplitAnnexB"]}
{"id": "C15", "title": "Fragmented NAL units are reassembled", "statement": "After a start fragment, any middle fragments and an end fragment of one NAL unit have been pushed, the sink holds exactly that unit: header rebuilt from the fragment headers, data the concatenation of the pieces in order, whatever the sink held before.", "quantifier": "every number and size of fragments, FU-A and FU-B, every earlier sink state", "why_tests_cant": "Unbounded number of fragments and histories.", "anchors": ["net/h264/packet.go:AddFragment", "net/h264/packet.go:parseNAL"]}
{"id": "C16", "title": "Single-time aggregation packets", "statement": "Pushing a STAP-A or STAP-B packet yields exactly the aggregated units, in order, with header, data and timestamp intact and consecutive decoding order numbers.", "quantifier": "every list of units of size 1..65533", "why_tests_cant": "Unbounded number of units and 16-bit size arithmetic.", "anchors": ["net/h264/packet.go:parseSTAP"]}
{"id": "C17", "title": "Multi-time aggregation packets", "statement": "Pushing an MTAP16 or MTAP24 packet yields exactly the aggregated units, in order, each with timestamp ts + offset and decoding order number DONB + DOND (mod 2^16) as RFC 6184 prescribes.", "quantifier": "every list of units, offsets and order numbers", "why_tests_cant": "Errors appear only from the second unit on or only with 24-bit offsets.", "anchors": ["net/h264/packet.go:parseMTAP"]}
{"id": "C18", "title": "Malformed payloads are rejected, not fatal", "statement": "Push returns (possibly with an error) for every payload: it never panics.", "quantifier": "every byte string and every sink state", "why_tests_cant": "Panic inputs are specific size fields in network-controlled data.", "anchors": ["net/h264/packet.go:Push", "net/h264/packet.go:parseSTAP", "net/h264/packet.go:parseMTAP"]}
{"id": "C19", "title": "Push reports every unit of the payload", "statement": "After Push of a payload holding several NAL units separated by start codes, Units holds all of them.", "quantifier": "every list of units", "why_tests_cant": "Needs more than one unit per payload, any number.", "anchors": ["net/h264/packet.go:Push", "net/h264/packet.go:parseNAL"]}
{"id": "C20", "title": "Decoding order numbers are consecutive", "statement": "Over any sequence of single-NAL and STAP-A pushes, the k-th emitted unit carries the starting decoding order number plus k modulo 65536; fragments do not consume numbers.", "quantifier": "every sequence of pushes of any length", "why_tests_cant": "History property with 16-bit wrap-around.", "anchors": ["net/h264/packet.go:parseNAL", "net/h264/packet.go:parseSTAP"]}
{"id": "C21", "title": "DonDiff follows RFC 6184", "statement": "DonDiff(a,b) is the signed distance from a to b modulo 65536: congruent to b-a, in [-32768, 32768], antisymmetric, zero only for equal arguments, and equal to the five-case definition of RFC 6184 section 5.5.", "quantifier": "all pairs of 16-bit numbers", "why_tests_cant": "2^32 pairs.", "anchors": ["net/h264/packet.go:DonDiff"]}
{"id": "C22", "title": "NAL header accessors", "statement": "ZeroBit, RefIdc and Type are the three fields of the header byte and determine it uniquely; IsStart/IsEnd are the two top bits of the fragment flags.", "quantifier": "all header bytes", "why_tests_cant": "Small, but the statement ties all accessors together.", "anchors": ["net/h264/packet.go:ZeroBit", "net/h264/packet.go:RefIdc", "net/h264/packet.go:Type", "net/h264/packet.go:IsStart", "net/h264/packet.go:IsEnd"]}
{"id": "C23", "title": "RTP packet decoding", "statement": "Unpack of the RFC 3550 wire form of a packet (any CSRC list up to 15, optional header extension, any payload) returns the packet with every field as sent.", "quantifier": "every packet", "why_tests_cant": "Unbounded payloads and extensions.", "anchors": ["net/rtp/packet.go:Unpack", "net/rtp/packet.go:P", "net/rtp/packet.go:X", "net/rtp/packet.go:CC", "net/rtp/packet.go:M", "net/rtp/packet.go:PT"]}
{"id": "C24", "title": "RTP decoding of arbitrary data", "statement": "For every received datagram Unpack either returns a packet or an error; it never panics. A version other than 2 is always an error.", "quantifier": "every byte string", "why_tests_cant": "Truncation at every possible point.", "anchors": ["net/rtp/packet.go:Unpack"]}
{"id": "C25", "title": "RTP Pack inverts Unpack", "statement": "Pack(Unpack(b)) == b for every valid packet b.", "quantifier": "every packet", "why_tests_cant": "All packets.", "anchors": ["net/rtp/packet.go:Pack"]}
{"id": "C26", "title": "RTCP decoding", "statement": "Unpack of an RTCP sender report returns its header and sender info as sent; other packet types return the header; a sender report shorter than its report count implies is an error.", "quantifier": "every packet", "why_tests_cant": "All contents and counts.", "anchors": ["net/rtcp/packet.go:Unpack", "net/rtcp/packet.go:P", "net/rtcp/packet.go:C"]}
{"id": "C27", "title": "RTCP decoding of arbitrary data", "statement": "For every received datagram Unpack either returns a packet or an error; it never panics.", "quantifier": "every byte string", "why_tests_cant": "Truncation at every possible point.", "anchors": ["net/rtcp/packet.go:Unpack"]}
{"id": "C28", "title": "Parameter set store", "statement": "After any sequence of ParseSPS/ParsePPS calls GetSPS(id)/GetPPS(id) return the most recent successfully parsed set with that id; a failed parse changes nothing; SPS and PPS stores do not interfere.", "quantifier": "every sequence of parses of any buffers", "why_tests_cant": "History property.", "anchors": ["net/h264/spspps.go:ParseSPS", "net/h264/spspps.go:ParsePPS", "net/h264/spspps.go:GetSPS", "net/h264/spspps.go:GetPPS"]}
{"id": "C29", "title": "SPS decoding", "statement": "ParseSPS of a conforming sequence parameter set returns the syntax elements that were encoded.", "quantifier": "every conforming SPS", "why_tests_cant": "Combinatorial syntax with optional parts.", "anchors": ["net/h264/spspps.go:ParseSPS"]}
{"id": "C30", "title": "Picture size from SPS", "statement": "After ParseSPS of a conforming SPS, Width and Height are the cropped frame dimensions defined by H.264.", "quantifier": "every conforming SPS", "why_tests_cant": "Depends on chroma format, interlacing and cropping together.", "anchors": ["net/h264/spspps.go:ParseSPS"]}
{"id": "C31", "title": "ParseSPS is total", "statement": "ParseSPS returns without panicking for every buffer.", "quantifier": "every byte string", "why_tests_cant": "Attacker-controlled loop counts and array indices.", "anchors": ["net/h264/spspps.go:ParseSPS"]}
{"id": "C32", "title": "PPS decoding", "statement": "ParsePPS accepts every conforming picture parameter set and returns the encoded syntax elements.", "quantifier": "every conforming PPS", "why_tests_cant": "Combinatorial syntax; end-of-data detection.", "anchors": ["net/h264/spspps.go:ParsePPS"]}
{"id": "C33", "title": "ParsePPS is total", "statement": "ParsePPS returns without panicking for every buffer and every set of known SPS.", "quantifier": "every byte string", "why_tests_cant": "Attacker-controlled array indices.", "anchors": ["net/h264/spspps.go:ParsePPS"]}
{"id": "C34", "title": "Sprop dispatch", "statement": "ParseSprop treats a value with NAL type 7 as an SPS and 8 as a PPS, dropping the header byte, and ignores empty values and all other types without touching the store.", "quantifier": "every byte string and store", "why_tests_cant": "All inputs.", "anchors": ["net/h264/spspps.go:ParseSprop"]}
{"id": "C35", "title": "One feed per video section", "statement": "sdp.Parse returns exactly one Media per video m-line, in document order; attribute lines before the first m-line or inside non-video sections have no effect; a section only affects its own Media.", "quantifier": "every SDP document", "why_tests_cant": "Unbounded documents and interleavings of sections.", "anchors": ["net/sdp/packet.go:Parse"]}
{"id": "C36", "title": "SDP attributes land in the right fields", "statement": "Within a video section rtpmap sets codec and clock rate, control sets the control URL and fmtp sets the parameter sets, independently of the order of these lines and without affecting each other's fields.", "quantifier": "every attribute value and line order", "why_tests_cant": "Cross-talk depends on the characters in the values.", "anchors": ["net/sdp/packet.go:Parse"]}
{"id": "C37", "title": "SDP parsing is total", "statement": "Parse returns without panicking for every body.", "quantifier": "every byte string", "why_tests_cant": "All malformed documents.", "anchors": ["net/sdp/packet.go:Parse"]}
{"id": "C38", "title": "Playlist shows the newest segments", "statement": "After any number k of AddSegment calls on a playlist with n slots, the rendered playlist lists exactly the newest min(k,n) segments, oldest first.", "quantifier": "every n>=1, every k, every segment data", "why_tests_cant": "Ring wrap-around at every multiple of n.", "anchors": ["net/hls/playlist.go:AddSegment", "net/hls/playlist.go:String"]}
{"id": "C39", "title": "Byte ranges are contiguous", "statement": "The byte range recorded for each segment starts where the previous one ended: the k-th segment starts at the sum of the lengths of all earlier segments, even those that left the window.", "quantifier": "every window of at least one segment, every history of AddSegment whose total length fits 64 bits", "why_tests_cant": "History property.", "anchors": ["net/hls/playlist.go:AddSegment"]}
{"id": "C40", "title": "Playlist rendering is total and framed", "statement": "String never panics, starts with the EXTM3U and version lines, ends with ENDLIST and has exactly three lines per listed segment.", "quantifier": "every history of AddSegment", "why_tests_cant": "Depends on the full history.", "anchors": ["net/hls/playlist.go:String"]}
{"id": "C41", "title": "Challenge parsing", "statement": "NewDigest of a well-formed challenge returns realm, nonce, opaque, qop and algorithm as sent, independent of the order and spacing of the parameters, and rejects other schemes.", "quantifier": "every list of parameters and values", "why_tests_cant": "All values, all orders.", "anchors": ["net/rtsp/digest.go:NewDigest"]}
{"id": "C42", "title": "Digest response", "statement": "The Authorization value for a request carries the RFC 2617 response for user, password, method, URI, nonce and qop.", "quantifier": "all credentials and methods, all Digest challenges for which RFC 2617 defines a response (md5-sess needs qop), any hash function", "why_tests_cant": "All inputs; hash abstract.", "anchors": ["net/rtsp/digest.go:Authenticate", "net/rtsp/digest.go:response", "net/rtsp/digest.go:colonnade"]}
{"id": "C43", "title": "Every request of a session authenticates", "statement": "With the same challenge, the response for the k-th request is the RFC 2617 value for every k, including algorithm md5-sess.", "quantifier": "every number of requests", "why_tests_cant": "Error appears only from the second request on.", "anchors": ["net/rtsp/digest.go:response"]}
{"id": "C44", "title": "Nonce count is never reused", "statement": "With qop, each authorized request of a session carries a larger nc value than the previous one.", "quantifier": "every request sequence", "why_tests_cant": "History property.", "anchors": ["net/rtsp/digest.go:Next", "net/rtsp/digest.go:response"]}
{"id": "C45", "title": "Basic credentials", "statement": "For a Basic challenge the Authorization value is 'Basic ' followed by the Base64 encoding of user:password, which decodes back to exactly that string, for every method.", "quantifier": "all credentials", "why_tests_cant": "All lengths modulo 3.", "anchors": ["net/rtsp/digest.go:Authenticate"]}
{"id": "C46", "title": "Transport header round trip", "statement": "Parsing the header text rendered for a transport restores the transport's parameters.", "quantifier": "every transport", "why_tests_cant": "All combinations of optional fields and numbers.", "anchors": ["net/rtsp/transport.go:String", "net/rtsp/transport.go:Parse"]}
{"id": "C47", "title": "Port and channel pairs", "statement": "ParsePair(p.String()) == p with no error.", "quantifier": "all pairs of non-negative ints; exact failure set otherwise", "why_tests_cant": "All integers.", "anchors": ["net/rtsp/transport.go:ParsePair", "net/rtsp/transport.go:Pair.String"]}
{"id": "C48", "title": "Feeds get disjoint channels and ports", "statement": "Different feeds of one session are assigned disjoint channel/port pairs, data on the even and control on the odd number.", "quantifier": "every number of feeds below 2^60, every protocol; for UDP the numbers are ports as long as they fit 16 bits", "why_tests_cant": "Unbounded number of feeds.", "anchors": ["net/rtsp/transport.go:NewTransport", "net/rtsp/feed.go:ParseFeeds"]}
{"id": "C49", "title": "Request serialisation", "statement": "Pack emits a request line, CSeq and one line per header, whatever order the header map is iterated in; a conforming server that parses the text recovers verb, URI, CSeq, headers, session and authorization.", "quantifier": "every request whose verb and URI are single words and whose header texts have no line breaks, every map iteration order", "why_tests_cant": "Map order is nondeterministic.", "anchors": ["net/rtsp/message.go:Request.Pack"]}
{"id": "C50", "title": "Response parsing", "statement": "Unpack of a well-formed response followed by arbitrary bytes returns status, CSeq, headers and body as sent and leaves the reader exactly at the first following byte.", "quantifier": "every response and every following data", "why_tests_cant": "All messages and all continuations.", "anchors": ["net/rtsp/message.go:Unpack"]}
{"id": "C51", "title": "Header names are case-insensitive", "statement": "Get returns the value most recently Set under the same name in any letter case; Del removes it; other names are unaffected.", "quantifier": "all sequences of Set/Del/Get, all header names (other strings are compared exactly)", "why_tests_cant": "History property.", "anchors": ["net/rtsp/message.go:Set", "net/rtsp/message.go:Get", "net/rtsp/message.go:Del"]}
{"id": "C52", "title": "Interleaved frames are demultiplexed", "statement": "From any interleaving of '$' frames and RTSP responses on the stream, the session delivers every frame, in order, with its channel and payload, and handles every response.", "quantifier": "every stream content, any number of messages", "why_tests_cant": "Unbounded streams.", "anchors": ["net/rtsp/session.go:receive", "net/rtsp/connection.go:ReadBytes"]}
{"id": "C53", "title": "Frames of any legal size are delivered", "statement": "An interleaved frame of any size up to 65535 bytes is delivered.", "quantifier": "every payload length", "why_tests_cant": "Limit only shows above the internal buffer size.", "anchors": ["net/rtsp/connection.go:ReadBytes", "net/rtsp/session.go:receive"]}
{"id": "C54", "title": "Read timeouts do not lose data", "statement": "A read timeout at any point of the stream neither loses nor duplicates data: after the rest arrives the same frames are delivered.", "quantifier": "every stream and every timeout point", "why_tests_cant": "Schedule property.", "anchors": ["net/rtsp/session.go:receive", "net/rtsp/session.go:process", "net/rtsp/connection.go:Peek"]}
{"id": "C55", "title": "CSeq numbers are fresh", "statement": "Successive commands of a session carry CSeq 1, 2, 3, ...; no two new commands share one.", "quantifier": "every sequence of commands and responses", "why_tests_cant": "History property.", "anchors": ["net/rtsp/session.go:command", "net/rtsp/session.go:enqueue"]}
{"id": "C56", "title": "Concurrent commands are safe", "statement": "Commands issued concurrently from several goroutines carry distinct CSeq numbers and all stay matched to their responses.", "quantifier": "every interleaving", "why_tests_cant": "Schedule property.", "anchors": ["net/rtsp/session.go:command", "net/rtsp/session.go:enqueue"]}
{"id": "C57", "title": "Responses are matched once", "statement": "A response is handled as the answer to the pending request with its CSeq; that request is then no longer pending; a response with an unknown or already answered CSeq is an error that changes nothing.", "quantifier": "every history", "why_tests_cant": "History property.", "anchors": ["net/rtsp/session.go:dequeue", "net/rtsp/session.go:handleRtsp"]}
{"id": "C58", "title": "Authorization retry keeps requests pending", "statement": "After a 401 response the same request is resent with credentials and no other pending request is affected.", "quantifier": "every set of pending requests", "why_tests_cant": "Needs two or more requests in flight.", "anchors": ["net/rtsp/session.go:handleRtsp", "net/rtsp/session.go:enqueue"]}
{"id": "C59", "title": "Stage notifications are sound", "statement": "Ready is reported only after every SETUP was answered; Play, Pause and Done only after a 200 response to a pending PLAY, PAUSE or TEARDOWN.", "quantifier": "every history of commands and responses", "why_tests_cant": "History property.", "anchors": ["net/rtsp/session.go:handleRtsp", "net/rtsp/session.go:handleSetup", "net/rtsp/session.go:notify"]}
{"id": "C60", "title": "Authorization attempts are bounded", "statement": "A server that answers every request with 401 makes the client give up after finitely many attempts.", "quantifier": "every server behaviour", "why_tests_cant": "Liveness.", "anchors": ["net/rtsp/session.go:handleRtsp"]}
{"id": "C61", "title": "Setup always completes", "statement": "After DESCRIBE, once all SETUP requests are answered, the session reports Ready, for any number of feeds.", "quantifier": "every number of feeds including zero and every answer order", "why_tests_cant": "Unbounded number of feeds.", "anchors": ["net/rtsp/session.go:Setup", "net/rtsp/session.go:handleSetup"]}
{"id": "C62", "title": "UDP packets are delivered", "statement": "Every datagram received on a started UDP sink is delivered on the Data channel with the sink's channel number until Stop.", "quantifier": "every schedule of datagrams and stops", "why_tests_cant": "Schedule property.", "anchors": ["net/rtsp/connection.go:Start", "net/rtsp/connection.go:Stop"]}
{"id": "C63", "title": "RTSP over HTTP can send", "statement": "With the HTTP protocol, Write sends the POST preamble once and then the Base64 text of the command.", "quantifier": "every sequence of writes", "why_tests_cant": "History property.", "anchors": ["net/rtsp/connection.go:Write", "net/rtsp/http.go:ConnectHTTP"]}
{"id": "C64", "title": "Session identifier is used", "statement": "Once the server assigned a session identifier every later command other than OPTIONS and SETUP carries exactly it, without parameters.", "quantifier": "every history; URIs that are single words, texts without line breaks", "why_tests_cant": "History property.", "anchors": ["net/rtsp/session.go:handleRtsp", "net/rtsp/message.go:Request.Pack"]}
{"id": "C65", "title": "Client driver order", "statement": "The command line client sends PLAY only after Ready, PAUSE only while playing, TEARDOWN only while paused and ends only when done, on a packet it cannot use or when a command cannot be written.", "quantifier": "every schedule of timer, stage and packet events", "why_tests_cant": "Schedule property.", "anchors": ["cmd/ouro/main.go:handleStates"]}
{"id": "C66", "title": "RTP to NAL pipeline", "statement": "A video RTP packet carrying a single NAL unit, an aggregate or the end of a fragmented unit on an even channel makes the client report exactly those units with the packet's timestamp.", "quantifier": "every packet", "why_tests_cant": "Composition over all packets.", "anchors": ["cmd/ouro/main.go:handleStates", "net/rtp/packet.go:Unpack", "net/h264/packet.go:Push"]}
{"id": "C67", "title": "Fragmented units keep their decoding order number", "statement": "A unit sent as FU-B followed by FU-A fragments is delivered with the decoding order number of the FU-B.", "quantifier": "every sink state, unit and number", "why_tests_cant": "All states and numbers.", "anchors": ["net/h264/packet.go:parseNAL", "net/h264/packet.go:AddFragment"]}
{"id": "C68", "title": "Fragments of a lost unit do not leak", "statement": "An end fragment whose start fragment was not received delivers no unit, and in particular no data of an earlier unit.", "quantifier": "every sink state and fragment", "why_tests_cant": "History property: depends on losses.", "anchors": ["net/h264/packet.go:AddFragment"]}
{"id": "C69", "title": "Server transport headers", "statement": "A Transport header made of grammar parameters, in any order and letter case, stores every given value, leaves all other parameters as they were and gives no error.", "quantifier": "every transport, every list of well-formed parameters", "why_tests_cant": "Unbounded lists of parameters and values.", "anchors": ["net/rtsp/transport.go:Parse"]}
{"id": "C70", "title": "RTSP over HTTP handshake", "statement": "Opening a source with the HTTP protocol sends a GET request with a session cookie, succeeds exactly if the server grants it with status 200, and afterwards the stream is read from the first byte after the answer's header.", "quantifier": "every answer, every fragmentation of the stream", "why_tests_cant": "All answers and all positions of read boundaries.", "anchors": ["net/rtsp/connection.go:Dial", "net/rtsp/http.go:ConnectHTTP", "net/rtsp/http.go:ReceiveHTTP"]}
{"id": "C71", "title": "Stop ends UDP listening", "statement": "Stop always returns, and after it every UDP listener is closed and its goroutine has ended.", "quantifier": "every schedule of calls, datagrams and goroutines", "why_tests_cant": "Schedule property.", "anchors": ["net/rtsp/connection.go:Start", "net/rtsp/connection.go:Stop"]}
{"id": "C72", "title": "A refused command is reported", "statement": "If the server refuses a command (any status other than 200 and 401) the stage does not change and the user is told: an error or a notification.", "quantifier": "every history, command and status", "why_tests_cant": "All statuses in all histories.", "anchors": ["net/rtsp/session.go:handleRtsp", "net/rtsp/session.go:notify"]}
{"id": "C73", "title": "Malformed responses are refused", "statement": "Unpack accepts a response exactly if its first line is the version, a space and a three digit code and every header line has a colon; otherwise it reports an error after the offending line and consumes nothing more.", "quantifier": "every byte stream", "why_tests_cant": "All malformed inputs.", "anchors": ["net/rtsp/message.go:Unpack"]}
{"id": "C74", "title": "Repacking a response", "statement": "Packing a response that was read, in any map iteration order, and reading it again gives the same response and leaves nothing over.", "quantifier": "every response and every map iteration order", "why_tests_cant": "Map order is nondeterministic.", "anchors": ["net/rtsp/message.go:Response.Pack", "net/rtsp/message.go:Unpack"]}
{"id": "C75", "title": "The server cannot crash the client", "statement": "Nothing a server sends - answers, descriptions, parameter sets, packets - makes the session or the command line client panic.", "quantifier": "every history, every byte stream, every schedule", "why_tests_cant": "All inputs of an untrusted peer.", "anchors": ["net/rtsp/session.go:handleRtsp", "net/rtsp/feed.go:ParseFeeds", "cmd/ouro/main.go:handleStates"]}
{"id": "C76", "title": "Units reported end to end", "statement": "If the server sends responses and interleaved frames, in pieces of any size, and the frames on even channels are RTP packets with H.264, the command line client reports exactly the units of these packets, in order, each once, with its timestamp, and in the end all of them.", "quantifier": "every message sequence, every way it is cut into reads, every expiry of deadlines, every schedule", "why_tests_cant": "Composes connection, session, channels, RTP and depacketizing over all streams and schedules.", "anchors": ["net/rtsp/session.go:receive", "net/rtp/packet.go:Unpack", "net/h264/packet.go:Push", "cmd/ouro/main.go:handleStates"]}
{"id": "C77", "title": "Each described stream is set up", "statement": "After DESCRIBE one SETUP is sent for each video section of the description, in order, with consecutive CSeq numbers, to the stream's control URL, with its own transport.", "quantifier": "every description and every number of sections", "why_tests_cant": "Unbounded number of sections.", "anchors": ["net/rtsp/session.go:Setup", "net/rtsp/feed.go:ParseFeeds", "net/rtsp/transport.go:NewTransport"]}
{"id": "C78", "title": "UDP listeners match the transport", "statement": "When reading starts over UDP there are two listeners per stream, on the ports of the negotiated transport, reporting on the stream's channels.", "quantifier": "every description, every granted Transport header", "why_tests_cant": "Unbounded number of streams and headers.", "anchors": ["net/rtsp/session.go:handleSetup", "net/rtsp/connection.go:AddSink", "net/rtsp/transport.go:NewTransport"]}
{"id": "C79", "title": "Requests are authorized for themselves", "statement": "Before a challenge requests carry no credentials; after one every request, sent again or new, carries the Authorization value of RFC 2617 for the latest answered challenge, its own method and its own URI.", "quantifier": "every history, every challenge", "why_tests_cant": "History property over all challenges.", "anchors": ["net/rtsp/session.go:command", "net/rtsp/session.go:authorize", "net/rtsp/digest.go:Authenticate"]}
{"id": "C80", "title": "Keep-alive", "statement": "While ready, playing or paused over UDP, KeepAlive sends OPTIONS with the session identifier; otherwise it sends nothing.", "quantifier": "every reachable state", "why_tests_cant": "All histories.", "anchors": ["net/rtsp/session.go:KeepAlive"]}
{"id": "C81", "title": "Reported units stay valid", "statement": "A unit taken from the sink keeps its header, numbers and data whatever is pushed later and however the buffers payloads came from are reused; a push reports what follows from the contents payloads had when pushed and changes no bytes of the caller.", "quantifier": "every history of allocations, overwritten buffers and pushes, every growth policy of append", "why_tests_cant": "Aliasing depends on capacities and on the whole history.", "anchors": ["net/h264/packet.go:Push", "net/h264/packet.go:AddFragment", "net/h264/annexb.go:SplitAnnexB", "net/h264/annexb.go:EBSPToRaw"]}
{"id": "C82", "title": "Received payloads stay valid", "statement": "The payload of a packet handed over on the data channel keeps its content while the connection reads on into the same buffer.", "quantifier": "every history of reads and deliveries", "why_tests_cant": "All interleavings of reads with the reuse of the buffer.", "anchors": ["net/rtsp/session.go:receive", "net/rtsp/connection.go:Start"]}
{"id": "C83", "title": "Kept lists stay valid", "statement": "The list of units of a sink, once taken, keeps its elements when more is pushed, and appending to the data of one unit does not change another.", "quantifier": "every history of pushes", "why_tests_cant": "Aliasing depends on capacities and on the whole history.", "anchors": ["net/h264/packet.go:parseNAL", "net/h264/packet.go:parseSTAP"]}
{"id": "C84", "title": "With a cooperative server the client finishes", "statement": "With a server that grants every request, perhaps after asking for credentials, the command line client plays, pauses, closes and finishes by itself, in this order.", "quantifier": "every server that answers each request with a grant, every fair order of the events of client, server and network, any number of packets and expired deadlines in between", "why_tests_cant": "Liveness: a property of infinitely many infinite schedules.", "anchors": ["cmd/ouro/main.go:handleStates", "net/rtsp/session.go:process", "net/rtsp/session.go:handleRtsp"]}
{"id": "C85", "title": "Malformed Transport headers are refused", "statement": "Parse of a Transport header gives an error exactly if the header is not in the grammar: a parameter that needs a number, a range or a text and does not have it.", "quantifier": "every text", "why_tests_cant": "All header texts.", "anchors": ["net/rtsp/transport.go:Parse", "net/rtsp/transport.go:ParsePair"]}
{"id": "C86", "title": "How the stream is cut into pieces does not matter", "statement": "Two connections that deliver the same bytes, and expired deadlines at the same places, make the client do the same, however the bytes are cut into reads: the same responses, packets, requests and errors.", "quantifier": "every stream, every way to cut it, every schedule", "why_tests_cant": "Pieces can end anywhere; a test tries a few.", "anchors": ["net/rtsp/session.go:receive", "net/rtsp/message.go:Unpack", "net/rtsp/http.go:ReceiveHTTP"]}
{"id": "C87", "title": "Keep-alive messages in time", "statement": "Over UDP, while the session is in use, keep-alive messages are at least two seconds apart, and whenever the reading goroutine takes a turn it leaves one that is less than two seconds old; over TCP there are none.", "quantifier": "every history of calls, messages, expired deadlines and clock readings", "why_tests_cant": "Depends on the clock and on all earlier turns.", "anchors": ["net/rtsp/session.go:KeepAlive", "net/rtsp/session.go:process"]}
{"id": "C88", "title": "The reading goroutine ends", "statement": "The goroutine that reads from the connection ends when reading fails, when a keep-alive cannot be sent, and when the session is done.", "quantifier": "every state, every message, every clock", "why_tests_cant": "Ending is a property of all continuations.", "anchors": ["net/rtsp/session.go:process"]}
{"id": "C89", "title": "Only granted requests are followed up", "statement": "After the answer to a request the session sends further requests by itself only if the request was granted: DESCRIBE after OPTIONS, SETUP after DESCRIBE, nothing else.", "quantifier": "every history, every response", "why_tests_cant": "All statuses in all states.", "anchors": ["net/rtsp/session.go:handleRtsp"]}
{"id": "C90", "title": "Addresses are understood", "statement": "Opening an RTSP address connects to its host and to its port, or to 554 when it has none; the requests carry the address without the credentials, with the port spelled out and otherwise byte for byte as written; and the credentials used are those of the address, with percent-escapes undone.", "quantifier": "every address: any scheme, credentials or none, name, IPv4 or IPv6 address, port or none, path with escapes, query or none", "why_tests_cant": "Addresses are unbounded text with four optional parts and escapes in three of them; tests try a handful.", "anchors": ["net/rtsp/connection.go:Dial", "net/rtsp/session.go:Open", "net/rtsp/session.go:authorize"]}
{"id": "C91", "title": "Credentials stay out of the request URI", "statement": "The URI sent in requests, and the place connected to, do not depend on the credentials in the address: two addresses that differ only in them lead to the same URI, the one of the address without credentials.", "quantifier": "every pair of accepted addresses with the same text after the last @ of the authority, any credentials text", "why_tests_cant": "A statement about pairs of runs, over all texts.", "anchors": ["net/rtsp/connection.go:Dial"]}
{"id": "C92", "title": "No address splits a request", "statement": "Whatever text is given as the address, if it is accepted then the URI in the requests is one word: a server reads each request with this URI as its second word and with the headers of the request and no others.", "quantifier": "every byte string given as an address, every request", "why_tests_cant": "Injection bugs hide in the inputs nobody thought of testing.", "anchors": ["net/rtsp/connection.go:Dial", "net/rtsp/message.go:Pack"]}
{"id": "C93", "title": "The playlist names the media file", "statement": "NewPlaylist(uri, name) makes a playlist whose media address is the directory's address followed by the escaped name of the file: same scheme, host, port and query, and a path that stands for the directory followed by the last component of name; and it is always a single line.", "quantifier": "every directory address, with and without a final slash, every file name made of any bytes, in any directory", "why_tests_cant": "Names may need escapes for any byte, and the address is joined by a function that also cleans it up.", "anchors": ["net/hls/playlist.go:NewPlaylist", "net/hls/playlist.go:String"]}
{"id": "C94", "title": "No credentials split a request", "statement": "Whatever user name and password the address gives, a request with the resulting Authorization header is read by the server with that one header, and the user name in it is the one given.", "quantifier": "every user name, password, challenge, request", "why_tests_cant": "Same as C92: the dangerous bytes are a few in all strings.", "anchors": ["net/rtsp/digest.go:Authenticate", "net/rtsp/session.go:authorize", "net/rtsp/message.go:Pack", "net/rtsp/connection.go:Dial"]}
{"id": "C95", "title": "Control URLs are resolved against the base of the description", "statement": "The SETUP for a stream goes to the URI its control attribute stands for: the attribute resolved, as relative references are, against the base of the description, which is Content-Base, else Content-Location, else the address asked for.", "quantifier": "every address, every answer to DESCRIBE with every base, every relative control URL, every history of the session before", "why_tests_cant": "The mistakes depend on the combination of path, query and base; a test server uses one combination.", "anchors": ["net/rtsp/session.go:handleRtsp", "net/rtsp/session.go:Setup", "net/rtsp/connection.go:Dial"]}
{"id": "C96", "title": "What the server learns about the credentials", "statement": "Nothing the session sends depends on user name or password until the server has refused a request with a challenge; and as long as all challenges are Digest, it depends on the password only through the hash of user name, realm and password.", "quantifier": "every history of commands and responses, every pair of credentials, every hash function, every network behaviour", "why_tests_cant": "Non-interference compares all pairs of runs; a test looks at one run.", "anchors": ["net/rtsp/session.go:authorize", "net/rtsp/session.go:handleRtsp", "net/rtsp/digest.go:NewDigest", "net/rtsp/digest.go:Authenticate"]}
{"id": "C97", "title": "The strongest of several challenges is answered", "statement": "If the server offers Basic and Digest together, in any order, in one or in several WWW-Authenticate lines, the request is sent again with Digest credentials.", "quantifier": "every refused request, every set of challenges, every history", "why_tests_cant": "The order of the challenges decides; a password in clear is not visible in a test that checks success.", "anchors": ["net/rtsp/digest.go:NewDigest", "net/rtsp/message.go:Unpack", "net/rtsp/session.go:handleRtsp"]}
{"id": "C98", "title": "Memory in proportion to the data", "statement": "Parsing a picture parameter set asks for memory in proportion to the size of the data it is given, whether the data is accepted or not.", "quantifier": "every byte string given to ParsePPS or found in a description or stream", "why_tests_cant": "The amounts come from numbers of up to 32 bits in the data; a test measures a few.", "anchors": ["net/h264/spspps.go:ParsePPS", "net/h264/spspps.go:ParseSprop"]}
{"id": "C99", "title": "Parameter sets as they are sent", "statement": "A parameter set in a stream description, sent as a NAL unit with emulation prevention bytes where the H.264 rules demand them, is stored by ParseSprop with exactly the syntax elements the sender encoded.", "quantifier": "all sequence and picture parameter sets, all byte strings that are a valid sending of them", "why_tests_cant": "Emulation prevention bytes turn up only for particular values of fields at particular bit positions; sample streams of a test rarely contain one.", "anchors": ["net/h264/spspps.go:ParseSprop", "net/h264/spspps.go:ParseSPS", "net/h264/spspps.go:ParsePPS"]}
{"id": "C100", "title": "Lost packets only cost the units they belong to", "statement": "When RTP packets of a stream are lost on the way, every unit all of whose packets arrived is still reported, in order and unchanged, and nothing is reported that was not sent.", "quantifier": "every sequence of units, every way of cutting them into packets, every set of lost packets, every schedule", "why_tests_cant": "Losses at every position of unbounded streams.", "anchors": ["net/h264/packet.go:Push", "net/h264/packet.go:AddFragment", "cmd/ouro/main.go:handleStates"]}
{"id": "C101", "title": "A lost connection ends the client", "statement": "When the connection to the server is lost, the command line client comes to its end: it does not wait for ever for something that can no longer come.", "quantifier": "every server, every moment at which the connection is lost, every order of the events of client, timer and network", "why_tests_cant": "A test sees one moment of loss and one order of events, and can only wait for a limited time to see that nothing happens.", "anchors": ["cmd/ouro/main.go:handleStates", "net/rtsp/session.go:process", "net/rtsp/session.go:receive"]}
{"id": "C102", "title": "A player can follow the playlist", "statement": "The rendered text is a media playlist (RFC 8216) from which a player reads the duration, the byte range and the address of each listed segment; the number of a segment does not change when the window moves on; and the end is not announced while segments are still added.", "quantifier": "every number of slots, every history of AddSegment, every media address, every moment of rendering", "why_tests_cant": "A test compares one rendered text; what a player makes of every text, and of two texts rendered one after the other, is a property of all histories.", "anchors": ["net/hls/playlist.go:String", "net/hls/playlist.go:AddSegment"]}
{"id": "C103", "title": "Packets out of order", "statement": "RTP packets carry sequence numbers so that a receiver can put them in order and drop copies. Whatever order the packets of a stream arrive in, and however often each arrives, the client reports the units that were sent, each once, complete and in the order in which they were sent.", "quantifier": "every list of legal H.264 units, every way of sending them whole or in FU-A fragments, every order of arrival and repetition of the packets, every schedule of the client", "why_tests_cant": "A network can reorder and repeat packets in unboundedly many ways; a test feeds one recorded order.", "anchors": ["cmd/ouro/main.go:handleStates", "net/rtp/packet.go:Unpack", "net/h264/packet.go:Push"]}
{"id": "C104", "title": "Streams are kept apart", "statement": "If a description has several video streams, the packets of each arrive on its own channel. However the packets of different streams mix on the connection, the client reports the units of each stream complete and in the order of that stream.", "quantifier": "every two lists of legal H.264 units on two channels, every way of mixing their packets, every schedule of the client", "why_tests_cant": "The ways in which two streams can mix are unbounded; a test has one stream, or one recorded mixture.", "anchors": ["cmd/ouro/main.go:handleStates", "net/h264/packet.go:Push"]}
{"id": "C105", "title": "Compound RTCP packets", "statement": "A frame on a control channel is a compound RTCP packet: several packets one after the other, each with its length. Decoding such a frame tells of every packet in it, and a frame whose lengths do not add up is refused.", "quantifier": "every list of RTCP packets of every type, every frame with any length field", "why_tests_cant": "A test decodes one captured frame; the number of packets and their lengths are unbounded.", "anchors": ["net/rtcp/packet.go:Unpack", "cmd/ouro/main.go:handleStates"]}
{"id": "C106", "title": "The server reads exactly the commands sent", "statement": "The bytes a session writes to its connection, taken together, are read by a server as exactly the commands the session issued, in their order: each with its verb, URI, CSeq, headers, session and authorization. No text from the address, the user name or the server's answers can add a command, hide one or make the connection unreadable.", "quantifier": "every address and user name, every history of calls, answers and packets, every order of the headers", "why_tests_cant": "A test looks at single requests with ordinary texts; what the concatenation of requests means depends on every text that gets into any of them, through descriptions, transports, sessions and challenges.", "anchors": ["net/rtsp/message.go:Request.Pack", "net/rtsp/session.go:Session.command", "net/rtsp/session.go:Session.handleRtsp", "net/rtsp/connection.go:Dial", "net/rtsp/digest.go:Digest.Authenticate", "net/sdp/packet.go:Parse", "net/rtsp/transport.go:String"]}
{"id": "C107", "title": "Only the described stream becomes video", "statement": "A client reports as video only packets of the stream it has set up: of the payload type in the description and from one source. Packets of other payload types or sources on the same channel, audio for example, are left out.", "quantifier": "every description, every sequence of packets with any payload types and sources, every schedule of the client", "why_tests_cant": "Payload type and source are 7 and 32 bits of every packet; a test sends the ones the description has.", "anchors": ["cmd/ouro/main.go:handleStates", "net/rtp/packet.go:Unpack", "net/h264/packet.go:Push"]}
{"id": "C108", "title": "What a client keeps is bounded", "statement": "However long a session lasts and whatever the server sends or leaves out, what the client keeps in memory stays bounded: packets waiting to be taken, parts of units not complete yet, and requests waiting for an answer.", "quantifier": "every server, every schedule, every length of the session", "why_tests_cant": "The growth shows only after hours or against a server that never completes a unit or never answers; a test stops before.", "anchors": ["cmd/ouro/main.go:handleStates", "net/h264/packet.go:Push", "net/rtsp/session.go:Session.enqueue", "net/rtsp/session.go:Session.KeepAlive", "net/rtsp/connection.go:Dial"]}
{"id": "C109", "title": "A feed says it is set up when it is", "statement": "TransportSetup of a feed returns no error exactly if every field of the Transport header has the value its name needs and every parameter set of the description can be read. A feed says it is set up exactly if such a call has succeeded. A call that fails changes nothing.", "quantifier": "every description, every feed in it, every sequence of Transport headers of any text", "why_tests_cant": "Headers and descriptions are arbitrary texts; a test sets up one feed once.", "anchors": ["net/rtsp/feed.go:Feed.TransportSetup", "net/rtsp/feed.go:ParseFeeds", "net/rtsp/transport.go:Parse", "net/h264/spspps.go:ParseSprop"]}
{"id": "C110", "title": "Opening a session again starts afresh", "statement": "A session may be opened again, after its connection failed or for another address. What it then sends is what a new session would send for that address, up to the sequence numbers: the first request carries no credentials, its answer leads to the DESCRIBE and so to the set-up of the feeds, and nothing an earlier server assigned or was told (session identifier, credentials, stage) reaches the new one.", "quantifier": "every history of a session (calls, answers, failures), every address, protocol and credentials of a later Open, and every answer to its first request", "why_tests_cant": "the state that is kept depends on the whole history before; tests open each session once", "anchors": ["net/rtsp/session.go:Open", "net/rtsp/session.go:authorize", "net/rtsp/session.go:handleRtsp", "net/rtsp/connection.go:Dial"]}
{"id": "C111", "title": "A message the client cannot use does not end the session", "statement": "A request of the server (such as OPTIONS to see whether the client is alive, ANNOUNCE or REDIRECT), a response to no pending request and a response with a header that cannot be used do not stop the session: the messages and packets that follow are read.", "quantifier": "all sessions that can be reached, all messages and all that follows", "why_tests_cant": "What a server may send of its own accord has no bound, and that nothing is read any more is a claim about every continuation.", "anchors": ["net/rtsp/session.go:Session.process", "net/rtsp/session.go:Session.receive", "net/rtsp/session.go:Session.handleRtsp", "net/rtsp/message.go:Unpack"]}
{"id": "C112", "title": "Calls before Open report an error", "statement": "Calling Options, Describe, Play, Pause, Teardown or KeepAlive on a session that has not been opened (or whose Open could not connect) returns the error that a connection is required, and does nothing else. After Open has connected, no call ever panics.", "quantifier": "every sequence of calls, every history after Open", "why_tests_cant": "All orders of calls, including the ones nobody tries.", "anchors": ["net/rtsp/session.go:command", "net/rtsp/session.go:Options", "net/rtsp/session.go:KeepAlive", "net/rtsp/session.go:NewSession"]}
{"id": "C113", "title": "The channels the server grants are the ones used", "statement": "When the server answers SETUP with a pair of interleaved channels of its own choice, the command-line client takes the RTP packets of the stream from the first channel of that pair and its RTCP packets from the second, and reports exactly the NAL units of the RTP packets.", "quantifier": "every pair of channels, every sequence of RTP and RTCP packets, every server and schedule", "why_tests_cant": "A test fixes the channels, usually 0 and 1, with which a client that looks at something else than the granted pair behaves the same.", "anchors": ["cmd/ouro/main.go:handleStates", "net/rtsp/session.go:handleRtsp", "net/rtsp/transport.go:Parse"]}
{"id": "C114", "title": "What the client reports depends on the video packets alone", "statement": "Two runs of the client that have taken the same packets on the even channels, in the same order, have reported the same units (header, timestamp and data), in the same order. It does not matter which servers they talk to, what else the servers send (responses, RTCP packets), how the bytes are cut on the network, or when the timer and the goroutines run. A packet that comes later never changes or withdraws what was reported before, and nothing but a video packet makes the client report anything.", "quantifier": "all pairs of servers, of networks, of credentials and of schedules of the reader, the client's loop and the timer; all histories", "why_tests_cant": "Two runs are compared over all schedules and all servers: a test sees a handful of pairs, and a dependence on timing or on control traffic shows only in rare ones", "anchors": ["cmd/ouro/main.go:handleStates", "net/h264/packet.go:NALSink.Push", "net/rtsp/session.go:Session.process"]}
{"id": "C115", "title": "Media packets do not disturb the dialogue", "statement": "Interleaved frames, whatever they contain and wherever they come between the messages, change nothing in the RTSP dialogue: the requests sent (bytes and numbers), the responses given back, the stages reported and the errors are those of the same run without the frames. A run with frames panics exactly when the run without them does.", "quantifier": "all sessions with any calls of the user, all messages read, all frames inserted anywhere, any number of them, on networks whose writes and clocks do not depend on the frames", "why_tests_cant": "The claim compares every run with every way to insert frames into it", "anchors": ["net/rtsp/session.go:Session.process", "net/rtsp/session.go:Session.handleRtsp", "net/rtsp/session.go:receive"]}
{"id": "C116", "title": "Each phase of the client lasts its five seconds", "statement": "With any server and any schedule, the client asks for PAUSE five seconds or more after it was told that the server plays, for TEARDOWN five seconds or more after it was told that the server pauses, and finishes five seconds or more after it was told that the session is over. It is not held up either: once the five seconds are over nothing but the timer is needed for the next step, however many packets came in between and even if the connection is lost.", "quantifier": "all servers, all schedules with all times that do not go back", "why_tests_cant": "A test with a clock sees a few seconds of one schedule; an early or lost timer depends on the interleaving of timer, stages and packets", "anchors": ["cmd/ouro/main.go:handleStates"]}
{"id": "C117", "title": "Nothing is made up", "statement": "Whatever the server sends, the data of every unit the client reports consists of bytes that were received in video packets before, in the order in which they were received; no byte is invented, none moves before an earlier one.", "quantifier": "all servers, all schedules, all packets, well-formed or not; every unit reported", "why_tests_cant": "Ranges over all malformed packets and all histories of fragments; a buffer that is reused or read past its end shows in few of them", "anchors": ["cmd/ouro/main.go:handleStates", "net/h264/packet.go:NALSink.Push", "net/h264/packet.go:NALSink.AddFragment", "net/h264/annexb.go:SplitAnnexB"]}
{"id": "C118", "title": "What is reported is no more than what was received", "statement": "All units the client has reported have together at most as many bytes of data as the video packets it has received: no data is reported twice.", "quantifier": "all servers, all schedules, any number of packets", "why_tests_cant": "The amount reported is compared over histories of any length; a small test stream has too few fragments to show growth", "anchors": ["cmd/ouro/main.go:handleStates", "net/h264/packet.go:NALSink.AddFragment"]}
{"id": "C119", "title": "Time in proportion to the data", "statement": "Parsing a parameter set takes a number of steps (calls of ReadBits and rounds of loops) in proportion to the size of the data it is given, whatever numbers of elements the data announces and whether it is accepted or not.", "quantifier": "every byte string given to ParseSPS, ParsePPS or ParseSprop, every store", "why_tests_cant": "The counts come from numbers of up to 32 bits in the data; a test measures a few.", "anchors": ["net/h264/spspps.go:ParseSPS", "net/h264/spspps.go:ParsePPS", "net/h264/spspps.go:ParseSprop", "net/h264/bits.go:ReadScalingList"]}
{"id": "C120", "title": "Requests in proportion to what is received", "statement": "Opening the client sends one request; after that it sends at most one request for every ten bytes it takes from the server, retries included, so that no server can make it flood the network with requests. A response without a body leads to at most one request.", "quantifier": "every server, byte stream, division into reads, expired deadlines, credentials, outcome of writes, and schedule of reader, timer, stages and packets; also responses that arrive before OPTIONS is sent; for single responses every session state and transport", "why_tests_cant": "how many requests follow from a stream depends on the whole history; a test can only count those of one dialogue", "anchors": ["net/rtsp/session.go:handleRtsp", "net/rtsp/session.go:Setup", "net/rtsp/session.go:handleSetup", "net/rtsp/message.go:Unpack", "net/sdp/packet.go:Parse", "cmd/ouro/main.go:handleStates"]}
{"id": "C121", "title": "A session takes a bounded number of requests", "statement": "Whatever the server sends, the command line client, apart from repeating requests that were refused with 401, sends OPTIONS once, DESCRIBE, PLAY, PAUSE and TEARDOWN at most once each, SETUP at most 204 times and nothing else; so a session takes at most 209 requests and one for every 401 received, and at most 209 if the address has no credentials. The client cannot be made to go on asking.", "quantifier": "every server behaviour (any bytes, in any pieces, with any timeouts and failures), every outcome of writing, every schedule of reads, stages, packets and timers, any length of session", "why_tests_cant": "a test plays a server that ends; the bound is about every server and every schedule, and comes from an invariant that weighs what is still to be answered", "anchors": ["net/rtsp/session.go:handleRtsp", "net/rtsp/session.go:Setup", "net/rtsp/connection.go:ReadBytes", "net/sdp/packet.go:Parse", "cmd/ouro/main.go:handleStates"]}
{"id": "C122", "title": "A session that is over stays over", "statement": "Once a session has reported Done, it sends no request of its own accord and reports no stage any more, whatever the server still sends and however long the session is kept.", "quantifier": "every history up to Done, everything the server can send after it, any number of keep-alive times, every schedule of the command line client", "why_tests_cant": "Late answers can cross the TEARDOWN in any order, and the session must be watched after the point where a test ends.", "anchors": ["net/rtsp/session.go:handleRtsp", "net/rtsp/session.go:KeepAlive", "net/rtsp/session.go:Teardown", "cmd/ouro/main.go:handleStates"]}
{"id": "C123", "title": "The output does not give the password away", "statement": "What the command line client prints does not reveal the password in the address it was given: with no challenge the output does not depend on the credentials, and with Digest challenges only through the hash of user name, realm and password.", "quantifier": "every pair of addresses that differ in their credentials only, every server behaviour, every schedule, every order of headers, every outcome of writing, any hash function", "why_tests_cant": "That two runs print the same is a statement about pairs of runs, for all servers and schedules.", "anchors": ["net/rtsp/session.go:command", "net/rtsp/session.go:handleRtsp", "cmd/ouro/main.go:main", "cmd/ouro/main.go:handleStates", "net/rtsp/connection.go:Dial"]}
{"id": "C124", "title": "The output tells which NAL units were received", "statement": "What the command line client prints has a line for each NAL unit it was given, in order, that tells the forbidden bit, the importance, the type and the size of that unit, and no other line looks like one.", "quantifier": "every address, every server behaviour, every schedule, every order of headers, every outcome of writing, every date, time and error text", "why_tests_cant": "Which lines the output has depends on everything that is printed, over whole runs with any server.", "anchors": ["cmd/ouro/main.go:handleStates", "cmd/ouro/main.go:main", "net/rtsp/session.go:command", "net/rtsp/session.go:handleRtsp", "net/rtsp/message.go:Pack", "net/h264/packet.go:NALUnit"]}
{"id": "C125", "title": "A port that cannot be listened on is not passed over", "statement": "Over UDP, reading is started only with listeners that could be opened. When a port of a granted stream cannot be listened on, the session is not reported to be ready as long as that stream has not its two listeners; if the failure is for good, the session ends and the user is told.", "quantifier": "every address, every server behaviour, every description, every Transport header of the grammar, every outcome of listening on each port, every later call", "why_tests_cant": "Which ports are tried and which of them fail depends on the answers to all the SETUP requests and on the machine; that nothing is reported later is about all continuations.", "anchors": ["net/rtsp/session.go:handleSetup", "net/rtsp/session.go:process", "net/rtsp/connection.go:AddSink", "net/rtsp/connection.go:Start", "net/rtsp/feed.go:TransportSetup"]}
{"id": "C126", "title": "A refused Transport header changes nothing", "statement": "If Transport.Parse returns an error, the transport is as it was before the call: no parameter of a header that is refused is taken over.", "quantifier": "every transport, every header text that is refused, wherever in it the first bad parameter is", "why_tests_cant": "A test has a few bad headers; the claim is about every mixture of good and bad parameters in every order.", "anchors": ["net/rtsp/transport.go:Parse", "net/rtsp/transport.go:ParsePair"]}
{"id": "C127", "title": "Commands of other goroutines do not disturb the setting up of streams", "statement": "While a session sets its streams up, another goroutine may issue commands. When every SETUP request has been answered with 200, in whatever order and with whatever other commands and answers in between, the session is reported ready, and not before.", "quantifier": "every number of streams, every schedule of Setup, of any number of commands in other goroutines and of answers", "why_tests_cant": "The number of a SETUP request is read back from the shared counter after the request was sent: whether another goroutine counted in between depends on the schedule, and a test sees few schedules.", "anchors": ["net/rtsp/session.go:Setup", "net/rtsp/session.go:command", "net/rtsp/session.go:enqueue", "net/rtsp/session.go:handleSetup"]}
{"id": "C128", "title": "A request carries a session identifier that the server gave", "statement": "While responses with Session headers come in and other goroutines send commands, every command goes out with no session identifier or with the identifier, the part before the first semicolon, of a Session header the server has sent; never with a mixture of two of them or with other bytes.", "quantifier": "every sequence of Session headers, every number of commands and every interleaving of the two word-sized stores of an assignment with the two word-sized loads of a command", "why_tests_cant": "a run shows one interleaving, and the window between the two stores is a few instructions wide", "anchors": ["net/rtsp/session.go:handleRtsp", "net/rtsp/session.go:enqueue", "net/rtsp/session.go:command"]}
{"id": "C129", "title": "The body of a response stays what it was", "statement": "The body of a response, and any other bytes ReadBytes returned, keep their content after the call, whatever is received on the connection later.", "quantifier": "every sequence of pieces in which the connection delivers its bytes, every response with a body among them, and every number of messages received afterwards", "why_tests_cant": "ReadBytes returns a window into the reader's own array; whether the window is overwritten depends on how the bytes that follow are cut into pieces by the network, and a test that delivers everything at once never sees it.", "anchors": ["net/rtsp/connection.go:ReadBytes", "net/rtsp/message.go:Unpack"]}
{"id": "C130", "title": "What a response says beyond what the client uses makes no difference", "statement": "Two histories of a session that differ only in what the server's responses say besides the status code, CSeq, the body and the headers Public, Session, Transport and WWW-Authenticate - the reason phrase, a Server or Date header, the order and letter case of the headers - go alike: both panic or neither does, the same requests are sent with the same credentials and in the same order, the same notifications and errors are given, and the session ends in the same state.", "quantifier": "every history of calls and responses, and every other history with the same used parts; on the wire, every two well-formed responses with the same used values", "why_tests_cant": "a test compares a few servers; the claim is about every possible header and every position in a history", "anchors": ["net/rtsp/session.go:handleRtsp", "net/rtsp/session.go:handleSetup", "net/rtsp/message.go:Response.Unpack"]}
{"id": "C131", "title": "Lines of a description that the client does not use make no difference", "statement": "A session description gives the same streams, and a session goes on in the same way, whether or not it contains - anywhere - lines of other types than m= and a= (names, connection data, times, bandwidths, empty lines) or attributes other than those the client uses (control, rtpmap, fmtp).", "quantifier": "every description and every position in it, every line of another type, every attribute", "why_tests_cant": "a test inserts a few lines at a few places; the claim is about every line the client does not know, at every place", "anchors": ["net/sdp/packet.go:Parse", "net/rtsp/feed.go:ParseFeeds", "net/rtsp/session.go:handleRtsp"]}
{"id": "C132", "title": "The timestamps of payloads are only labels", "statement": "The timestamps with which payloads are pushed into a NAL sink make no difference to anything but the timestamps of the units: for the same payloads every push returns the same error or panics alike, and leaves units of the same number and order, with the same header, decoding order number and content.", "quantifier": "every sequence of payloads of any content and any two sequences of timestamps", "why_tests_cant": "All pairs of sequences of timestamps over all payloads: fragments and aggregates carry timestamps along, and one comparison of timestamps anywhere would show only for some.", "anchors": ["net/h264/packet.go:Push", "net/h264/packet.go:parseNAL"]}
{"id": "C133", "title": "Timestamps follow the sender's clock", "statement": "If every payload is pushed with a timestamp ahead by the same amount (modulo 2^32), the units are the same with timestamps ahead by that amount: the random initial value of a sender's timestamps shows in nothing else.", "quantifier": "every sequence of payloads, every sequence of timestamps and every amount", "why_tests_cant": "All payloads and all 2^32 amounts, including those over which the 32 bits wrap around.", "anchors": ["net/h264/packet.go:Push", "net/h264/packet.go:parseNAL"]}
{"id": "C134", "title": "Credentials, random numbers and the hash show in nothing but the Authorization headers", "statement": "Two sessions that go through the same calls and the same answers of the server, each with credentials of its own, other random numbers and even another hash function, panic alike, write the same requests in the same order apart from the values of Authorization headers (the same requests have one), notify the same states, return the same errors, have the same streams and listen on the same ports. So neither the name nor the password of a user, nor anything computed from them, gets into anything but that header or decides anything.", "quantifier": "every history of a session (any calls, any answers in any order), any two pairs of credentials for every Open, any random numbers at any time, any two hash functions; the network may fail in any way that does not depend on the header's value", "why_tests_cant": "A property of pairs of executions over all histories: no run of one session shows that another with other secrets would do the same.", "anchors": ["net/rtsp/session.go:Open", "net/rtsp/session.go:authorize", "net/rtsp/session.go:command", "net/rtsp/session.go:handleRtsp", "net/rtsp/digest.go:Authenticate", "net/rtsp/digest.go:Next", "net/rtsp/digest.go:response"]}
{"id": "C135", "title": "Setup asks for the streams of one description", "statement": "When the user calls Setup and an answer to DESCRIBE arrives meanwhile, Setup does not panic and asks for the streams of one description: one request for every stream, in order, with the URI and the transport of that stream.", "quantifier": "every description Setup begins with, every set of descriptions that may arrive, and every schedule of the steps of Setup and the arrivals", "why_tests_cant": "All interleavings of two goroutines over all descriptions: which of them fail depends on the moment at which the list of streams is replaced.", "anchors": ["net/rtsp/session.go:Setup", "net/rtsp/session.go:handleRtsp", "net/rtsp/feed.go:TransportHeader"]}
{"id": "C136", "title": "Each section of a description speaks for itself", "statement": "A media section of a session description gives the same streams whatever is before and after it: appended to any description it gives, after that description's streams, which stay as they are, exactly the streams it gives alone, and the whole makes the parser panic only if one of the parts does. Exchanging sections exchanges their streams and changes nothing else.", "quantifier": "every description and every sequence of sections, of any lines", "why_tests_cant": "All texts and all ways to cut them at m= lines: the parser keeps a pointer to the last stream across lines, and whether it ever points to the wrong one depends on the lines before.", "anchors": ["net/sdp/packet.go:Parse"]}
{"id": "C137", "title": "A receiver that joins a stream late is in step from the next start of a unit on", "statement": "What a sink received before makes no difference to a stream that ends no unit it has not started: for each payload Push returns the same error and leaves the same units, decoding order numbers aside, as a new sink would. In particular payloads without fragments, then one that begins with the first fragment of a unit, then anything. For every other stream it does make a difference.", "quantifier": "every sequence of payloads before and every sequence of payloads after, of any bytes, with any timestamps", "why_tests_cant": "All histories: whether something kept from an earlier payload shows in a later one depends on everything between them.", "anchors": ["net/h264/packet.go:Push", "net/h264/packet.go:AddFragment", "net/h264/packet.go:parseNAL"]}
{"id": "C138", "title": "The order in which parameter sets are given does not matter", "statement": "The same parameter sets, in whatever order and however often they are given to ParseSPS, ParsePPS and ParseSprop, with no two different sets under one identifier: each call returns the same error, and GetSPS and GetPPS give the same sets at the end.", "quantifier": "every collection of parameter sets, correct or not, every order and repetition, every store they are added to", "why_tests_cant": "All permutations of all collections: the reading of a picture parameter set looks into the store.", "anchors": ["net/h264/spspps.go:ParseSPS", "net/h264/spspps.go:ParsePPS", "net/h264/spspps.go:ParseSprop", "net/h264/spspps.go:GetSPS", "net/h264/spspps.go:GetPPS"]}
{"id": "C139", "title": "Opening a session again leaves what the new connection carries whole", "statement": "A client that calls Open a second time on a session (for instance after a camera has gone silent) gets the packets of the new connection on Data as they were sent: each payload with its channel, in order, none lost, none invented, whatever the goroutines do. Exactly: this is sure if the reading goroutine of the first Open has ended before, or nothing is sent. Otherwise that goroutine, once its call on the old connection is over, reads from the new connection too, and there is a schedule after which the frames can never be delivered as they were sent.", "quantifier": "every list of interleaved frames with payloads up to 2048 bytes, first goroutine alive or ended, every schedule of the two goroutines and of their deadlines, every response handler outcome", "why_tests_cant": "two goroutines read from one connection only if a deadline of the old one expires at the right moment between two reads of the other; a test sees one schedule", "anchors": ["net/rtsp/session.go:Open", "net/rtsp/session.go:receive", "net/rtsp/session.go:process", "net/rtsp/connection.go:Peek", "net/rtsp/connection.go:ReadBytes"]}
{"id": "C140", "title": "The order of the fields of a Transport header does not matter", "statement": "A Transport header with the same fields in another order is accepted if and only if the first one is, and makes the same of the transport. Exactly: this is so if and only if no two fields say different things about the same part of the transport; so a grammatical header with multicast and interleaved is read differently in different orders.", "quantifier": "every list of fields (texts without a semicolon), every order of them, every transport the header is applied to", "why_tests_cant": "the number of orders and of field texts is unbounded, and fields act on shared parts of the transport", "anchors": ["net/rtsp/transport.go:Parse", "net/rtsp/transport.go:ParsePair"]}
{"id": "C141", "title": "The order of the lines of a section", "statement": "The attribute lines of a video section of a description may be put in any order without a change to the stream read from it. (The order matters for some; the lines of a section may be put in any order exactly if any two of them may be exchanged in a section with nothing else, and then they may wherever the section is.)", "quantifier": "all video sections, with any lines, and all orders of these; all descriptions around them", "why_tests_cant": "There are n! orders of n lines, and the lines are any texts; that two of them at a time decide about all orders is a statement about all lists.", "anchors": ["net/sdp/packet.go:Parse"]}
{"id": "C142", "title": "Distances of decoding order numbers do not depend on when the receiver joined", "statement": "Two receivers that have taken different histories and then take the same payloads get units whose numbers may differ. The distance DonDiff of any two units of the common payloads should be the same for both.", "quantifier": "all payloads, all histories before them, all pairs of reported units", "why_tests_cant": "A test joins at a few points. Whether distances agree depends on every history before the join, on wrap-around of 16-bit numbers, and on which packets carry numbers.", "anchors": ["net/h264/packet.go:Push", "net/h264/packet.go:parseNAL", "net/h264/packet.go:parseSTAP", "net/h264/packet.go:parseMTAP", "net/h264/packet.go:DonDiff"]}
{"id": "C143", "title": "Arguments and exit status of the program", "statement": "The program asks the network for an address just if its arguments are one address, alone or after --, and then for that one. It ends with status 0 just if help was asked for or the session was played, paused and closed; wrong arguments, a bad address, a failed connection, a command that cannot be sent, a crash and packets it cannot read give another status.", "quantifier": "all argument lists, servers, connections and schedules", "why_tests_cant": "A test runs the program on a few argument lists against a few servers; scripts rely on the status after every way a run can end.", "anchors": ["cmd/ouro/main.go:main", "cmd/ouro/main.go:handleStates", "net/rtsp/connection.go:Dial"]}
{"id": "C144", "title": "A payload that arrives twice makes no difference", "statement": "If the network delivers a packet twice in a row, the user of the sink gets the same units as if it had arrived once (decoding order numbers aside).", "quantifier": "all histories, payloads and later payloads", "why_tests_cant": "A test repeats a few packets; whether a repetition shows depends on the kind of packet, on the fragments kept from the history and on what comes later.", "anchors": ["net/h264/packet.go:Push", "net/h264/packet.go:parseNAL", "net/h264/packet.go:AddFragment"]}
{"id": "C145", "title": "Data behind a parameter set", "statement": "If ParseSPS (or ParseSprop on such a unit) accepts data, then it accepts the data followed by any further bytes with the same effect on the store, and any cut of the data is either refused without effect or has the same effect as the whole: there is one length from which on the beginning of the data suffices. For ParsePPS the same is expected.", "quantifier": "all data, all bytes behind it, all cuts of it, all stores and all answers of the platform for the width of slice group ids", "why_tests_cant": "Which bytes follow a set (padding, trailing zero bytes, the next structure) and where it is cut depend on the sender and the network; tests try a few.", "anchors": ["net/h264/spspps.go:ParseSPS", "net/h264/spspps.go:ParsePPS", "net/h264/spspps.go:ParseSprop", "net/h264/bits.go:ReadBits", "net/h264/bits.go:ReadUnsignedGolomb", "net/h264/bits.go:Available"]}
{"id": "C146", "title": "A playlist that is rendered while segments are added", "statement": "While one goroutine calls AddSegment and another calls String on the same playlist, String returns the text the playlist would have had at some moment between two calls of AddSegment: it lists the newest segments, oldest first, each with the duration, length and position it was added with. It fails: AddSegment moves the end of the ring before it has written the fields of the new segment, so String lists a segment with no bytes, and a slot that is used again makes it list the newest segment before an older one. When no AddSegment is under way the text is right. While there are free slots String does not panic under any schedule, lists every segment that was complete when it was called, and only fields of the last one listed may be missing.", "quantifier": "every schedule of the two goroutines, every history of segments, every number of slots", "why_tests_cant": "A test runs one schedule; the race detector reports the accesses but not what a reader sees", "anchors": ["net/hls/playlist.go:String", "net/hls/playlist.go:AddSegment"]}
{"id": "C147", "title": "Requests made at the same time are authorized for themselves", "statement": "When several goroutines issue commands at the same time, or one does while the session sends a refused request again, every request carries the Authorization value for its own method and for the latest challenge answered before it.", "quantifier": "every hash function, credentials, number of challenges, number of goroutines and interleaving of their steps", "why_tests_cant": "The outcome depends on the interleaving of unsynchronised reads and writes; a test runs a few schedules, and the wrong value shows only as a refused request.", "anchors": ["net/rtsp/digest.go:Authenticate", "net/rtsp/digest.go:response", "net/rtsp/session.go:command", "net/rtsp/session.go:handleRtsp"]}
{"id": "C148", "title": "Of an RTP packet only the timestamp and the payload count", "statement": "What the client reports does not depend on the padding flag, the marker, the payload type, the sequence number, the sources or the header extension of the video packets: two runs whose packets agree, one by one, in the timestamp and in what follows the header report the same units.", "quantifier": "all pairs of runs of the command line client, with any servers, connections and schedules, and all pairs of lists of valid RTP packets with the same timestamps and payloads", "why_tests_cant": "ranges over all pairs of runs and all values of the header fields of all packets", "anchors": ["net/rtp/packet.go:Unpack", "cmd/ouro/main.go:main", "net/h264/packet.go:Push"]}
{"id": "C149", "title": "How a server ends its lines makes no difference", "statement": "A server may end each line of its responses, of its descriptions and of its answer to the tunnel's GET request by a carriage return and a line feed, by a line feed or by a carriage return (RFC 2326, 4; RFC 4566, 5): the client gets the same response, error or feeds for the same lines, and goes on reading at the same place.", "quantifier": "all status lines, header lines and description lines, all choices of an end for each of the lines, all data after them and all states of the reader", "why_tests_cant": "ranges over all texts, all choices of line ends and all data that follows", "anchors": ["net/rtsp/message.go:Unpack", "net/rtsp/http.go:ReceiveHTTP", "net/sdp/packet.go:Parse"]}
{"id": "C150", "title": "The order in which the SETUP requests are answered makes no difference", "statement": "The client sends the SETUP requests of all streams at once. A server may answer them in any order: afterwards the session is the same, each stream is reported on the same channels, Ready is reported as often, and no other requests are sent.", "quantifier": "all reachable sessions with SETUP requests that wait for answers, all lists of answers to them and all orders of these lists", "why_tests_cant": "ranges over all numbers of streams, all answers and all orders of them", "anchors": ["net/rtsp/session.go:handleRtsp", "net/rtsp/session.go:handleSetup", "net/rtsp/feed.go:TransportSetup"]}
{"id": "C151", "title": "The order of the header lines of a response makes no difference", "statement": "Header lines with different names may come in any order (RFC 2616, 4.2, which RFC 2326 refers to): the client gets the same error, or the same status, number, body and header values, does the same with them, and goes on reading at the same place.", "quantifier": "all first lines, all lists of well-formed header lines, all orders of them that keep the order of lines with the same name, all data behind them, all errors of the connection and all states of the reader", "why_tests_cant": "ranges over all header lines, all their orders and all data behind them", "anchors": ["net/rtsp/message.go:Unpack"]}
{"id": "C152", "title": "The order of the format parameters makes no difference", "statement": "The parameters of an fmtp line of a description may come in any order (RFC 6184, 8.2.1): the feeds parsed from the description are the same.", "quantifier": "all descriptions with any lines before and behind, all lists of printable parameters with different names and all orders of them", "why_tests_cant": "ranges over all names and values, all their orders and all surrounding lines", "anchors": ["net/sdp/packet.go:Parse"]}
{"id": "C153", "title": "Upper and lower case in names make no difference", "statement": "Where the standards say that names may be written in upper or lower case, the client understands a server in the same way whatever case it uses: the names of header lines, the fields and the lower protocol of a Transport header, the scheme and the parameter names of a challenge, the name of the encoding and the names of its format parameters in a description.", "quantifier": "all names in all mixtures of case, with all values, in all messages and descriptions, with any lines before and behind", "why_tests_cant": "servers differ in the case they use, in any combination over all names of a message; a test sees a few fixed messages", "anchors": ["net/rtsp/transport.go:Parse", "net/rtsp/message.go:Header.Set", "net/rtsp/message.go:Unpack", "net/sdp/packet.go:Parse", "net/rtsp/digest.go:NewDigest"]}
