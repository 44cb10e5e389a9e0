{"id": "C01", "title": "Decoding is lossless", "statement": "Repeatedly calling Packet::decode on a buffer until it returns None, encoding every packet obtained (Ascii, Rp or Invalid) and appending whatever is left in the buffer reproduces exactly the original bytes.", "quantifier": "every byte string, including garbage, truncated and corrupted input", "why_tests_cant": "The input space is all byte strings; the fuzz target depkt.rs only samples it.", "anchors": ["elkm1/src/pkt.rs:Packet::decode", "elkm1/src/pkt.rs:Packet::encode", "fuzz/fuzz_targets/depkt.rs"]}
{"id": "C02", "title": "Every valid packet survives a trip over the wire", "statement": "For every AsciiPacket or RpPacket obtained through its TryFrom constructor, decoding its encoding followed by any further bytes returns that same packet and leaves exactly the further bytes; consequently any sequence of such packets written back to back is decoded to exactly that sequence.", "quantifier": "every valid packet body, every following byte string, every sequence of packets", "why_tests_cant": "Bodies range over all printable strings of length 2..253 and all binary bodies up to 1018 bytes; fuzz target pkt.rs samples single packets only.", "anchors": ["elkm1/src/pkt.rs:Packet::encode", "elkm1/src/pkt.rs:Packet::decode", "elkm1/src/pkt.rs:AsciiPacket::try_from", "elkm1/src/pkt.rs:RpPacket::try_from"]}
{"id": "C03", "title": "A decoded packet really was at the front of the buffer", "statement": "If decode returns an Ascii or Rp packet then the buffer started with precisely the encoding of that packet, and the packet satisfies the constructor's constraints; so decode returns a valid packet exactly when the buffer starts with the encoding of one (no forged, altered or reinterpreted packets).", "quantifier": "every byte string", "why_tests_cant": "Soundness over all inputs cannot be sampled.", "anchors": ["elkm1/src/pkt.rs:Packet::decode", "elkm1/src/pkt.rs:AsciiPacket::decode", "elkm1/src/pkt.rs:RpPacket::decode"]}
{"id": "C04", "title": "Decoded packets satisfy the documented constraints", "statement": "Every Ascii packet returned by decode is printable ASCII of length 2..253; every Rp packet fits in 1024 framed bytes including escapes; every Invalid packet carries between 1 and 1024 raw bytes.", "quantifier": "every byte string", "why_tests_cant": "Invariant over all inputs.", "anchors": ["elkm1/src/pkt.rs:AsciiPacket", "elkm1/src/pkt.rs:RpPacket", "elkm1/src/pkt.rs:InvalidPacket::MAX_LEN"]}
{"id": "C05", "title": "Decode makes progress and touches only what it returns", "statement": "When decode returns a packet it removes at least one byte, and precisely the bytes of that packet's encoding, from the front of the buffer; when it returns None the buffer is unchanged. Hence draining any buffer ends after at most as many packets as there are bytes.", "quantifier": "every byte string", "why_tests_cant": "Termination for every input.", "anchors": ["elkm1/src/pkt.rs:Packet::decode", "elkm1-cli/src/main.rs:read"]}
{"id": "C06", "title": "Incomplete packets wait for more data", "statement": "For every valid packet and every proper prefix of its encoding, decode returns None and leaves the buffer unchanged.", "quantifier": "every valid packet, every truncation point", "why_tests_cant": "Every truncation point of every packet.", "anchors": ["elkm1/src/pkt.rs:Packet::decode", "elkm1/src/pkt.rs:RpPacket::decode"]}
{"id": "C07", "title": "Packets do not depend on how the network splits the stream", "statement": "Feeding a byte stream to the decoder in any sequence of chunks (draining after each chunk) yields the same packets in the same order and the same left-over bytes as feeding it all at once.", "quantifier": "every byte string and every way of splitting it into chunks", "why_tests_cant": "Exponentially many splits of every stream.", "anchors": ["elkm1/src/pkt.rs:Packet::decode", "elkm1/src/tokio.rs:Codec"]}
{"id": "C08", "title": "The decoder never stalls on a full buffer", "statement": "Once 1026 bytes are buffered decode always returns something, so the stream can never get stuck and the receive buffer is bounded.", "quantifier": "every byte string of at least 1026 bytes", "why_tests_cant": "Needs every buffer content; the violating inputs (RP footer ending exactly at the 1024-byte limit) are a vanishing fraction of the space.", "anchors": ["elkm1/src/pkt.rs:RpPacket::decode", "elkm1/src/pkt.rs:Packet::decode", "elkm1/src/pkt.rs:RpPacket::decode_unfinished"]}
{"id": "C09", "title": "A single corrupted byte never yields a wrong ASCII packet", "statement": "If one byte anywhere in the encoding of an ASCII packet (length digits, body, checksum, CR, LF) is replaced by a different value, decode of the result, whatever bytes follow, never returns an Ascii or Rp packet at that position.", "quantifier": "every ASCII packet, every position, every replacement value, every following byte string", "why_tests_cant": "Positions x values x packets x suffixes.", "anchors": ["elkm1/src/pkt.rs:AsciiPacket::decode", "elkm1/src/pkt.rs:AsciiPacket::checksum"]}
{"id": "C10", "title": "Corruption inside an ASCII frame is contained", "statement": "If one byte after the length digits of an ASCII frame is corrupted, decode returns Invalid with precisely that frame's bytes and leaves all following bytes untouched, so every later packet is still received.", "quantifier": "every ASCII packet, position after the length digits, replacement value and following stream", "why_tests_cant": "As above.", "anchors": ["elkm1/src/pkt.rs:Packet::decode", "elkm1/src/pkt.rs:AsciiPacket::decode"]}
{"id": "C11", "title": "RP checksum is CRC-16/XMODEM", "statement": "The 16-bit trailer of an RP packet is the remainder of the body (as a GF(2) polynomial, most significant bit first) times x^16 modulo x^16+x^12+x^5+1, with zero initial value and no final xor.", "quantifier": "every body", "why_tests_cant": "All byte strings; a table error could affect any entry.", "anchors": ["elkm1/src/pkt.rs:RpPacket::crc"]}
{"id": "C12", "title": "RP corruption of two adjacent bytes is detected", "statement": "If one or two adjacent body bytes of an RP frame are altered (neither old nor new bytes being the escape byte 0x10), decode returns Invalid with precisely that frame and leaves all following bytes untouched. Equal-length bodies that differ only within a window of two adjacent bytes always have different CRCs.", "quantifier": "every RP body, window position, replacement and following stream", "why_tests_cant": "Bodies x positions x values.", "anchors": ["elkm1/src/pkt.rs:RpPacket::crc", "elkm1/src/pkt.rs:RpPacket::decode"]}
{"id": "C13", "title": "The decoder resynchronises after garbage", "statement": "After any run of garbage bytes containing neither an uppercase hex digit nor 0x10, followed by the encoding of a valid packet, decode returns only Invalid packets whose raw bytes concatenate to the garbage, and then the valid packet; no more than one Invalid packet per 1024 bytes of garbage is needed.", "quantifier": "every garbage string of this shape of any length, every valid packet, every following stream", "why_tests_cant": "All garbage strings of all lengths, including around the 1024-byte chunk limit.", "anchors": ["elkm1/src/pkt.rs:Packet::decode", "elkm1/src/pkt.rs:InvalidPacket::MAX_LEN"]}
{"id": "C14", "title": "Packet constructors accept exactly the representable bodies", "statement": "AsciiPacket::try_from succeeds iff the body is printable ASCII (0x20..=0x7e) of length 2..253; RpPacket::try_from succeeds iff the encoding is at most 1024 bytes; encoding an accepted packet never panics and yields len+6 bytes (ASCII) or len+6+number of 0x10 bytes (RP).", "quantifier": "every byte string", "why_tests_cant": "All byte strings; boundaries at 2, 253 and 1018.", "anchors": ["elkm1/src/pkt.rs:AsciiPacket::try_from", "elkm1/src/pkt.rs:RpPacket::try_from", "elkm1/src/pkt.rs:AsciiPacket::encode", "elkm1/src/pkt.rs:RpPacket::encode"]}
{"id": "C15", "title": "Encodings are unambiguous", "statement": "Two different valid packets never have encodings of which one is a prefix of the other.", "quantifier": "every pair of valid packets", "why_tests_cant": "All pairs.", "anchors": ["elkm1/src/pkt.rs:Packet::encode"]}
{"id": "C16", "title": "Decode never panics", "statement": "Packet::decode returns normally on every buffer: no out-of-range index or slice, no failed assertion, no overflow.", "quantifier": "every byte string", "why_tests_cant": "All byte strings.", "anchors": ["elkm1/src/pkt.rs:Packet::decode", "elkm1/src/pkt.rs:RpPacket::decode", "elkm1/src/pkt.rs:AsciiPacket::decode"]}
{"id": "C17", "title": "Every message survives encode and parse", "statement": "For every well-formed message of every type, to_pkt does not panic, yields a valid ASCII packet, and Message::parse of that packet returns the same message.", "quantifier": "every well-formed message of all 15 types", "why_tests_cant": "Messages range over e.g. 16^208 zone reports; fuzz target msg.rs samples.", "anchors": ["elkm1/src/msg.rs:Message::to_pkt", "elkm1/src/msg.rs:Message::parse", "fuzz/fuzz_targets/msg.rs"]}
{"id": "C18", "title": "Parsing never panics", "statement": "Message::parse returns normally (Ok or Err) on every packet that decode or the constructors can produce.", "quantifier": "every valid packet", "why_tests_cant": "All packet bodies: 2..253 printable characters.", "anchors": ["elkm1/src/msg.rs:Message::parse_ascii"]}
{"id": "C19", "title": "Parsed messages are well-formed", "statement": "Every message returned by parse has all its fields in range: zones 1..208, areas 1..8, keypads 1..16, tasks 1..32, zone status < 16, codes six digits, date fields in range, texts printable; so indexing the panel's per-zone/area arrays with them cannot go out of bounds.", "quantifier": "every packet", "why_tests_cant": "Range invariants over all inputs.", "anchors": ["elkm1/src/msg.rs:limited_u8", "elkm1/src/msg.rs:Message::parse_ascii", "elkm1/src/msg.rs:RtcData::from_ascii"]}
{"id": "C20", "title": "Re-encoding a parsed message preserves its meaning", "statement": "If a packet parses to a message, re-encoding that message and parsing again gives the same message.", "quantifier": "every packet that parses", "why_tests_cant": "All packets, including non-canonical ones.", "anchors": ["elkm1/src/msg.rs:Message::parse", "elkm1/src/msg.rs:Message::to_pkt"]}
{"id": "C21", "title": "Parse accepts only canonical encodings", "statement": "If a packet parses to a message then re-encoding the message gives back the same packet, up to the reserved and future-expansion bytes at its end.", "quantifier": "every packet that parses", "why_tests_cant": "All packets; non-canonical digit strings such as '+16' are rare in samples.", "anchors": ["elkm1/src/msg.rs:parse_u8_dec", "elkm1/src/msg.rs:Message::to_pkt"]}
{"id": "C22", "title": "Unsupported traffic is ignored, not misread", "statement": "Parse yields a message only for ASCII packets whose first two characters are one of the 25 supported codes, and then only a message of the type with that code; ASCII packets of at least 4 characters with any other code, RP packets and Invalid packets all yield Ok(None).", "quantifier": "every packet", "why_tests_cant": "All packets.", "anchors": ["elkm1/src/msg.rs:Message::parse", "elkm1/src/msg.rs:Message::parse_ascii"]}
{"id": "C23", "title": "Replies are matched to requests as documented", "statement": "is_response_to holds exactly for: AS to as, ZS to zs, RR to rr, IC to an arm request, TC to activation of the same task, SD to sd of the same type whose number is 0 or at least the requested number; never otherwise.", "quantifier": "every pair of messages", "why_tests_cant": "All pairs of messages.", "anchors": ["elkm1/src/msg.rs:Message::is_response_to"]}
{"id": "C24", "title": "Zone status nibble splits losslessly", "statement": "For every zone status below 16, logical and physical do not panic, new(logical, physical) rebuilds the status, and new followed by logical/physical returns its arguments.", "quantifier": "every zone status and every logical/physical pair", "why_tests_cant": "Finite but must hold for the whole table.", "anchors": ["elkm1/src/msg.rs:ZoneStatus"]}
{"id": "C25", "title": "Arm codes keep their digits", "statement": "ArmCode::try_from(n) succeeds iff n < 1000000 and then denotes the six decimal digits of n with leading zeros (so distinct numbers give distinct codes); ArmCode::try_from(bytes) succeeds iff there are exactly six ASCII digits and keeps them.", "quantifier": "every u32 and every byte string", "why_tests_cant": "2^32 numbers.", "anchors": ["elkm1/src/msg.rs:ArmCode"]}
{"id": "C26", "title": "ISO-8601 date text round-trips", "statement": "DateTime::from_iso_8601 never panics; any value it accepts prints with to_iso_8601 to a string that parses back to the same value; and every in-range date prints and parses back.", "quantifier": "every string, every date", "why_tests_cant": "All strings incl. non-ASCII and the year 2100 boundary.", "anchors": ["elkm1/src/msg.rs:DateTime::from_iso_8601", "elkm1/src/msg.rs:DateTime::to_iso_8601"]}
{"id": "C27", "title": "Text descriptions keep their text", "statement": "TextDescription::new accepts exactly printable ASCII text; as_str then returns the first 16 characters without trailing spaces; equal texts give equal descriptions.", "quantifier": "every string", "why_tests_cant": "All strings.", "anchors": ["elkm1/src/msg.rs:TextDescription::new", "elkm1/src/msg.rs:TextDescription::as_str"]}
{"id": "C28", "title": "is_firing is true exactly for real alarms", "statement": "AlarmState::is_firing is true for every state that denotes an alarm (fire, medical, police, burglar, aux, CO, ... ) and false for no-alarm, entrance delay and abort delay.", "quantifier": "every alarm state", "why_tests_cant": "Must hold for the whole table; the suite has no test of it.", "anchors": ["elkm1/src/msg.rs:AlarmState::is_firing"]}
{"id": "C29", "title": "Suspicious transition detection means what it says", "statement": "is_transition_suspicious(from,to) holds iff some area goes from Disarmed to an armed mode with entry delay (away, stay, night, vacation) reported as already fully armed.", "quantifier": "every pair of arming reports", "why_tests_cant": "(7*7*19)^8 reports, squared.", "anchors": ["elkm1/src/msg.rs:ArmingStatusReport::is_transition_suspicious"]}
{"id": "C30", "title": "Deserialisation cannot forge out-of-range values", "statement": "With the serde feature, deserialising a zone, area, zone status, arm code, text description or ASCII packet yields a value that satisfies the type's documented invariant.", "quantifier": "every serialised value", "why_tests_cant": "All serialised inputs.", "anchors": ["elkm1/src/msg.rs:limited_u8", "elkm1/src/msg.rs:ZoneStatus", "elkm1/src/pkt.rs:AsciiPacket"]}
{"id": "C31", "title": "The arming view follows the latest report", "statement": "After any history the panel's arming_status is the most recently received arming report, unless that report is being withheld as suspicious, in which case it is the one that will be applied on timeout.", "quantifier": "every history of received packets, polls, clock values, commands, wake-ups", "why_tests_cant": "Unbounded histories.", "anchors": ["elkm1/src/state.rs:Panel::interpret_arming_status", "elkm1/src/state.rs:Panel::poll_next"]}
{"id": "C32", "title": "Spurious fully-armed reports are not shown", "statement": "A report that makes a suspicious transition from the current view never becomes visible when it is received unless the report just before it was itself being withheld; it becomes visible only by a poll at least 5 seconds later with no other arming report in between.", "quantifier": "every history", "why_tests_cant": "All histories and timings.", "anchors": ["elkm1/src/state.rs:Panel::interpret_arming_status", "elkm1/src/state.rs:SUSPICIOUS_TRANSITION_DELAY"]}
{"id": "C33", "title": "A withheld report is eventually applied", "statement": "If a withheld report is not superseded, then any poll at least 5 seconds after it was received that finds no packet ready applies it and reports the change with the correct prior state.", "quantifier": "every history, every poll time", "why_tests_cant": "All timings.", "anchors": ["elkm1/src/state.rs:Panel::poll_next"]}
{"id": "C34", "title": "Change events are truthful and complete", "statement": "A returned event carries a change iff the panel's arming view or zone view differs from before the poll; the change names what changed (zone or arming) and carries the prior value, and nothing else changed.", "quantifier": "every history and every received packet", "why_tests_cant": "All histories.", "anchors": ["elkm1/src/state.rs:Panel::interpret", "elkm1/src/state.rs:Change", "elkm1/src/state.rs:Event"]}
{"id": "C35", "title": "The zone view follows the latest zone reports", "statement": "After the first zone report, each zone's status is that of the most recent message (ZS, or ZC for that zone) received; other messages never alter it.", "quantifier": "every history, every zone", "why_tests_cant": "Unbounded histories, 208 zones.", "anchors": ["elkm1/src/state.rs:Panel::interpret"]}
{"id": "C36", "title": "Accessors never panic once connected", "statement": "After a successful connect, arming_status(), zone_statuses(), zone_name() and area_names() never panic, whatever is received, sent or polled afterwards; and polling itself never panics.", "quantifier": "every initialisation transcript and every later history", "why_tests_cant": "Unbounded histories.", "anchors": ["elkm1/src/state.rs:Panel::arming_status", "elkm1/src/state.rs:Panel::zone_statuses", "elkm1/src/state.rs:Panel::with_connection"]}
{"id": "C37", "title": "Initialisation asks one question at a time, and finitely many", "statement": "During connect the panel sends as, then zs, then sd requests for areas, tasks and zones with strictly increasing numbers within each type; each request after the first is sent only after a reply to the preceding one was received; at most 250 requests are sent.", "quantifier": "every transcript of received packets", "why_tests_cant": "All transcripts.", "anchors": ["elkm1/src/state.rs:Panel::with_connection", "elkm1/src/state.rs:Panel::init_req", "elkm1/src/state.rs:Panel::send_sds"]}
{"id": "C38", "title": "Initialisation learns the panel's state", "statement": "Against a panel that answers as, zs and sd as documented (skipping unnamed entries, number 0 at the end), interleaved with any unrelated messages, connect completes and the arming status, zone status and all area, task and zone names equal the panel's.", "quantifier": "every panel state, every interleaving of unrelated packets", "why_tests_cant": "2^thousands of states; the test init checks one.", "anchors": ["elkm1/src/state.rs:Panel::with_connection", "elkm1/src/state.rs:Panel::send_sds"]}
{"id": "C39", "title": "Initialisation never panics", "statement": "Whatever the panel sends, connect completes, keeps waiting or returns an error; it never panics.", "quantifier": "every transcript of received packets", "why_tests_cant": "All transcripts; the violating one needs an SD reply number beyond the array.", "anchors": ["elkm1/src/state.rs:Panel::send_sds"]}
{"id": "C40", "title": "At most one command is outstanding", "statement": "Between two accepted commands there is an event that completes the first; each command is completed by at most one event; a completing event carries the very command and its message is a reply to it; with a command outstanding the sink reports not ready.", "quantifier": "every interleaving of sends, polls and received packets", "why_tests_cant": "All interleavings.", "anchors": ["elkm1/src/state.rs:Sink for Panel", "elkm1/src/state.rs:CmdState"]}
{"id": "C41", "title": "A busy panel frees only by reading", "statement": "While a command is outstanding, no sequence of sink operations (poll_ready, poll_flush) makes the panel ready: only reading the stream does (the documented hang of two sends in a row).", "quantifier": "every sequence of sink operations and socket behaviour", "why_tests_cant": "All sequences.", "anchors": ["elkm1/src/state.rs:Sink for Panel"]}
{"id": "C42", "title": "No lost wake-up for a blocked sender", "statement": "If a task was last told Pending by poll_ready, then when the outstanding command completes that task is woken, or it is registered with the socket's write side.", "quantifier": "every interleaving of polls by any tasks", "why_tests_cant": "All schedules.", "anchors": ["elkm1/src/state.rs:Sink for Panel::poll_ready", "elkm1/src/state.rs:Panel::interpret"]}
{"id": "C43", "title": "A completed flush means the bytes were handed over", "statement": "When the panel's poll_flush returns Ok every byte of every accepted command has been accepted by the socket.", "quantifier": "every interleaving of sink and stream operations and partial writes", "why_tests_cant": "All interleavings; the violation needs an unsolicited reply before the flush.", "anchors": ["elkm1/src/state.rs:Panel::poll_flush"]}
{"id": "C44", "title": "Bytes on the wire are the commands in order", "statement": "The bytes accepted by the socket are always a prefix of the concatenated encodings of the commands accepted so far, in order, regardless of partial writes.", "quantifier": "every interleaving and every pattern of partial writes", "why_tests_cant": "All schedules.", "anchors": ["elkm1/src/tokio.rs:Connection", "elkm1/src/state.rs:Sink for Panel::start_send"]}
{"id": "C45", "title": "Events mirror the byte stream", "statement": "For any sequence of reads of any sizes and any poll schedule, the packets in the returned events are, in order, exactly the packets decoded from the received byte stream, each once.", "quantifier": "every byte stream, read chunking and poll schedule", "why_tests_cant": "All schedules.", "anchors": ["elkm1/src/tokio.rs:Connection::poll_next", "elkm1/src/state.rs:Panel::poll_next"]}
{"id": "C46", "title": "End of stream is reported faithfully", "statement": "At end of stream every complete packet already received is delivered first; then the stream ends, with an error first iff undecoded bytes remain.", "quantifier": "every byte stream", "why_tests_cant": "All streams.", "anchors": ["elkm1/src/tokio.rs:Connection::poll_next", "elkm1/src/tokio.rs:Codec"]}
{"id": "C47", "title": "Closing shuts the connection down", "statement": "When poll_close returns Ok all accepted bytes have been handed to the socket and the socket's write side has been shut down.", "quantifier": "every history", "why_tests_cant": "All histories.", "anchors": ["elkm1/src/tokio.rs:Connection::poll_close", "elkm1/src/state.rs:Panel::poll_close"]}
{"id": "C48", "title": "Home Assistant sees an alarm as triggered", "statement": "For every report and area, the published area state is 'triggered' if the area is in any alarm; otherwise pending during abort delay, arming during exit delay, and otherwise the mode it is armed in or disarmed.", "quantifier": "every arming report and area", "why_tests_cant": "All reports.", "anchors": ["elkm1-mqtt/src/main.rs:ha_area_state"]}
{"id": "C49", "title": "Retained topics track the panel", "statement": "While the bridge runs, after every handled event the retained state published for each configured area and zone equals the state derived from the panel's current view.", "quantifier": "every configuration with distinct names, every event history", "why_tests_cant": "All histories and configurations.", "anchors": ["elkm1-mqtt/src/main.rs:inner", "elkm1-mqtt/src/main.rs:publish_area_states", "elkm1-mqtt/src/main.rs:publish_zone_state"]}
{"id": "C50", "title": "MQTT commands do exactly what was asked", "statement": "An incoming publish leads to a command iff its topic is the command topic of a configured area and its payload is DISARM, ARM_AWAY or ARM_HOME; then exactly one arm request is sent, for that area, with the matching level and the configured code.", "quantifier": "every configuration, topic and payload", "why_tests_cant": "All topics/payloads.", "anchors": ["elkm1-mqtt/src/main.rs:handle_publish"]}
{"id": "C51", "title": "The bridge survives every panel message", "statement": "Handling any event produced by the panel does not panic.", "quantifier": "every event history", "why_tests_cant": "All messages.", "anchors": ["elkm1-mqtt/src/main.rs:inner", "elkm1/src/msg.rs:Serialize for ZoneStatusReport"]}
{"id": "C52", "title": "The bridge never deadlocks on commands", "statement": "Every MQTT command is eventually handled even if it arrives while an earlier one awaits its reply.", "quantifier": "every arrival pattern", "why_tests_cant": "All schedules.", "anchors": ["elkm1-mqtt/src/main.rs:handle_publish", "elkm1/src/state.rs:Sink for Panel"]}
{"id": "C53", "title": "Discovery identifiers are unique", "statement": "Distinct configured areas and zones get distinct unique ids and distinct discovery topics.", "quantifier": "every configuration", "why_tests_cant": "All configurations.", "anchors": ["elkm1-mqtt/src/main.rs:publish_ha_discovery"]}
{"id": "C54", "title": "The CLI reader accounts for every byte of a file", "statement": "elkm1-cli read terminates on every file, and the packets it prints plus the incomplete data it reports account for exactly the file's bytes.", "quantifier": "every file", "why_tests_cant": "All files.", "anchors": ["elkm1-cli/src/main.rs:read"]}
{"id": "C55", "title": "Encoding follows the documented wire format", "statement": "Encoding a constructible packet never panics and gives exactly the documented frame: for ASCII, two uppercase hex digits of the body length plus two, the body, two uppercase hex digits of the two's complement of the byte sum, CR LF; for RP, DLE STX, the body with each DLE doubled, DLE ETX and the big-endian CRC of the unescaped body.", "quantifier": "every valid packet", "why_tests_cant": "The tests check three frames; an encoder/decoder pair that agrees with itself but not with the document would pass every round-trip test.", "anchors": ["elkm1/src/pkt.rs:AsciiPacket::encode", "elkm1/src/pkt.rs:RpPacket::encode"]}
{"id": "C56", "title": "Messages are sent in the documented layout", "statement": "For every well-formed message, to_pkt gives exactly the documented text: its two-character code, each field at its documented place, width and encoding (zero-padded decimal, single-character codes, hex nibbles), and zeros in the reserved places.", "quantifier": "every well-formed message of all 15 types", "why_tests_cant": "An encoder and parser that agree with each other but not with the document pass every round-trip test; the suite has one text per type.", "anchors": ["elkm1/src/msg.rs:Message::to_pkt", "elkm1/src/msg.rs:RtcData::to_ascii"]}
{"id": "C57", "title": "Reserved and future-expansion bytes are ignored", "statement": "The documented text of a well-formed message followed by any reserved or future-expansion tail of an allowed length parses to that message, whatever the tail contains.", "quantifier": "every well-formed message, every tail", "why_tests_cant": "The tails are unbounded up to the packet limit and are always zeros in the samples.", "anchors": ["elkm1/src/msg.rs:Message::parse_ascii"]}
{"id": "C58", "title": "is_empty agrees with the displayed text", "statement": "TextDescription::is_empty holds exactly when as_str is the empty string.", "quantifier": "every valid description", "why_tests_cant": "95^16 descriptions; samples have no leading space.", "anchors": ["elkm1/src/msg.rs:TextDescription::is_empty", "elkm1/src/msg.rs:TextDescription::as_str"]}
{"id": "C59", "title": "An event's message is the meaning of its packet", "statement": "Every event that carries a packet carries exactly the result of parsing that packet (message, parse error, or nothing if not understood); an event without a packet carries no message and no completed command, only a change.", "quantifier": "every history and every poll", "why_tests_cant": "The packets, the state and the poll schedule are unbounded.", "anchors": ["elkm1/src/state.rs:211-258", "elkm1/src/state.rs:308-347"]}
{"id": "C60", "title": "Names are fixed after connect", "statement": "zone_name, area_names and the task names never change after connect, whatever is received (including string descriptions), sent or polled.", "quantifier": "every history", "why_tests_cant": "Histories are unbounded and any packet may arrive.", "anchors": ["elkm1/src/state.rs:108-114", "elkm1/src/state.rs:211-258"]}
{"id": "C61", "title": "No lost wake-up for a reader", "statement": "A task told Pending by poll_next is registered with the socket's read side, and with the timer of the withheld report if there is one, whose deadline is still ahead; until the stream is polled again it is woken as soon as anything arrives, whatever sink operations happen in between.", "quantifier": "every history before and after, every task", "why_tests_cant": "Interleavings of tasks, writes and arrivals are unbounded; a lost wake-up is a hang that depends on timing.", "anchors": ["elkm1/src/state.rs:308-347", "elkm1/src/tokio.rs:38-47"]}
{"id": "C62", "title": "A connection is live until its end is reported", "statement": "As long as poll_next has reported neither an error nor the end of the stream, the connection is in its ordinary reading state, in which C46 applies.", "quantifier": "every history", "why_tests_cant": "Histories are unbounded.", "anchors": ["elkm1/src/tokio.rs:38-47", "elkm1/src/state.rs:308-347"]}
{"id": "C63", "title": "An error is followed by the end of the stream", "statement": "After poll_next reported an I/O error (of the socket, or about left-over bytes), the next poll_next returns the end of the stream, whatever sink operations and arrivals happen in between, and without touching the socket.", "quantifier": "every history", "why_tests_cant": "Histories are unbounded; errors can strike anywhere.", "anchors": ["elkm1/src/tokio.rs:38-47", "elkm1/src/state.rs:308-347"]}
{"id": "C64", "title": "Alarms are shown at once", "statement": "When the event of an arming report is returned, the alarms in that report are visible in arming_status().", "quantifier": "every history and every received report", "why_tests_cant": "The reports (8 areas, each with three fields) and the histories before them cannot be enumerated.", "anchors": ["elkm1/src/state.rs:260-305"]}
{"id": "C65", "title": "Which configurations the bridge works with", "statement": "On a connected panel the MQTT bridge reaches its main loop exactly when its configuration is usable: the code has at most six digits, there is at least one area, every area number is 1-8 and every zone number 1-208, and no prefix, name or (if discovery is on) serial number contains an MQTT wildcard. Every panel returned by connect qualifies.", "quantifier": "every configuration and every connected panel", "why_tests_cant": "All configurations.", "anchors": ["elkm1-mqtt/src/main.rs:inner", "elkm1-mqtt/src/main.rs:publish_ha_discovery", "elkm1-mqtt/src/main.rs:publish_area_states"]}
{"id": "C66", "title": "Online means the states are there", "statement": "The bridge publishes 'online' only after the retained state of every configured area and zone and without any earlier availability message, subscribing to exactly the command topics of the configured areas; and while it runs the broker holds 'online'.", "quantifier": "every configuration, connected panel and history", "why_tests_cant": "All configurations and histories.", "anchors": ["elkm1-mqtt/src/main.rs:inner"]}
{"id": "C67", "title": "Discovery documents point to live topics", "statement": "At any time the discovery document the broker holds for a configured area or zone names the state topic under which the broker holds that very area's or zone's current state, the availability topic under which it holds 'online', and (areas) a command topic the bridge is subscribed to and takes commands for that very area from.", "quantifier": "every configuration with distinct names, every history", "why_tests_cant": "All configurations and histories.", "anchors": ["elkm1-mqtt/src/main.rs:publish_ha_discovery", "elkm1-mqtt/src/main.rs:inner", "elkm1-mqtt/src/main.rs:handle_publish"]}
{"id": "C68", "title": "The event topic is the panel's event stream", "statement": "In every history of the bridge, the messages published to its event topic are exactly the events its panel yields from what arrived on the socket: each once, in order, none retained, each in a JSON form that reads back as that very event.", "quantifier": "every configuration, connected panel and history", "why_tests_cant": "All histories and all messages.", "anchors": ["elkm1-mqtt/src/main.rs:publish_event", "elkm1-mqtt/src/main.rs:inner", "elkm1/src/state.rs:Event"]}
{"id": "C69", "title": "JSON round trip of messages and events", "statement": "Every message and event that the library can yield serialises to JSON, and the JSON reads back, from any source, as the same message or event.", "quantifier": "every message and event with serde's derive and the hand-written impls", "why_tests_cant": "All messages, including all 2^1664 zone reports and every date.", "anchors": ["elkm1/src/msg.rs:Message", "elkm1/src/msg.rs:DateTime", "elkm1/src/msg.rs:ZoneStatusReport", "elkm1/src/state.rs:Event"]}
{"id": "C70", "title": "The configured code stays secret", "statement": "Nothing the bridge publishes depends on the arm code in its configuration: with another code configured, the same history publishes exactly the same messages.", "quantifier": "every configuration, every pair of codes, every history", "why_tests_cant": "A relation between pairs of executions, over all histories.", "anchors": ["elkm1-mqtt/src/main.rs:publish_event", "elkm1-mqtt/src/main.rs:handle_publish", "elkm1/src/state.rs:Event"]}
{"id": "C71", "title": "watch logs exactly what changed", "statement": "For every event, elkm1-cli watch logs one line for each area and each zone whose state the event changed, with the name the panel gave it and the states before and after, and no other line; so the lines logged so far, applied to the states at the start, give the current states.", "quantifier": "every connected panel, every history of packets and timing", "why_tests_cant": "All histories, including suspicious reports withheld and released by the timer.", "anchors": ["elkm1-cli/src/main.rs:watch", "elkm1/src/state.rs:Panel", "elkm1/src/msg.rs:ZoneStatus"]}
{"id": "C72", "title": "A connection that stays up is never reported to have ended", "statement": "As long as the socket returns neither an error nor the end of file, no poll of the panel's stream returns an error or the end of the stream, whatever bytes arrive and whatever commands are sent; conversely the first such report goes back to an error or end of file from the socket.", "quantifier": "every connected panel, every byte stream, chunking, timing and use of the sink", "why_tests_cant": "All byte streams, including garbage, in all chunkings.", "anchors": ["elkm1/src/tokio.rs:Connection", "elkm1/src/state.rs:poll_next", "elkm1/src/pkt.rs:decode"]}
{"id": "C73", "title": "watch ends only with the connection", "statement": "Once connected, elkm1-cli watch returns exactly when the stream ends and panics only when the stream reports an I/O error; while the connection is up it neither returns nor panics and handles every event.", "quantifier": "every connected panel, every byte stream, every history", "why_tests_cant": "All byte streams: names, statuses and zone numbers received could hit any of the unwraps, indexings and unreachable!()s.", "anchors": ["elkm1-cli/src/main.rs:watch", "elkm1/src/msg.rs:ZoneStatus", "elkm1/src/msg.rs:TextDescription"]}
{"id": "C74", "title": "The packet fuzz targets never fail", "statement": "The fuzz target depkt, which takes packets off an arbitrary input, parses each as a message, encodes it again and asserts that the output equals the input, and the fuzz target pkt, which builds a packet from an arbitrary input, encodes and decodes it and asserts that it is unchanged, panic for no input.", "quantifier": "every input of every length", "why_tests_cant": "Fuzzing samples inputs; this covers all of them.", "anchors": ["fuzz/fuzz_targets/depkt.rs", "fuzz/fuzz_targets/pkt.rs"]}
{"id": "C75", "title": "The message fuzz target never fails", "statement": "The fuzz target msg, which encodes a generated message, parses it and asserts that it is unchanged, panics for no message that the generators in msg.rs can give.", "quantifier": "every message the Arbitrary implementations can generate", "why_tests_cant": "Fuzzing samples messages; this covers all of them.", "anchors": ["fuzz/fuzz_targets/msg.rs", "elkm1/src/msg.rs:Arbitrary"]}
{"id": "C76", "title": "The message fuzz target tries every well-formed message", "statement": "The Arbitrary implementations in msg.rs generate only well-formed messages, and every well-formed message can be generated.", "quantifier": "every message", "why_tests_cant": "A fuzz run that finds nothing does not say what it could not have tried.", "anchors": ["elkm1/src/msg.rs:Arbitrary"]}
{"id": "C77", "title": "A configuration file means what its fields say", "statement": "The MQTT bridge reads a configuration file exactly if it is of the documented form (each required field once, areas and zones keyed by decimal numbers below 256), every setting is the value of the field of its name, port and client id default to 1883 and the empty name, unknown fields are ignored, and the areas and zones read are exactly those listed (the last, if a number is listed twice).", "quantifier": "every JSON value", "why_tests_cant": "All files, including malformed ones.", "anchors": ["elkm1-mqtt/src/main.rs:Cfg", "elkm1-mqtt/src/main.rs:MqttCfg", "elkm1-mqtt/src/main.rs:ElkCfg"]}
{"id": "C78", "title": "When the bridge program gets started", "statement": "The MQTT bridge program gets as far as dialing the panel exactly when it is given one argument that names a readable configuration file in which broker user name and password are both present or both absent; otherwise it panics.", "quantifier": "every argument list, file system and configuration", "why_tests_cant": "All combinations.", "anchors": ["elkm1-mqtt/src/main.rs:main"]}
{"id": "C79", "title": "Availability tells the truth across restarts", "statement": "Whenever the broker holds \"online\" for a topic prefix, the program is running with that prefix, connected to the panel and to the broker and past its initialisation; while it runs and everything it published has been transmitted the broker holds \"online\"; and whenever a program connected to the broker ends for any reason the broker holds \"offline\".", "quantifier": "every sequence of starts with any configurations, panel and broker behaviour, transmission delays, crashes and kills", "why_tests_cant": "Unbounded histories of restarts, and messages lost at every possible moment.", "anchors": ["elkm1-mqtt/src/main.rs:main", "elkm1-mqtt/src/main.rs:inner", "elkm1-mqtt/src/main.rs:run_eventloop"]}
{"id": "C80", "title": "While available, nothing stale from an earlier run is shown", "statement": "While the broker holds \"online\" for the bridge, the retained state of each configured area and zone is the state the panel had at some moment of the current run of the program, however many of its messages are still on their way.", "quantifier": "every history of starts, messages in transit and crashes, every usable configuration with distinct names", "why_tests_cant": "All interleavings of events and transmissions, including a group of messages transmitted in part.", "anchors": ["elkm1-mqtt/src/main.rs:inner", "elkm1-mqtt/src/main.rs:publish_area_states", "elkm1-mqtt/src/main.rs:publish_zone_state"]}
{"id": "C81", "title": "Discovery documents match the current configuration", "statement": "While the broker holds \"online\" for the bridge, the discovery documents it holds for the bridge are those of the configured areas and zones, with the topics in use, and no others.", "quantifier": "every history of starts with any configurations", "why_tests_cant": "Sequences of configurations.", "anchors": ["elkm1-mqtt/src/main.rs:publish_ha_discovery"]}
{"id": "C82", "title": "Descriptions shown on keypads are understood", "statement": "A reply with a text description is received as that description whether or not the high bit of its first character is set (the documented \"Show On Keypad\" bit, to be masked out), so connecting completes against a panel that sets it.", "quantifier": "every description, every panel that sends some names with the bit, every history of connecting", "why_tests_cant": "All names and all histories of the dialogue; absence of completion is not observable in a finite test.", "anchors": ["elkm1/src/pkt.rs:AsciiPacket", "elkm1/src/pkt.rs:check_printable", "elkm1/src/state.rs:connect"]}
{"id": "C83", "title": "Commands come from other clients of the broker only", "statement": "In all runs of the bridge program taken together, every command handed to the panel was asked for by a message that another client of the broker posted to a command topic (or that the broker had before), understood with the configuration of a bridge running at that time; the bridge publishes on no command topic itself, so it never acts on its own messages.", "quantifier": "every sequence of starts and ends of the program with any configurations, every sequence of posts by other clients on any topics, every order of deliveries and losses", "why_tests_cant": "All configurations (topic prefixes and names are free text), all restarts and interleavings with other clients.", "anchors": ["elkm1-mqtt/src/main.rs:handle_publish", "elkm1-mqtt/src/main.rs:inner", "elkm1-mqtt/src/main.rs:run_eventloop"]}
{"id": "C84", "title": "A command posted once is carried out at most once", "statement": "In all runs of the bridge program taken together, each message another client posts leads to at most one command handed to the panel, in the order of the posts, and nothing posted before the program ended is carried out by a later run.", "quantifier": "every sequence of starts and ends of the program with any configurations, every sequence of posts by other clients, every order of deliveries and losses", "why_tests_cant": "All interleavings of posts, deliveries, losses and restarts.", "anchors": ["elkm1-mqtt/src/main.rs:handle_publish", "elkm1-mqtt/src/main.rs:inner", "elkm1-mqtt/src/main.rs:run_eventloop"]}
{"id": "C85", "title": "Home Assistant understands the areas", "statement": "For every area described by a discovery document, what the broker holds for the document's state topic is at all times one of the states of Home Assistant's alarm control panel, and what it holds for the availability topic is understood as available while the program runs; the last will is understood as not available.", "quantifier": "every usable configuration with discovery, every history of the bridge, every area", "why_tests_cant": "All configurations and panel histories.", "anchors": ["elkm1-mqtt/src/main.rs:publish_ha_discovery", "elkm1-mqtt/src/main.rs:ha_area_state", "elkm1-mqtt/src/main.rs:main"]}
{"id": "C86", "title": "Home Assistant understands the zones", "statement": "For every zone described by a discovery document, what the broker holds for the document's state topic is understood by Home Assistant as on if the zone is violated or bypassed and as off if it is normal.", "quantifier": "every usable configuration with discovery, every history of the bridge, every zone", "why_tests_cant": "All configurations and panel histories; the reader is another program.", "anchors": ["elkm1-mqtt/src/main.rs:publish_ha_discovery", "elkm1-mqtt/src/main.rs:publish_zone_state"]}
{"id": "C87", "title": "Actions offered by Home Assistant are carried out", "statement": "Every action that Home Assistant offers for an area because of its discovery document and that corresponds to an arming level of the panel leads to an arm request with this level.", "quantifier": "every usable configuration with discovery, every history of the bridge, every area, every action", "why_tests_cant": "All configurations and histories; the sender is another program.", "anchors": ["elkm1-mqtt/src/main.rs:publish_ha_discovery", "elkm1-mqtt/src/main.rs:handle_publish"]}
{"id": "C88", "title": "Never more than one unanswered command", "statement": "At any time, while connecting and afterwards, and for the bridge too, the bytes written to the panel are those of commands that have been answered, plus at most one command of at most 17 characters (the panel's buffer holds 250).", "quantifier": "every history of connecting, of a connected panel, and of the bridge; any splitting of writes", "why_tests_cant": "All interleavings of writes, replies and unrelated messages.", "anchors": ["elkm1/src/state.rs:poll_ready", "elkm1/src/state.rs:start_send", "elkm1/src/state.rs:Init"]}
{"id": "C89", "title": "The documented requests are made on connecting", "statement": "Whenever connect succeeds, every request the documentation lists (as, zs, sd for areas, tasks and zones, ka) has been sent.", "quantifier": "every history of connect that succeeds", "why_tests_cant": "All histories; a request that is never sent leaves no trace in a test that does not look for it.", "anchors": ["elkm1/src/state.rs:Panel::with_connection", "elkm1/src/state.rs module documentation"]}
{"id": "C90", "title": "What the panel says reaches the broker", "statement": "Let the line carry, after connecting, well-formed messages in pieces of any sizes, with garbage between them that cannot be taken for a packet and some spoilt by one byte after the length digits. Whenever the bridge has nothing to do and the socket has handed over everything, the broker holds, for every configured zone, the last status the panel gave in an unspoilt message, and for every configured area what its last unspoilt report says; except that a suspicious report may be withheld, and then its time has not come.", "quantifier": "every configuration, every connected panel, every sequence of messages, every splitting into reads, every history of the bridge", "why_tests_cant": "All message sequences, splittings and interleavings with commands, from the bytes on the line to the broker's retained messages.", "anchors": ["elkm1/src/pkt.rs:Packet::decode", "elkm1/src/msg.rs:Message::parse", "elkm1/src/state.rs:Panel::poll_next", "elkm1-mqtt/src/main.rs:handle_panel_event"]}
{"id": "C91", "title": "Damage on the line loses only what was damaged", "statement": "After any damage to a message, whole messages that follow are understood.", "quantifier": "every message, every damage (garbage, spoilt, lost or added bytes), every sequence of messages that follows", "why_tests_cant": "All damage and all that follows it, of any length.", "anchors": ["elkm1/src/pkt.rs:Packet::decode", "elkm1/src/pkt.rs:RpPacket::decode"]}
{"id": "C92", "title": "The bridge recovers from damage on the line", "statement": "Whatever was damaged on the line earlier, whenever the bridge has nothing to do and the socket has handed over everything, the broker holds what the messages say that the panel sent since (or the bridge is not shown as available).", "quantifier": "every configuration, every connected panel, every damage, every sequence of messages, every history of the bridge", "why_tests_cant": "All damage and histories; the failure is silent.", "anchors": ["elkm1/src/pkt.rs:Packet::decode", "elkm1-mqtt/src/main.rs:main"]}
{"id": "C93", "title": "Home Assistant sees one device per panel", "statement": "At any time the discovery documents of the configured areas and zones carry the configured names and belong to one device (manufacturer Elk Products, model M1) identified by exactly the panel's serial number.", "quantifier": "every usable configuration with discovery, every panel, every history of the bridge", "why_tests_cant": "All configurations and histories.", "anchors": ["elkm1-mqtt/src/main.rs:publish_ha_discovery", "elkm1-mqtt/src/main.rs:HaDeviceConfig"]}
{"id": "C94", "title": "Bridges for different panels do not disturb each other", "statement": "Two bridges at one broker, for panels with different serial numbers (without slashes) and with default topic prefixes (or any prefixes that no topic has in common): in whatever order the broker receives their messages, it holds for each what it would hold without the other; neither publishes to a command topic of the other, and no command is for both.", "quantifier": "every two usable configurations, every two panels, every two histories, every interleaving", "why_tests_cant": "All pairs of configurations (names are free text) and interleavings.", "anchors": ["elkm1-mqtt/src/main.rs:main", "elkm1-mqtt/src/main.rs:publish_ha_discovery", "elkm1-mqtt/src/main.rs:publish_area_states"]}
{"id": "C95", "title": "A connection used on its own writes exactly the packets given to it", "statement": "However a fresh Connection is used (reads, writes, flushes, closes, a socket answering in any way), sending packets that can exist, no operation panics, and at any time the bytes handed to the socket followed by those still buffered are the documented frames of the packets given to start_send, in order. When poll_flush or poll_close says Ok, all of them have been handed over.", "quantifier": "every fresh connection, every sequence of operations and of answers of the socket", "why_tests_cant": "All interleavings of calls and partial writes.", "anchors": ["elkm1/src/tokio.rs:Connection::start_send", "elkm1/src/tokio.rs:Connection::poll_flush", "elkm1/src/tokio.rs:Connection::poll_close", "elkm1/src/tokio.rs:Codec::encode"]}
{"id": "C96", "title": "A willing socket gets everything in one flush", "statement": "If the answers of the socket each accept at least one byte and together everything buffered, poll_flush says Ok and everything has been handed over. If they accept less, exactly that much has been handed over, the rest stays buffered, and the result is Pending if the socket then blocks, the socket's own error if it fails, WriteZero only if it accepts no byte. So a panel that has accepted a command hands it over in one flush to a willing socket.", "quantifier": "every connection and list of answers of the socket; every history of a panel and every well-formed command", "why_tests_cant": "All ways to split a write.", "anchors": ["elkm1/src/tokio.rs:Connection::poll_flush", "elkm1/src/state.rs:Panel::poll_flush"]}
{"id": "C97", "title": "The write buffer of a connection is bounded", "statement": "A user of a fresh Connection who sends valid packets, each after poll_ready said Ok, never makes it buffer 9216 bytes or more, however slow the socket is. poll_ready says Ok at once while fewer than 8192 bytes are buffered, and from then on only when everything has been handed over.", "quantifier": "every fresh connection, every polite sequence of operations, every behaviour of the socket", "why_tests_cant": "All histories; a slow peer.", "anchors": ["elkm1/src/tokio.rs:Connection::poll_ready"]}
{"id": "C98", "title": "Two connections: what one sends, the other receives", "statement": "Two fresh Connections at the ends of a line that delivers, in order, some of the bytes the first handed to its socket: the second yields exactly the first packets given to the first, in order, unaltered, none twice; and all of them once everything has been handed over and delivered and the second has nothing more to return.", "quantifier": "every two histories of two connections, every splitting and timing of the line, every list of valid packets", "why_tests_cant": "All packets and all splittings.", "anchors": ["elkm1/src/tokio.rs:Connection", "elkm1/src/pkt.rs:Packet::decode", "elkm1/src/pkt.rs:Packet::encode"]}
{"id": "C99", "title": "The JSON text on the event topic can be read back", "statement": "What the bridge publishes as JSON text is valid JSON (RFC 8259) of the value serialised, whatever the configured strings and the texts of errors contain. A message, an event and all its error texts can be recovered from the text; so whoever reads the texts on the event topic learns exactly the events of the panel, in order, none missing.", "quantifier": "every JSON value; every two messages, events; every two histories of two bridges", "why_tests_cant": "All values, all nestings, all bytes in strings, all histories.", "anchors": ["elkm1-mqtt/src/main.rs:handle_panel_event", "elkm1-mqtt/src/main.rs:publish_homeassistant_config"]}
{"id": "C100", "title": "What the bridge publishes fits the MQTT client's limit", "statement": "Every message the bridge publishes is an MQTT packet of at most 10 KiB, the limit the client is left with. FALSE of the code: events of garbage (931 bytes or more read at once as one invalid packet) and of long packets of the remote programming software are larger, whatever the bytes; rumqttc then fails in poll(), whose result main.rs unwraps. True of everything else, with configured strings of at most 100 bytes.", "quantifier": "every configuration with short strings, every connected panel, every history of the bridge", "why_tests_cant": "Needs a bound over all events of all histories.", "anchors": ["elkm1-mqtt/src/main.rs:main", "elkm1-mqtt/src/main.rs:handle_panel_event", "elkm1/src/pkt.rs:Packet::decode"]}
{"id": "C101", "title": "connect completes under every fair schedule", "statement": "The task that runs connect, its socket, the line and the panel act in any order: the task runs only when it has been woken by the waker it was last polled with, the socket takes and the line hands over bytes in pieces of any sizes, the panel answers the requests it got in order and says other things (no descriptions) in between. As long as each of them keeps acting, connect finishes after finitely many steps, without error, panic or lost wakeup, and the names it returns are exactly the panel's. Under any schedule at all it neither panics nor fails.", "quantifier": "every set of names, every infinite schedule (with every piece size, waker, clock, unsolicited message) in which no party stops", "why_tests_cant": "All infinite interleavings; termination and absence of lost wakeups cannot be observed by running.", "anchors": ["elkm1/src/state.rs:Panel::with_connection", "elkm1/src/state.rs:init_req", "elkm1/src/state.rs:send_sds", "elkm1/src/tokio.rs:Connection"]}
{"id": "C102", "title": "What is said about bytes that are no packet is true", "statement": "When decode drops bytes as an invalid packet, the reason it gives is true of exactly the bytes it drops (too short; no CR LF at the end; checksum not hexadecimal; wrong checksum, and the text names the right one; first non-printable character at that index; wrong CRC, and the text names the right one; DLE followed by that byte; no DLE ETX within 1024 bytes; no start of a packet anywhere in them). Conversely, bytes with such a fault are dropped with that text. No bytes have two reasons.", "quantifier": "every buffer", "why_tests_cant": "All byte strings; the converse says no fault is missed or mislabelled.", "anchors": ["elkm1/src/pkt.rs:Packet::decode", "elkm1/src/pkt.rs:AsciiPacket::decode", "elkm1/src/pkt.rs:RpPacket::decode", "elkm1/src/pkt.rs:InvalidPacket"]}
{"id": "C103", "title": "What is said about a packet that is no message is true", "statement": "The error text of Message::parse (which the bridge publishes and the CLI prints) describes a fault the packet really has: the field it names, at its place in the packet, has the value it quotes and is not acceptable; a number of bytes said to be expected is not more than what is needed and more than there are. FALSE of the code: of a text description (SD) with 5 to 20 bytes of data it is said that at least 5 bytes were expected (21 are). True of everything else.", "quantifier": "every valid ASCII packet", "why_tests_cant": "All packets, all error paths.", "anchors": ["elkm1/src/msg.rs:Message::parse", "elkm1/src/msg.rs:StringDescriptionResponse::from_ascii_data"]}
{"id": "C104", "title": "Commands posted are carried out and everything the panel says is handled, under every fair schedule", "statement": "Take a bridge that has started on a connection that is up, a panel that confirms each command it gets and otherwise says what it likes (no zone status report, C51), and a broker where commands are posted while none is under way (C52). Everyone acts when they like, in pieces of any size, but keeps acting; the bridge's task runs only when woken by the waker it was last polled with. Then nothing panics; the panel hears only commands that were posted, each once and in order; the bridge handles only what the panel said, each message once and in order; and from every moment on there is a later one at which everything posted so far has been heard, everything the panel said so far has been handled, and the bridge is ready for the next command.", "quantifier": "every configuration, connected panel, messages, infinite fair schedule of bridge, socket, line, panel and broker", "why_tests_cant": "A liveness statement about all infinite interleavings, including all ways to lose a wake-up.", "anchors": ["elkm1-mqtt/src/main.rs:main", "elkm1/src/state.rs:Panel::poll_next", "elkm1/src/state.rs:Panel::poll_flush", "elkm1/src/tokio.rs:Connection::poll_flush", "elkm1/src/tokio.rs:Connection::poll_next"]}
{"id": "C105", "title": "Logging never panics", "statement": "`{:?}` of every well-formed message, of every message parsed from a packet and of every event that a connected panel yields in any history or that arrives while connecting is a text; if the stream ends while connecting, the error names the question asked last: the hand-written `Debug` impls (arm codes, descriptions, dates, zone statuses, zone reports) never reach their `expect`s and `unreachable!`s. It takes values that break their own types' rules, which the derived `Deserialize` lets in (C30).", "quantifier": "every message, packet, connected panel, history", "why_tests_cant": "Log statements run with values that depend on everything the panel ever said; tests log a few.", "anchors": ["elkm1/src/msg.rs:ArmCode", "elkm1/src/msg.rs:ZoneStatus", "elkm1/src/msg.rs:TextDescription", "elkm1/src/msg.rs:ZoneStatusReport", "elkm1/src/state.rs:Event", "elkm1-mqtt/src/main.rs:main"]}
{"id": "C106", "title": "What is logged tells messages, packets and events apart", "statement": "Two packets with the same `{:?}` text are the same packet; two well-formed messages with the same text are the same message; two events of connected panels with the same text are the same event: packet, reading of it, request completed and change. So a log of events determines the events.", "quantifier": "every pair of packets, well-formed messages, events", "why_tests_cant": "Injectivity of a text format over all values, with quotes, braces, commas and line ends in the data.", "anchors": ["elkm1/src/pkt.rs:InvalidPacket", "elkm1/src/pkt.rs:RpPacket", "elkm1/src/msg.rs:Message", "elkm1/src/msg.rs:TextDescriptions", "elkm1/src/state.rs:Event"]}
{"id": "C107", "title": "`elkm1-cli read` shows every file, and no two files alike", "statement": "For every file that can be read, `read` prints a text (it does not panic), and from the text the file can be recovered byte by byte.", "quantifier": "every pair of byte sequences", "why_tests_cant": "All files.", "anchors": ["elkm1-cli/src/main.rs:read", "elkm1/src/pkt.rs:Packet::decode", "elkm1/src/pkt.rs:InvalidPacket"]}
{"id": "C108", "title": "JSON and log name the same things by the same names", "statement": "The JSON form of a message or event and its `{:?}` form have the same structure: the same variants and fields in the same order with corresponding values, where JSON has the camelCase of each name that `{:?}` shows.", "quantifier": "every well-formed message, every event", "why_tests_cant": "Two independent renderings of every value of every type.", "anchors": ["elkm1/src/msg.rs:Message", "elkm1/src/msg.rs:RtcData", "elkm1/src/state.rs:Event", "elkm1/src/state.rs:Change"]}
{"id": "C109", "title": "Once the panel pauses, the broker shows what it said last", "statement": "Bridge, line, panel and broker as in C104: everyone acts when they like, in pieces of any size, but keeps acting, and the task of the bridge runs only when woken. If from some time on the panel says nothing of its own accord and no command is posted, while the clock runs on and timers fire, then from some time on, for ever, the retained topic of each configured area shows the panel's last arming report and that of each configured zone the last status told, every command posted has been heard, and the bridge is quiet. In particular a suspicious report that was withheld comes out. The pause is needed: there is a fair schedule on which another message arrives before each run of the task, and the broker shows an armed panel as disarmed for ever.", "quantifier": "every configuration with distinct names, connected panel, fair schedule", "why_tests_cant": "Liveness over infinite schedules with wakers and timers: a lost wakeup or a timer that is not re-registered shows only in some interleavings.", "anchors": ["elkm1/src/state.rs:Panel::poll_next", "elkm1/src/state.rs:PendingArm", "elkm1/src/tokio.rs:poll_next", "elkm1-mqtt/src/main.rs:main", "elkm1-mqtt/src/main.rs:publish_event"]}
{"id": "C110", "title": "From power-on to a broker that shows the panel", "statement": "A panel is switched on and the bridge connects to it; library, socket, line and panel act when they like, in pieces of any size, but keep acting. Then connect finishes with every request answered, the bridge starts with every usable configuration, and what the panel has said and connect has not read is the first thing the bridge reads: nothing is lost in between. If from then on everyone keeps acting (C104) and the panel pauses at last (C109), then from some time on, for ever, the broker shows the last arming report and the last status of every configured zone that the panel has sent since power-on, whether connect or the bridge read it, and the panel has heard every command posted. While connect runs the panel reports the zones only when asked.", "quantifier": "every panel (names, statuses, things said), every usable configuration with distinct names, every pair of fair schedules", "why_tests_cant": "Composes two unbounded phases; messages that straddle the handover are read by neither or by both in a wrong program only if their bytes are split at the right place.", "anchors": ["elkm1/src/state.rs:Panel::connect", "elkm1/src/state.rs:Panel::with_connection", "elkm1/src/tokio.rs:Connection", "elkm1-mqtt/src/main.rs:main"]}
{"id": "C111", "title": "A command reported completed has reached the panel", "statement": "Whenever an event says that a command is completed, the panel has received this very command before, and the message of the event is the panel's reply to it: the commands completed so far are, in order, the first lines the panel heard, and the messages of the completing events are, in order, its first confirmations.", "quantifier": "every way of using a connected panel, every splitting of reads and writes, socket errors included, every sequence of things the panel says and of lines it takes", "why_tests_cant": "Needs a panel that says something at exactly the wrong moment; the completing message has to be traced back through the line to what the panel did.", "anchors": ["elkm1/src/state.rs:Panel::interpret", "elkm1/src/state.rs:Panel::start_send", "elkm1/src/msg.rs:Message::is_response_to"]}
{"id": "C112", "title": "One task reading and another sending: every command is delivered, confirmed and reported", "statement": "When one task polls for events and another hands over commands with send, each sleeping until its waker is called, and the panel confirms each command it gets, then no operation fails or panics, events report messages in the order the panel said them, the panel hears the commands given in order and without gaps, they are reported completed in that order, and everything said is eventually reported and every command given eventually heard and reported completed.", "quantifier": "every connected panel, every infinite interleaving in which reader, sender, socket, line and panel keep acting, every splitting of reads and writes, spurious wake-ups, any commands at any time, any message at any time", "why_tests_cant": "A lost wake-up or a deadlock between the two tasks shows only in particular interleavings of infinitely many, and absence of deadlock is a statement about infinite runs.", "anchors": ["elkm1/src/state.rs:Panel::poll_next", "elkm1/src/state.rs:Panel::poll_ready", "elkm1/src/state.rs:Panel::start_send", "elkm1/src/state.rs:Panel::poll_flush", "elkm1/src/state.rs:Panel::interpret"]}
{"id": "C113", "title": "The bounded queue of MQTT requests neither loses, reorders nor deadlocks", "statement": "With the queue of 10 requests between the bridge and run_eventloop, where a bridge with a request to make waits while the queue is full and meanwhile polls neither panel nor inbox: the queue never holds more than 10, what is transmitted is what the bridge asked for, each request once and in order, beginning with documents and states, then the subscription, then the announcement that it is online; nothing panics; commands posted are eventually heard and messages said eventually told; and every request is eventually transmitted. Once panel and broker pause, out and queue are empty from some time on for ever, and what was transmitted shows what the panel said last.", "quantifier": "every configuration, every infinite interleaving of bridge, client, socket, line and panel in which each keeps acting, every splitting of reads and writes", "why_tests_cant": "Whether a full queue can block the bridge for ever, or starve the panel, depends on infinite interleavings of five actors; tests run few of them and none to infinity.", "anchors": ["elkm1-mqtt/src/main.rs:run_eventloop", "elkm1-mqtt/src/main.rs:main", "elkm1-mqtt/src/main.rs:inner"]}
{"id": "C114", "title": "The read buffer of a connection is bounded", "statement": "However a connection is used and whatever the peer sends, the bytes held in its read buffer never exceed the largest packet plus what one read of the socket returns.", "quantifier": "every sequence of poll_next, poll_ready, start_send, poll_flush and poll_close on a fresh connection, every byte stream, every splitting of it into reads", "why_tests_cant": "The bound is about every byte stream a peer could ever send; the stream that breaks it must start an RP packet and place DLE ETX at one particular offset.", "anchors": ["elkm1/src/tokio.rs:Connection", "elkm1/src/pkt.rs:Packet::decode", "elkm1/src/pkt.rs:RpPacket::decode"]}
{"id": "C115", "title": "A configuration file is read as JSON text, no more and no less", "statement": "The bytes of a configuration file are taken for a JSON value exactly if RFC 8259 gives them that value; what is written between quotation marks is taken for a text exactly if, with its escapes (including surrogate pairs) replaced by what they stand for, it is UTF-8 of some characters; and the program gets as far as dialing the panel exactly when it has one argument that names a file with a JSON text which describes a setup (documented names, each once) in which user name and password are both given or both missing. It then works with that setup.", "quantifier": "every list of arguments, every file system, every file as a sequence of bytes", "why_tests_cant": "Files are unbounded sequences of bytes with unbounded nesting; tests try a few files and cannot show that nothing outside the grammar is accepted.", "anchors": ["elkm1-mqtt/src/main.rs:main", "elkm1-mqtt/src/main.rs:Cfg", "elkm1-mqtt/src/main.rs:MqttCfg", "elkm1-mqtt/src/main.rs:ElkCfg"]}
{"id": "C116", "title": "Everything that is published can be read", "statement": "Everything the MQTT bridge ever publishes, its last will included, has a UTF-8 topic, and a payload that is UTF-8 text or, by the grammar of RFC 8259, a JSON text that says exactly the event or discovery document; no text says two things.", "quantifier": "every sequence of starts, restarts and ends of the program with any configuration files (as bytes), any bytes from the panel in any pieces, any commands, times and failures", "why_tests_cant": "Covers every string that can get into a message: configured names with any characters, error texts, packets, raw bytes; tests see a few strings.", "anchors": ["elkm1-mqtt/src/main.rs:publish_ha_discovery", "elkm1-mqtt/src/main.rs:publish_area_states", "elkm1-mqtt/src/main.rs:publish_zone_state", "elkm1-mqtt/src/main.rs:inner", "elkm1/src/msg.rs:Error", "elkm1/src/pkt.rs:InvalidPacket"]}
{"id": "C117", "title": "The bytes of a connection are taken apart by a grammar, in one way only", "statement": "There is a grammar of packets, faults and incomplete beginnings, given without reference to the decoder, such that every sequence of bytes can be derived in exactly one way, and the decoder returns a packet, an invalid packet with its text, or nothing, exactly as the grammar says, for one call and for the whole buffer.", "quantifier": "all byte sequences", "why_tests_cant": "An equivalence over all byte strings of any length: neither acceptance nor rejection nor waiting can be checked on samples.", "anchors": ["elkm1/src/pkt.rs:Packet::decode", "elkm1/src/pkt.rs:AsciiPacket::decode", "elkm1/src/pkt.rs:RpPacket::decode", "elkm1/src/tokio.rs:Decoder"]}
{"id": "C118", "title": "Exactly which texts are messages", "statement": "Message::parse yields a message exactly for the texts that say it by a specification of each field (digits, in which a leading 0 of a number may be written as +; letters; hexadecimal; lengths; reserved tail), no text says two messages, and it fails exactly for the texts that are too short or begin with a supported code and say no message.", "quantifier": "all ASCII packets and all messages", "why_tests_cant": "Both directions for all texts: rejecting everything that is not a message cannot be tested.", "anchors": ["elkm1/src/msg.rs:Message::parse", "elkm1/src/msg.rs:parse_u8_dec", "elkm1/src/msg.rs:from_ascii_data"]}
{"id": "C119", "title": "Exactly which texts are dates", "statement": "DateTime::from_iso_8601 yields a date exactly for the texts of 19 bytes with a year from 2000 to 2100, month, day, hour, minute and second in range (each a number that may have a + in front) at their places with the right separators; it panics exactly for the texts that are right up to a place where they would have to be cut inside a character; it fails on all others; what a date prints as is no other date, and is the date exactly when its fields are in range (year below 2100).", "quantifier": "all UTF-8 texts and all DateTime values", "why_tests_cant": "Acceptance, rejection and panic are characterised both ways for all texts; the panics need multi-byte characters at particular places after a correct beginning.", "anchors": ["elkm1/src/msg.rs:DateTime::from_iso_8601", "elkm1/src/msg.rs:DateTime::to_iso_8601"]}
{"id": "C120", "title": "Packets are equal exactly when their bytes are", "statement": "== of packets is an equivalence; two packets that were decoded or are valid are equal exactly when they encode to the same bytes; two decoded sequences that encode to the same bytes are equal packet by packet, whatever followed them; of decoded packets == ignores nothing but which byte followed a DLE; a text description equals exactly its text without the spaces at its end.", "quantifier": "all packets, all buffers", "why_tests_cant": "Relates every pair of decoded packets, and all pairs of sequences, including splits of the same bytes that depend on what follows.", "anchors": ["elkm1/src/pkt.rs:PartialEq for InvalidPacket", "elkm1/src/pkt.rs:Packet", "elkm1/src/pkt.rs:Packet::encode", "elkm1/src/msg.rs:PartialEq<str> for TextDescription"]}
{"id": "C121", "title": "What is written of a packet shows its bytes", "statement": "Display of two decoded invalid packets is the same only if reason and bytes are; Display of two RP packets only if the bytes are.", "quantifier": "all decoded invalid packets, all RP packets", "why_tests_cant": "Injectivity over all byte strings of any length.", "anchors": ["elkm1/src/pkt.rs:Display for InvalidPacket", "elkm1/src/pkt.rs:Display for RpPacket"]}
{"id": "C122", "title": "A connected panel is a small reference machine", "statement": "Every history of a connected Panel (any order of poll_next, poll_ready, start_send, poll_flush, poll_close, arriving bytes, errors and ends) is a history of a machine with six fields - unread bytes, report shown, zones, report withheld and until when, command outstanding, unsent bytes - defined by the grammar of packets and messages alone: it returns what the panel returned, shows what arming_status and zone_statuses say, and reads and writes the same bytes. A packet at the front settles the event and what is seen afterwards; without one only the clock does, unless the connection failed or ended, and a failure or an end is reported only when no packet is at the front.", "quantifier": "all histories of any length of all connected panels, with well-formed commands", "why_tests_cant": "An equality of behaviour over all interleavings and all bytes, not of samples; every returned value and every accessor is accounted for.", "anchors": ["elkm1/src/state.rs:Stream for Panel", "elkm1/src/state.rs:Sink for Panel", "elkm1/src/state.rs:Panel::interpret", "elkm1/src/tokio.rs:Stream for Connection"]}
{"id": "C123", "title": "connect is a small reference machine, and exactly when it panics", "statement": "Every history of Panel::connect on a fresh connection is a history of a machine that knows nothing in the beginning, asks one question at a time, learns from every packet at the front of the bytes read what the packet says (statuses from any report, names only from the reply to the question for them), and goes on to the next question with the reply; the questions, events, bytes read and written and everything the panel knows in the end are the machine's, and are where the machine of C122 starts. A packet at the front settles event and outcome. connect panics exactly when it reads, in reply to its question, a description with a number above the number of entries of its type.", "quantifier": "all fresh connections and all histories of any length: any bytes, errors and ends, any times", "why_tests_cant": "Equality of behaviour over all interleavings and all bytes a panel might send; the panic is characterised both ways.", "anchors": ["elkm1/src/state.rs:Panel::with_connection", "elkm1/src/state.rs:Panel::init_req", "elkm1/src/state.rs:Panel::send_sds", "elkm1/src/state.rs:Panel::interpret"]}
{"id": "C124", "title": "the bridge is a small reference machine, and what ends it", "statement": "When the bridge comes to its loop it has published, in this order, exactly the discovery documents (if wanted), the state of every area, of every zone, and 'online'. From then on every history is one of a machine whose state is the panel's view (C122), the messages not yet taken up and what it is doing: an event is published as the one JSON text that C138 says, followed by exactly the states that its change concerns; a message from the broker is taken up in order, and is a command exactly if its topic and payload say so; the command waits until the panel is ready, is handed over and flushed before anything else is looked at; the order in which select! looks decides which of two comes first. With the same bytes read and written the machine has no choice. The bridge ends only by failing I/O or the end of the connection, by a report on all zones, or by bytes that are not UTF-8 on a command topic; and the latter two always end it.", "quantifier": "all connected panels, all configurations, all histories of any length: any bytes, errors, deliveries, times and polling orders", "why_tests_cant": "Equality of behaviour with a reference over all interleavings of two sources, and a complete list of what ends the program.", "anchors": ["elkm1-mqtt/src/main.rs:inner", "elkm1-mqtt/src/main.rs:handle_publish", "elkm1-mqtt/src/main.rs:publish_area_states", "elkm1-mqtt/src/main.rs:publish_zone_state", "elkm1-mqtt/src/main.rs:publish_ha_discovery"]}
{"id": "C125", "title": "the log level changes nothing but the log", "statement": "Whatever is enabled (RUST_LOG), a panel, connecting, the bridge and watch behave exactly the same, including panics, and what is logged is what is enabled of one and the same log: showing a value never panics and no call has another effect.", "quantifier": "all sets of enabled calls, all connected panels, all configurations, all histories (for watch: its output, which is the log itself)", "why_tests_cant": "A non-interference statement over all histories and all filters; tests run with one filter.", "anchors": ["elkm1/src/tokio.rs:poll_next", "elkm1/src/tokio.rs:start_send", "elkm1/src/state.rs:interpret", "elkm1/src/state.rs:poll_next", "elkm1/src/state.rs:start_send", "elkm1/src/state.rs:init_req", "elkm1-mqtt/src/main.rs:handle_publish", "elkm1-mqtt/src/main.rs:inner", "elkm1-cli/src/main.rs:watch"]}
{"id": "C126", "title": "what a panel logs is determined by what it shows", "statement": "In every history each operation logs exactly: the packet received; after it, of a suspicious arming report, that it is withheld, or that it is the second in a row, with the status shown, the one withheld and the new one; a withheld report taking effect, with both; a command sent, as message and as packet; and nothing else. The view (C122), the operation and its outcome determine the records.", "quantifier": "all connected panels, all histories, all enabled calls", "why_tests_cant": "Completeness and exactness of a log over all histories.", "anchors": ["elkm1/src/state.rs:interpret", "elkm1/src/state.rs:poll_next", "elkm1/src/state.rs:start_send", "elkm1/src/tokio.rs:poll_next", "elkm1/src/tokio.rs:start_send"]}
{"id": "C127", "title": "the trace is the traffic", "statement": "At trace level the packets logged as received are, byte for byte, what was read except for what still waits in the buffer; the packets logged as sent are, byte for byte, what was written and what still waits to be written. The texts logged determine the packets and the bytes.", "quantifier": "all connected panels, all histories: any bytes in any chunks, errors, partial writes", "why_tests_cant": "A conservation law between log and socket over all chunkings and interleavings.", "anchors": ["elkm1/src/tokio.rs:poll_next", "elkm1/src/tokio.rs:start_send", "elkm1/src/pkt.rs:decode", "elkm1/src/pkt.rs:encode"]}
{"id": "C128", "title": "the log does not disclose the code", "statement": "With another code configured the bridge logs the same at the default level. FALSE: an event that reports a completed request shows the request with its code (C128_disclosed). Partial: all calls but 'panel event', 'sending message' and 'sending packet' log the same for every two codes, and at the default level everything does as long as no event reports a completed request.", "quantifier": "all configurations, all pairs of codes, all histories of the bridge", "why_tests_cant": "A hyperproperty: it compares two executions, for all pairs of codes and all histories.", "anchors": ["elkm1-mqtt/src/main.rs:inner", "elkm1-mqtt/src/main.rs:handle_publish", "elkm1/src/state.rs:start_send", "elkm1/src/msg.rs:ArmCode"]}
{"id": "C129", "title": "what the bridge logs", "statement": "In every history the bridge logs exactly: that the panel is initialised; for an event, what the panel logs of it and the event; for a message of the broker, the message, and then that its topic is unknown, or the area it is for and, if its payload is no level, that; for a command handed to the panel, the message and its packet; and nothing else. What is observed settles what is logged.", "quantifier": "all connected panels, all configurations, all histories, all enabled calls", "why_tests_cant": "Completeness and exactness of a log over all interleavings of two sources.", "anchors": ["elkm1-mqtt/src/main.rs:handle_publish", "elkm1-mqtt/src/main.rs:inner"]}
{"id": "C130", "title": "what connecting logs", "statement": "In every history connecting logs exactly: each question when it is asked, its packet when it is accepted, every packet received, what is remarkable of an arming report, and of every message whether it is the reply or unrelated, with the event. What is observed, and what comes of it, settles what is logged.", "quantifier": "all fresh connections, all histories, all enabled calls", "why_tests_cant": "Completeness and exactness of a log over all dialogues.", "anchors": ["elkm1/src/state.rs:init_req", "elkm1/src/state.rs:connect", "elkm1/src/state.rs:interpret"]}
{"id": "C131", "title": "watch is a small reference machine, and its output", "statement": "Every history of watch is one of a machine over the panel's view: an event is met with one line for each area and zone whose state differs (none for a report on all zones), the end of the connection with returning; it panics only where reading fails, and writes nothing. Its log is exactly what the panel logs, the event and the lines, and the records at level info are exactly the lines.", "quantifier": "all connected panels, all histories of any length: any bytes in any chunks, errors, times; all enabled calls", "why_tests_cant": "Equality of behaviour and output with a reference over all histories.", "anchors": ["elkm1-cli/src/main.rs:watch"]}
{"id": "C132", "title": "the bridge program is a small reference machine, from its start to its end", "statement": "From a configuration that was read, every history of the bridge program is one of a machine: it reaches for the panel, asks and learns as connect does, on the last reply announces itself if the configuration is usable, and then serves; at each operation it publishes what the machine publishes, and it reads and writes the machine's bytes. It ends only where the panel cannot be reached, where connecting fails or the panel names something there is no room for, where the configuration is not usable, or where the bridge stops. With the same bytes the machine goes to one place and publishes one thing.", "quantifier": "all arguments and files from which the program starts; all histories of any length: any outcome of reaching the panel, any bytes in any chunks, partial writes, errors, deliveries, times", "why_tests_cant": "Equality of behaviour with a reference over all histories of the whole program, and a complete list of what ends it.", "anchors": ["elkm1-mqtt/src/main.rs:main", "elkm1-mqtt/src/main.rs:inner", "elkm1/src/state.rs:connect"]}
{"id": "C133", "title": "elkm1-cli watch is a small reference machine, and all that it logs", "statement": "Every history of the command watch is one of a machine that reaches for the panel, asks and learns as connect does, and then sees what changes until the connection ends; what is logged is, whatever is enabled, what is enabled of the machine's records. At level info these are: nothing until it is connected, then one record, and then exactly one line for each difference of an area or zone, except that a report on all zones has none. It panics only where the panel is not reached, connecting fails or has no room for a name, or reading fails, and that does not depend on what is enabled.", "quantifier": "all histories of any length: any outcome of reaching the panel, any bytes in any chunks, errors, times; all sets of enabled calls", "why_tests_cant": "Equality of behaviour and output with a reference over all histories of the whole command.", "anchors": ["elkm1-cli/src/main.rs:watch", "elkm1/src/state.rs:connect"]}
{"id": "C134", "title": "a panel does exactly what its reference machine allows", "statement": "The histories of a connected panel (calls with their times, the bytes each call read or wrote, what it returned, and the views at the end) are exactly those of the machine of C122 with these rules: nothing is read while a packet is at hand; the errors of reading are those of the socket and a stream that ends within a packet; after an error comes the end, once, without reading, whatever is sent in between; a stream that has ended may go on; errors of writing occur only while there is something to write. So the machine says no more and no less than the code does. connect returns a panel to which this applies.", "quantifier": "all histories of calls of any length, all bytes and times, all final views; in the one direction all answers of the socket, in the other there are some", "why_tests_cant": "An equality of two infinite sets of histories; the converse (nothing more is promised than can happen) is not a property of any run.", "anchors": ["elkm1/src/state.rs:poll_next", "elkm1/src/state.rs:poll_ready", "elkm1/src/state.rs:poll_flush", "elkm1/src/state.rs:poll_close", "elkm1/src/state.rs:start_send", "elkm1/src/tokio.rs:Connection"]}
{"id": "C135", "title": "all that the bridge program logs, from its start on", "statement": "elkm1-mqtt, from reaching for the panel on, logs in each operation exactly what the machine of C132 with the records of C129 and C130 says, as far as it is enabled: the first question once the panel is reached, the questions and replies while connecting, that the panel is initialised when it announces itself, then each event and message. What is enabled changes neither what it does nor how it panics. At level info it logs nothing before the panel is connected, then that it is, then one record for each event, which is the event published, and one for each message of the broker, or two if it is for a configured area.", "quantifier": "all arguments and files, all histories of the program of any length, all sets of enabled calls", "why_tests_cant": "Quantifies over all histories and all 2^19 sets of enabled calls.", "anchors": ["elkm1-mqtt/src/main.rs:main", "elkm1-mqtt/src/main.rs:inner", "elkm1-mqtt/src/main.rs:handle_publish", "elkm1/src/state.rs:connect"]}
{"id": "C136", "title": "connecting does exactly what its reference machine allows", "statement": "The histories of Panel::connect, on a connection that may answer reads and writes in any way, are exactly those of the machine of C123 with these rules: nothing is read while a packet is at the front, errors of writing occur only while something is left to write, the stream ending gives bytes-remaining within a packet and unexpected-eof between packets. A history is the polls with their times, the bytes each read and wrote, what was asked or seen, and where connecting ends up with everything the panel then knows. Exactly where the machine may read a reply with a name it has no room for, connect panics.", "quantifier": "all histories of polls and of answers of the connection, of any length, in both directions", "why_tests_cant": "An equality of two infinite sets of histories.", "anchors": ["elkm1/src/state.rs:connect", "elkm1/src/state.rs:init_req", "elkm1/src/state.rs:init_sds", "elkm1/src/tokio.rs:Connection"]}
{"id": "C137", "title": "which fault a parse error names", "statement": "The data of each supported message is checked field by field in a fixed order, written down as a table. Message::parse rejects a packet exactly if it is shorter than four bytes or fails a check, and its error is word for word the text of the first check that fails. The checks together ask just what the grammar of messages asks. With this the reference machines of a panel and of connecting leave nothing open about the events: a packet settles the whole event, including what it says about a fault.", "quantifier": "all ASCII packets; all histories (machines)", "why_tests_cant": "All texts up to 252 characters, with several fields wrong at once.", "anchors": ["elkm1/src/msg.rs:Message::parse_ascii", "elkm1/src/msg.rs:parse_u8_dec", "elkm1/src/msg.rs:from_ascii_data"]}
{"id": "C138", "title": "what is published of an event, to the byte", "statement": "The JSON form of a message can be read off its text on the wire: each field of Elk's layout appears under its name, numbers as numbers, codes by the names in a table in the order of Elk's codes, dates as ISO 8601, in a fixed order. There is one for every well-formed message but the report on all zones, for which serialising panics. An event has four fields: its packet, its message or what is wrong with it, the request it completes and what changed, each null if there is none. As text, every part is on a line of its own, two characters to the right of what it is part of. What the bridge has published on its event topic, at any time, is exactly the texts of the panel's events, in order.", "quantifier": "all well-formed messages, all events of them, all JSON values, all histories of the bridge", "why_tests_cant": "All messages, combinations of fields and histories.", "anchors": ["elkm1/src/msg.rs:derive(Serialize)", "elkm1/src/state.rs:Event", "elkm1/src/pkt.rs:derive(Serialize)", "elkm1-mqtt/src/main.rs:publish_event"]}
{"id": "C139", "title": "the bridge does exactly what its reference machine allows", "statement": "A history of the bridge is the messages the broker delivered and the polls, in order, with the bytes each read from and wrote to the panel, and what was observed of each, including all that is published. The histories of a bridge from the start of its loop, with a connection to the panel that gives what answers it likes, are exactly the histories of the reference machine of C124 in which nothing is read while a packet is at the front. And polling panics after a history, in a given way, for some answers of the connection exactly if the machine says so: reading fails or the connection has ended (in one of the ways there are), a report on all zones is received, a message on a topic for commands is not text, or writing fails.", "quantifier": "all configurations with distinct names, all connected panels, all histories", "why_tests_cant": "Both inclusions of infinite sets of histories: nothing is allowed by the reference that the bridge cannot do.", "anchors": ["elkm1-mqtt/src/main.rs:inner", "elkm1-mqtt/src/main.rs:publish_event", "elkm1-mqtt/src/main.rs:handle_publish", "elkm1/src/state.rs:<Panel as Stream>::poll_next"]}
{"id": "C140", "title": "the bridge program does exactly what its reference machine allows", "statement": "A history of the elkm1-mqtt program is all that happens to it, in order, except what happens to its connection to the panel: the attempt to reach the panel ends, the broker delivers a message, the program is polled; with the bytes each read from and wrote to the panel and everything it published. The histories of the program, started with any arguments and files, on a connection that gives what answers it likes, are exactly the histories of the reference machine of C132 in which nothing is read while a packet is at the front. And the program panics after a history, in a given way, for some answers of the connection exactly if the machine says so: the panel is not reached; while connecting, reading or writing fails or the connection ends; the panel names something there is no room for; it is connected but the configuration is not usable; or the bridge ends as in C139.", "quantifier": "all arguments, all files whose areas and zones have distinct names, all histories", "why_tests_cant": "Both inclusions of infinite sets of histories of the whole program: nothing is allowed by the reference that the program cannot do.", "anchors": ["elkm1-mqtt/src/main.rs:main", "elkm1-mqtt/src/main.rs:inner", "elkm1/src/state.rs:Panel::connect", "elkm1/src/state.rs:Panel::init"]}
{"id": "C141", "title": "elkm1-cli watch does and logs exactly what its reference machine allows", "statement": "A history of `elkm1-cli watch` is all that happens to it, in order, except what happens to its connection to the panel: the attempt to reach the panel ends, it is polled; with the bytes each read from and wrote to the panel and everything that is logged, of what is enabled. Whatever is enabled, the histories of watch, on a connection that gives what answers it likes, are exactly the histories of the reference machine of C133 in which nothing is read while a packet is at the front and watch returns only if the connection ends between packets. And watch panics after a history, in a given way, for some answers of the connection exactly if: the panel is not reached; while connecting, reading or writing fails or the connection ends; the panel names something there is no room for; or, in the loop, no packet is at the front (reading can fail then).", "quantifier": "all histories, all settings of what is logged", "why_tests_cant": "Both inclusions of infinite sets of histories of the whole command, with its log: nothing is allowed by the reference that watch cannot do.", "anchors": ["elkm1-cli/src/main.rs:watch", "elkm1-cli/src/main.rs:main", "elkm1/src/state.rs:Panel::connect", "elkm1/src/state.rs:Panel::poll_next"]}
{"id": "C142", "title": "Which tasks a panel wakes, exactly", "statement": "Take a reference machine with three places for a waiting task, each holding the last one told Pending: the reading side of the connection (poll_next found nothing to read), the writing side (poll_ready, poll_flush or poll_close left bytes to be written) and the outstanding command (poll_ready wrote everything). Something arriving wakes the first, the connection taking more bytes the second, and an event that completes the command the third; each is woken once and nothing else wakes anyone. In every history of a connected panel each operation wakes exactly the tasks that the machine says; and the histories of calls, with the bytes each read or wrote, what it returned and whom it woke, are exactly those of the machine of C134 with these places. Hence no operation wakes more than one task, and a task woken by poll_next was told Pending by poll_ready with no command completed since.", "quantifier": "all histories of operations by any number of tasks on any connected panel", "why_tests_cant": "Which task is woken depends on the whole history of calls by all tasks; both inclusions of infinite sets of histories.", "anchors": ["elkm1/src/state.rs:Panel::poll_next", "elkm1/src/state.rs:Panel::poll_ready", "elkm1/src/state.rs:Panel::poll_flush", "elkm1/src/state.rs:Panel::interpret", "elkm1/src/tokio.rs:Connection"]}
{"id": "C143", "title": "What the bridge has published when its start fails", "statement": "Once connected to the panel, the bridge goes through a fixed list of things (the code, the documents of areas and zones, the states of areas and zones, the subscription, the word online) and asks the MQTT client for each in turn, up to the first that fails: a code of more than six digits, a wildcard in a topic, an area or zone number that cannot be, no area to subscribe for. Nothing else makes the start fail, and what it asks for is determined. If it fails, it has neither subscribed nor said that it is online; of n requests made before, exactly k have been transmitted and the rest never is, where k = 0 if n is at most 10, k is n-10 to n-1 otherwise, and each such k is possible. If it does not fail nothing is lost, and it comes to an end with everything transmitted as long as it is run. So a configuration with no areas and eleven zones or more fails to start after states to be retained have reached the broker.", "quantifier": "all configurations, all connected panels, all interleavings of the bridge with the transmission of its requests", "why_tests_cant": "The set of possible outcomes of a failure under all interleavings and all configurations, both what is possible and what is not.", "anchors": ["elkm1-mqtt/src/main.rs:inner", "elkm1-mqtt/src/main.rs:publish_ha_discovery", "elkm1-mqtt/src/main.rs:publish_area_states", "elkm1-mqtt/src/main.rs:publish_zone_state", "elkm1-mqtt/src/main.rs:main"]}
{"id": "C144", "title": "What the log says when a program dies", "statement": "When the bridge program or elkm1-cli watch panics, its log is that of all operations before, followed by what the operation in which it panics logs before the panic, and that is determined: nothing if the panel cannot be reached, reading or writing fails or the connection ends; the packet and the reply if the panel names something that there is no room for; what the last reply logs and that the panel is initialised if the configuration is not usable; the packet and the event if the panel reports on all zones; the message and the area it is for if a payload on a topic for commands is not text. So from the log at level info of a bridge program that died it can be told whether it was the configuration, a report on all zones or a payload, and which; and as long as the program lives its log gives away none of these. watch dies only of the line or of a name that there is no room for.", "quantifier": "all arguments, configuration files, executions of the two programs that panic, and all choices of the callsites that are enabled", "why_tests_cant": "Runs over all executions up to the panic, and says that no execution that does not panic logs the same; a test sees one death at a time.", "anchors": ["elkm1-mqtt/src/main.rs:main", "elkm1-mqtt/src/main.rs:inner", "elkm1-mqtt/src/main.rs:handle_publish", "elkm1-cli/src/main.rs:watch", "elkm1/src/state.rs:Panel::init_req", "elkm1/src/state.rs:Panel::interpret", "elkm1/src/tokio.rs:Connection::poll_next"]}
{"id": "C145", "title": "The whole of main: messages of the broker are never lost in it, whenever they come", "statement": "run_eventloop and inner run side by side, with a channel between them. Started with any arguments and configuration file, the program as a whole is the machine of C135 and a waiting room for messages of the broker that come before it serves; these come into its inbox when it does. The messages that the client notified are, in order, exactly those taken up by inner (as its log shows) followed by those that wait: none is lost, taken up twice or overtaken. What the whole program reads, writes, publishes and logs, and where it comes to, is what the bridge program does if the early messages are delivered as soon as it serves, so what is proved of that holds whatever the broker sends and when. Every notification is logged at level trace, once and in order. The program ends only when the MQTT client fails (and then always) or as inner ends (C132).", "quantifier": "all arguments, configuration files, interleavings of notifications with what happens to inner, all choices of what is logged", "why_tests_cant": "Messages may come at any moment of connecting and serving; the claim is about all interleavings and about there being no other way to end.", "anchors": ["elkm1-mqtt/src/main.rs:main", "elkm1-mqtt/src/main.rs:run_eventloop", "elkm1-mqtt/src/main.rs:inner"]}
{"id": "C146", "title": "A bridge that is stuck looks alive", "statement": "A bridge gets stuck (C52) exactly when it takes up a message that asks for a command while the panel awaits the reply to another; when that reply is already there to be read, chance (the order in which select! looks at its branches) decides. From then on nothing ends it, neither the end nor an error of the panel's connection: it never panics, publishes, sends and reads nothing, and what it knows of the panel stays as it is, while the messages of the broker gather in a channel without bound. Unless the program is killed or loses the broker, it runs on, the broker is given nothing but what was published before, and it goes on holding online for the bridge.", "quantifier": "all reachable states of the bridge and of program and broker, all continuations that neither kill the program nor end its connection to the broker", "why_tests_cant": "That nothing ever changes again is a claim about all continuations; a test sees a bridge that is connected, available and silent, as when nothing happens.", "anchors": ["elkm1-mqtt/src/main.rs:inner", "elkm1-mqtt/src/main.rs:handle_publish", "elkm1/src/state.rs:Panel::poll_ready"]}
{"id": "C147", "title": "The whole of main does and logs exactly what its reference machine allows", "statement": "For every configuration in which areas and zones have names of their own, and whatever of the log is enabled, the histories of the whole program (run_eventloop and inner side by side) are exactly those of the reference machine of C145 in which nothing is read while a packet is at the front: what happens, notifications and messages of the broker at any time included, the bytes that each poll reads and writes, all that is published, all that is logged, what is left in the channel, and where the program is at the end. It can panic exactly where the machine falls, and with that panic. What happens and the bytes read and written determine all the rest of a history.", "quantifier": "all arguments and files with which the program starts and whose areas and zones have names of their own, all settings of the log, all histories", "why_tests_cant": "That every history which the machine allows is one of the program, and no other, needs a run built for each of infinitely many.", "anchors": ["elkm1-mqtt/src/main.rs:main", "elkm1-mqtt/src/main.rs:run_eventloop", "elkm1-mqtt/src/main.rs:inner", "elkm1/src/state.rs:Panel", "elkm1/src/tokio.rs:Connection"]}
{"id": "C148", "title": "What the times in the log tell", "statement": "The time with which both programs begin a line of the log is the date and time of day, in the Gregorian calendar, that a clock with the offset of the time zone shows, to the microsecond, written as 2026-11-17T14:00:00.000000. As long as the offset stays the same, the texts sort as the times do, and two are equal exactly when the times are in the same microsecond. The offset is not written: when clocks are put back, times that are that much apart are written alike, and a later line bears an earlier time.", "quantifier": "all times and offsets with which a clock shows a year from 0 to 9999", "why_tests_cant": "A test formats a few times; the order of all pairs, over all leap years and ends of months, needs a proof.", "anchors": ["elkm1-mqtt/src/main.rs:JiffTimer::format_time", "elkm1-cli/src/main.rs:JiffTimer::format_time"]}
{"id": "C149", "title": "Which lines the environment lets into the log", "statement": "A call that logs is enabled exactly if the directives of the environment let it through: of those for its target the most precise decides, of equally precise ones the last; with no directives at all, levels from INFO up are enabled. Making a directive more verbose hides nothing, but directives that are all for other targets hide everything that `watch` logs itself, even what is logged by default. The environment keeps the configured code out of the log of the bridge exactly if it lets through neither INFO of elkm1_mqtt nor DEBUG of elkm1::state nor TRACE of elkm1::tokio; so not by default, and with one directive for all exactly with WARN, ERROR or OFF.", "quantifier": "all lists of directives, all calls; all configurations, codes, panels and histories of the bridge", "why_tests_cant": "A test tries a few settings of RUST_LOG with one code; which settings disclose the code in no history at all cannot be observed.", "anchors": ["elkm1-mqtt/src/main.rs:setup_tracing", "elkm1-cli/src/main.rs:setup_tracing"]}
{"id": "C150", "title": "What the arguments of elkm1-cli make it do", "statement": "elkm1-cli runs `watch` or `read` exactly if the arguments are the name of the command and one value, with `--` before the value if it begins with a dash (or, without effect, after it); for any other arguments it ends without connecting or reading anything. Every address that is UTF-8 and every file with a name can be given. `read` panics exactly if that file cannot be read; else what is printed tells everything that is in it.", "quantifier": "all lists of arguments, all files", "why_tests_cant": "A test tries a few command lines; that no other one connects or reads needs all of them.", "anchors": ["elkm1-cli/src/main.rs:Cmd", "elkm1-cli/src/main.rs:main", "elkm1-cli/src/main.rs:read"]}
{"id": "C151", "title": "Nothing that a panel sends or a capture contains can disturb the terminal or forge a line", "statement": "All that `elkm1-cli read` prints, all that `elkm1-cli watch` logs and all that a panel logs is printable ASCII and new lines, and what is shown as plain text has no new lines: there are no escape sequences for a terminal and no line that the panel or the file made up. The same holds of all that the bridge logs but for the four calls that show what the MQTT broker sent; of these it does not hold.", "quantifier": "all files; all bytes from the panel however they arrive, all operations, all sets of enabled calls, also for runs that panic", "why_tests_cant": "Hostile bytes may be anywhere in names, in texts of faulty packets and in what is left over; tests try a few of them.", "anchors": ["elkm1-cli/src/main.rs:read", "elkm1-cli/src/main.rs:watch", "elkm1/src/state.rs:Panel::poll_next", "elkm1/src/pkt.rs:AsciiPacket", "elkm1/src/msg.rs:TextDescription", "elkm1-mqtt/src/main.rs:handle_publish"]}
{"id": "C152", "title": "What a panel shows depends only on the bytes that it sent", "statement": "Two sessions (a successful connect and anything done with the panel afterwards) that have read the same bytes, and whose last poll for an event was in vain five seconds or more after the polls before, show the same arming report, zones and names, however the bytes were cut into pieces, whenever they came or were polled for, whatever was sent meanwhile and whatever could be written when. What they show is what the packets add up to, entered one by one into a book without clock or withheld reports; likewise the question that connect is at, and whether it is over. Before the five seconds have passed the arming reports may differ.", "quantifier": "all pairs of sessions, all bytes, all clocks, all interleavings of arrivals, polls and commands", "why_tests_cant": "It relates any two runs; a test compares a run with one expected result.", "anchors": ["elkm1/src/state.rs:Panel::connect", "elkm1/src/state.rs:Panel::poll_next", "elkm1/src/state.rs:Panel::interpret", "elkm1/src/pkt.rs:Packet::decode"]}
{"id": "C153", "title": "Two bridges to the same panel show the same", "statement": "Two bridges with the same configuration whose panels sent the same bytes, and that are idle (not about to send a command, nothing to do at the last poll, five seconds or more after the polls before), have the broker retain the same message for every topic, and have published events for the same packets in the same order, whatever commands they took up meanwhile, however the bytes were cut into pieces and whenever they came. For sessions of a panel without a bridge likewise: once all is polled, the events were for the same packets.", "quantifier": "all configurations with distinct names, all pairs of runs, all topics", "why_tests_cant": "It relates any two runs; a test compares a run with one expected result.", "anchors": ["elkm1-mqtt/src/main.rs:inner", "elkm1-mqtt/src/main.rs:publish_event", "elkm1/src/state.rs:Panel::connect", "elkm1/src/state.rs:Panel::poll_next"]}
{"id": "C154", "title": "Reading back a capture shows what the session saw", "statement": "The bytes that a session received from the panel, saved to a file and given to `elkm1-cli read`, are printed as exactly the packets that connecting saw, followed by the packets of the events that the panel returned, in order, followed by what `read` prints for the bytes the session has not yet looked at; after a poll that returned nothing that is at most one line for an incomplete packet. The same holds at any point of connecting, and for the events that the MQTT bridge handled.", "quantifier": "all runs of connect, all histories of a panel afterwards, all histories of a bridge", "why_tests_cant": "It compares two programs on every stream and every way of receiving it; a test compares a handful of captures.", "anchors": ["elkm1-cli/src/main.rs:read", "elkm1/src/state.rs:Panel::connect", "elkm1/src/state.rs:Panel::poll_next", "elkm1/src/pkt.rs:Packet::decode", "elkm1-mqtt/src/main.rs:inner"]}
{"id": "C155", "title": "What is told of the zones depends only on the bytes", "statement": "Of two sessions of which one received what the other did and perhaps more, and has polled for it all, the one returned the changes of zones that the other did, in the same order and with the same prior states, and perhaps more; if both received the same bytes, they returned the same. For two MQTT bridges with the same configuration likewise: all messages under `<prefix>/zone/`, from the first to the last, are the same once both are idle, and one that lags behind has published a prefix. It does not hold of the areas: a suspicious report is told of or not depending on when the next one comes.", "quantifier": "all pairs of sessions, all pairs of bridges with the same configuration, all ways of cutting the stream, all times and commands", "why_tests_cant": "It relates any two runs; a test compares a run with one expected result.", "anchors": ["elkm1/src/state.rs:Panel::poll_next", "elkm1/src/state.rs:Panel::interpret", "elkm1-mqtt/src/main.rs:publish_event", "elkm1-mqtt/src/main.rs:inner"]}
{"id": "C156", "title": "The bridge says no more than it is told", "statement": "A panel returns at most one event for each packet and one more for each report on the areas (and one for a report that connecting withheld): at most two for each byte received, and one. An event without a packet is for a report withheld before. A bridge publishes at the start at most two messages for each configured area and zone and one more, and afterwards at most (1 + 2 * bytes received) * (1 + max 1 areas) messages, however long it runs, however often it is woken and whatever it is asked for.", "quantifier": "all sessions of a panel, all services of the bridge, all configurations, all commands and times", "why_tests_cant": "It bounds the output of every run by its input; a test sees some runs, each of one length.", "anchors": ["elkm1/src/state.rs:Panel::poll_next", "elkm1/src/state.rs:Panel::interpret", "elkm1-mqtt/src/main.rs:publish_event", "elkm1-mqtt/src/main.rs:inner"]}
{"id": "C157", "title": "Without suspicious reports, time does not matter", "statement": "If no report on the areas in the bytes of a panel is suspicious given the report before it (from disarmed at once to fully armed in a mode with entry delay), then nothing is ever withheld, each event is for a packet, and two sessions that read the same bytes and polled for them all returned the same events, in the same order, but for the commands that they complete; one that lags behind returned a prefix. Two idle MQTT bridges with the same configuration published the same retained messages from the first to the last (discovery, availability, every state of every area and zone). However the bytes are cut into pieces, whenever they come, and whatever is sent meanwhile.", "quantifier": "all pairs of sessions, all pairs of bridges with the same configuration, all calm byte streams, all times, pieces and commands", "why_tests_cant": "It relates any two runs on any calm stream; C155 has a pair of runs for which it fails without that condition.", "anchors": ["elkm1/src/state.rs:Panel::poll_next", "elkm1/src/state.rs:Panel::interpret_arming_status", "elkm1/src/msg.rs:ArmingStatusReport::is_transition_suspicious", "elkm1-mqtt/src/main.rs:inner"]}
{"id": "C158", "title": "What `watch` logs depends on the bytes", "statement": "The lines on zones that `elkm1 watch` has logged are those for the changes that the zone reports in the bytes make, in order; so two runs that read the same bytes and polled for them all logged the same lines on zones, and one that lags behind logged a prefix. If moreover no report on the areas is suspicious, then the events are the same, all lines are the same, and so is the whole log since connecting, for any set of enabled targets. Without that last condition the lines on areas can differ, of which there is a pair of runs.", "quantifier": "all pairs of runs of `watch`, all byte streams (all calm ones for the areas), all times and pieces, all log filters", "why_tests_cant": "It relates any two runs on any stream, whatever the timing.", "anchors": ["elkm1-cli/src/main.rs:watch", "elkm1-cli/src/main.rs:main", "elkm1/src/state.rs:Panel::poll_next", "elkm1/src/msg.rs:ArmingStatusReport::is_transition_suspicious"]}
{"id": "C159", "title": "Only reports and names count", "statement": "Any bytes have exactly one gist: the reports on the areas, the reports and changes of the zones and the names among their messages, in order. What a panel sends beyond that, or how it writes it (other messages, faulty texts, ElkRP packets, bytes that are no packet, reserved characters), does not matter: two settled sessions whose bytes have the same gist show the same areas, zones and names; they have told the same changes of zones; two idle bridges with the same configuration leave the same retained messages and have published the same on the topics of the zones; two runs of `watch` have logged the same lines on zones. If no report is suspicious, which depends on the gist only, then also all changes told, all retained messages published from the first to the last, and all lines logged by `watch` are the same.", "quantifier": "all pairs of sessions, bridges and runs of `watch`, all byte streams with the same gist, all timings, pieces and commands", "why_tests_cant": "It relates any two streams that differ in any chatter at any places.", "anchors": ["elkm1/src/state.rs:Panel::poll_next", "elkm1/src/state.rs:Panel::interpret", "elkm1/src/state.rs:Panel::init_req", "elkm1/src/pkt.rs:Packet::decode", "elkm1/src/msg.rs:Message::parse_ascii", "elkm1-mqtt/src/main.rs:inner", "elkm1-cli/src/main.rs:watch"]}
{"id": "C160", "title": "Joining and cutting captures", "statement": "When a captured file grows, what `elkm1-cli read` has shown as packets stays as it is, and what follows is what it shows of the incomplete rest together with the added bytes. Of two files joined it shows, line by line and as text, what it shows of the first and then what it shows of the second exactly if it found the first to be complete (or the second is empty); of any number of complete files joined it shows what it shows of each in turn. A capture of valid packets that is cut in two is shown the same in parts as in whole exactly if the cut is between two packets; a cut elsewhere may hide any packets that follow, as is shown by an example.", "quantifier": "all files, all ways of joining and cutting them", "why_tests_cant": "It is about all pairs of files and all places to cut.", "anchors": ["elkm1-cli/src/main.rs:read", "elkm1/src/pkt.rs:Packet::decode"]}
{"id": "C161", "title": "A relay cannot be told from the panel", "statement": "Take any bytes apart with `Packet::decode`, parse the packets, and write the messages that are understood anew with `to_pkt` and `encode`. This never fails and has one result, which consists of one valid packet for each message, and that packet parses to the message. Doing it again changes nothing; the results of two streams are equal exactly if the streams contain the same messages; when more bytes come, the result is only added to. Who is connected behind such a relay sees what one connected to the panel sees: settled sessions show the same, have told the same changes of zones, `watch` has logged the same lines on zones, and the broker retains the same for idle bridges.", "quantifier": "all byte streams, sessions, bridges and runs of `watch`", "why_tests_cant": "It is about all streams and all pairs of sessions.", "anchors": ["elkm1/src/pkt.rs:Packet::decode", "elkm1/src/msg.rs:Message::parse_ascii", "elkm1/src/msg.rs:Message::to_pkt", "elkm1/src/pkt.rs:Packet::encode", "elkm1/src/state.rs:Panel::poll_next", "elkm1-mqtt/src/main.rs:inner", "elkm1-cli/src/main.rs:watch"]}
{"id": "C162", "title": "The last word counts", "statement": "Take all messages in the bytes that a panel sent. A settled session shows the last report on the areas among them; a session that has polled for all that came shows for each of the 208 zones the last word on it, be it in a report on all zones or in a change of that zone. So two panels, whatever they sent before and in whatever order, are shown with the same areas exactly if their last reports on areas are equal, and with the same zones exactly if the last word on each zone is. Of an idle bridge the broker retains for each configured area the text for the last report on areas, and for each configured zone the text for the last word on that zone, in the bytes that the bridge received.", "quantifier": "all byte streams, sessions, bridges and configurations with distinct names", "why_tests_cant": "It is about all histories: any number of messages in any order, timing and pieces.", "anchors": ["elkm1/src/state.rs:Panel::interpret", "elkm1/src/state.rs:Panel::poll_next", "elkm1/src/pkt.rs:Packet::decode", "elkm1/src/msg.rs:Message::parse_ascii", "elkm1-mqtt/src/main.rs:inner"]}
{"id": "C163", "title": "Zones do not influence each other", "statement": "The changes that a session tells of a zone are exactly those that follow from the status of that zone when it got connected and from the words on that zone since: a report on all zones is taken over silently, a reported change is told with the status before, unless it is the status already. So two sessions with the same start and the same words on a zone tell the same of it, whatever was said on the other zones, the areas and everything else, and whenever; words that repeat what was known make no difference. On the topic of a configured zone a bridge publishes, in its whole life, the text for the status when it got connected and then the text for each such change, and nothing else; two bridges with the same start and the same words on a zone publish the same on its topic, even if their other areas and zones are configured differently.", "quantifier": "all sessions, bridges, zones and configurations with distinct names", "why_tests_cant": "It compares any two histories that agree on one zone and differ in everything else.", "anchors": ["elkm1/src/state.rs:Panel::interpret", "elkm1/src/state.rs:Panel::poll_next", "elkm1-mqtt/src/main.rs:inner"]}
{"id": "C164", "title": "Areas do not influence each other", "statement": "What a session shows, and a bridge publishes, of an area depends only on the status of that area when it got connected and on the words on that area since, whatever the reports say on the other areas.", "quantifier": "all sessions, bridges, areas and configurations with distinct names", "why_tests_cant": "It compares any two histories that agree on one area and differ in everything else.", "anchors": ["elkm1/src/state.rs:Panel::interpret_arming_status", "elkm1/src/msg.rs:ArmingStatusReport::is_transition_suspicious", "elkm1-mqtt/src/main.rs:inner"]}
{"id": "C165", "title": "The order of the maps in the configuration makes no difference", "statement": "Areas and zones are configured in hash maps, which each run of the program iterates in another order. With one order the bridge starts from a panel exactly if it does with another, with a permutation of the same messages and subscriptions; messages of the broker ask for the same commands; and two idle bridges whose panels sent the same bytes retain the same on every topic. More generally an entry stands on its own: what two such bridges retain for an area or zone that both have configured, each on its own topic, is the same whatever else they have configured.", "quantifier": "all configurations, permutations, bridges, byte streams and topics", "why_tests_cant": "The order cannot be chosen in a test; there are as many as permutations.", "anchors": ["elkm1-mqtt/src/main.rs:ElkCfg", "elkm1-mqtt/src/main.rs:inner", "elkm1-mqtt/src/main.rs:handle_publish", "elkm1-mqtt/src/main.rs:publish_ha_discovery"]}
{"id": "C166", "title": "A restarted bridge shows what one that ran on shows", "statement": "What the broker retains while a bridge is idle is determined by the configuration and the panel's last words on the areas and the configured zones: two idle bridges for which these agree retain the same on every topic, whatever their panels sent before. Nothing of an earlier run with the same configuration is left, wherever it ended and whichever of its messages reached the broker: after its will and the messages of the next run, each topic holds what it would without the earlier run. So a restart does not show.", "quantifier": "all configurations (in any order of the maps), bridges, byte streams, earlier runs, parts of their messages, and topics", "why_tests_cant": "It ranges over all pairs of histories with the same last words and all points at which a run may end.", "anchors": ["elkm1-mqtt/src/main.rs:inner", "elkm1-mqtt/src/main.rs:publish_ha_discovery", "elkm1/src/state.rs:Panel"]}
