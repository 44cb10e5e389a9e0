# Formal model of scottlamb/elkm1 in Lean 4

## Layout (lean/Verif)
- `Basic.lean`   bytes, panics and results
- `Model/*`      the code, function by function, each definition citing file and lines
- `Spec/*`       small specifications, independent of the model's helpers
- `Lemmas/*`     helper lemmas
- `Tests/*`      the unit tests of /repo, run on the model
- `Props/*`      the property theorems (one file per layer), with non-vacuity examples

## Modelling conventions
- `u8` = `UInt8`, `u16` = `UInt16` (wrapping and shifting as in Rust); `usize` = `Nat`.
- `Vec<u8>`, `&[u8]`, `BytesMut` = `List UInt8`; fixed arrays = `Vector α n`.
- A panic (index, slice, `advance`, arithmetic overflow in debug builds, `assert!`,
  `expect`, `unreachable!`, `todo!`) is an explicit error value; `Result`/`Option` stay data.
- Async code is modelled as poll functions / resumable step machines; the socket, the clock
  and task identities are inputs.

## Plan per property
| id | what is modelled and how it is proved |
|---|---|
| C01 | `Packet.decode`/`encode` over `List UInt8`; induction on the number of decoded packets using "a returned packet's encoding is what was removed" |
| C02 | same model; RP: byte-wise recogniser proved equal to the index/memchr loop, then induction on the body; sequences by induction |
| C03 | case analysis of decode; RP by an invariant of the scanning loop (bytes consumed = header ++ escape data) |
| C04 | same invariant |
| C05 | same invariant; drain is a total function with proof of the bound |
| C06 | prefixes of `encode p` case by case; RP by induction on the body |
| C07 | monotonicity lemma `decode src = some (p, rest) → decode (src ++ t) = some (p, rest ++ t)`, induction on chunks |
| C08 | FALSE of the code (RP footer at offset 1021/1022). Prove the negation (permanent stall witness, for every suffix), and the exact characterisation of all stalling buffers as `_partial` |
| C09 | checksum arithmetic mod 256 + framing analysis of the length digits |
| C10 | same |
| C11 | table-driven fold = bit-serial LFSR = Mathlib polynomial remainder over `ZMod 2` |
| C12 | injectivity of the CRC step on bytes (low byte of the table is a permutation) |
| C13 | scan loop lemma, strong induction on garbage length |
| C14 | direct |
| C15 | corollary of C02 |
| C16 | decode lives in `Except Panic`; every index, slice, advance and assert is a possible panic; proved unreachable |
| C17 | model of every `from_ascii_data`/`to_ascii`; per-type round-trip lemmas; decimal/hex codecs proved for all values |
| C18 | parse lives in a monad with an explicit panic outcome |
| C19 | per-type |
| C20 | C17 + C19 |
| C21 | FALSE of the code ('+16' accepted; also trailing bytes). Negation + `_partial` |
| C22 | case analysis on the two code bytes |
| C23 | direct against a separate relation |
| C24 | whole table |
| C25 | decimal digits by induction |
| C26 | FALSE of the code (year 2100; non-ASCII text panics). Negations + `_partial` |
| C27 | direct |
| C28 | FALSE of the code (FireAlarm). Negation + `_partial` |
| C29 | direct, ∃ area |
| C30 | FALSE of the code (derived transparent Deserialize). Negations |
| C31 | invariant over histories of a step machine (packets, polls at arbitrary times, sink operations) |
| C32 | same machine |
| C33 | same machine |
| C34 | FALSE for ZS (silent). Negation + `_partial` |
| C35 | refinement to last-writer-wins map |
| C36 | invariant `both statuses are Some`, established by init, preserved by every step |
| C37 | init as a resumable step machine driven by received items; induction |
| C38 | co-simulation with a specification server, arbitrary unrelated packets interleaved |
| C39 | FALSE (SD number beyond the array). Negation + `_partial` |
| C40 | ghost counters over histories |
| C41 | induction on sink operation sequences |
| C42 | wakers as task identifiers |
| C43 | FALSE (unsolicited reply before flush). Negation + `_partial` |
| C44 | ghost wire log |
| C45 | Framed read-side model over C07 |
| C46 | same |
| C47 | FALSE (poll_close only flushes). Negation + `_partial` |
| C48 | FALSE for FireAlarm. Negation + `_partial` |
| C49 | bridge step machine with retained-topic map |
| C50 | direct |
| C51 | FALSE (ZS events hit todo!()). Negation + `_partial` |
| C52 | FALSE (documented TODO). Negation + `_partial` |
| C53 | string injectivity |
| C54 | drain of C05 |
| C55, C56 | independent specification of the wire format and of each message's text, equality |
| C57 | parse depends on the documented prefix of the data only |
| C58 | FALSE (leading space). Negation + `_partial` |
| C59 | unfolding `interpret`, for every history |
| C60 | frame lemma over histories |
| C61 | waker bookkeeping invariant over histories |
| C62, C63 | Framed state machine, invariant |
| C64 | FALSE (alarm in a suspicious report). Negation + `_partial`, and exactly which reports are shown at once (Props/Prompt) |
| C65 | exact characterisation of the configurations for which the bridge starts |
| C66–C68 | bridge step machine, invariant `BGood`, history relation `BHist` |
| C69 | JSON values as data; per-type round trip. FALSE for ZS and for dates read from a `Value`. Negations + `_partial` |
| C70 | two runs with different codes in lockstep (relational invariant). FALSE for completion events. Negation + `_partial` |
| C71 | FALSE for ZS (silent). Negation + `_partial`; replay by induction on the history |
| C72, C73 | liveness invariant of the socket through Framed, Panel and `watch` |
| C74 | C01, C02, C18 put together through the loops of the targets |
| C75, C76 | generators as a tree of choices; exact set of values; C17. C76 is FALSE (shift in `ArmCode::arbitrary`). Negation + `_partial` |
| C77, C78 | derived `Deserialize` on JSON values read from the file (C115); a relation `Describes` between files and setups, both directions |
| C79-C81 | the program with its client's queue, and a broker that keeps retained messages and wills; invariant over all site histories; what has been transmitted is a prefix of the log. C81 is FALSE (documents are never withdrawn). Negation + `_partial` |
| C82 | FALSE: the bit makes the packet invalid. Decoding of a frame with an unprintable character; then a rank argument on the dialogue: it cannot pass a named entry without a reply describing it |
| C83-C84 | the site among other clients of the broker (Model/World.lean): posts, QoS 0 forwarding that may lose messages, retained messages on subscribing, the program's own messages forwarded too. Invariant: what is taken up, waiting and on its way is a sublist of the posts. C84 is FALSE for retained posts. Negation + `_partial` |
| C85-C87 | a small specification of how Home Assistant reads documents and payloads (Spec/HomeAssistant.lean), combined with C49, C50, C67. C86, C87 are FALSE. Negations + `_partial` |
| C88 | C40 and C44 put together (C37 while connecting), lengths of the encodings |
| C89 | FALSE (`ka` is never sent). Negation + `_partial`; induction on the dialogue |
| C90 | the line's packets (C13, C10, C17) determine the events of an idle panel (C45), these the views (C31, C35), these the broker (C49) |
| C91 | FALSE (a lost byte makes all zone changes that follow unintelligible; C08's stall). Negation: induction on the number of zone changes, 14 at a time; `_partial` for garbage and spoilt bytes |
| C92 | FALSE, as C91. Negation through C90's composition; C90 is the `_partial` |
| C93 | the documents held (as C67), their fields |
| C94 | the topics a bridge uses (C66's lemma), cutting at the last slash and the last dash |
| C95 | bytes sent and buffered, by induction over the operations on a connection |
| C96 | induction over the answers of the socket |
| C97 | induction over polite histories |
| C98 | C95 and the decoder (C02) on part of a stream of frames |
| C99 | a reader of JSON text (Spec/JsonText.lean); it inverts the printer, by induction on the value; then C69 and C67 |
| C100 | lower bound on the text of a long packet, upper bounds on all other texts. FALSE for noise and long programming packets. Negation + `_partial` |
| C101 | library, line and panel as one system (Spec/Site.lean); invariant on the messages under way in both directions; a measure that only one party at a time can lower and nobody can raise; well-founded induction with fairness |
| C102 | the faults as a relation on bytes (Spec/Diagnosis.lean); both directions from the case analysis of `decode` |
| C103 | the faults as a relation on command and data (Spec/Complaint.lean); a calculus of "whatever text fails with is true" through every parser. FALSE for short `SD`. Negation + `_partial` |
| C104 | bridge, line, panel and broker as one system (Spec/Home.lean); an invariant with five stages of a command, a well-founded distance per claim and a general lemma on fair schedules (`eventually`, Lemmas/Home.lean) |
| C105 | `Debug` as a tree of `core::fmt` builder calls (Model/Debug.lean); well-formedness of everything in an event along histories |
| C106 | the text of a tree determines the tree (cancellation: a text followed by anything that cannot continue it), the tree determines the value |
| C107 | C106 for packets, lines split at line ends that no packet text contains in the wrong place, and C54 |
| C108 | a relation between trees and JSON (Spec/Debug.lean). FALSE for `RtcData`. Negation + `_partial` |
| C109 | C104's schedules with a clock and timers (Spec/Settle.lean): everything settles by C104; the timer of a withheld report has the waker the task sleeps with (`TimerSet`), so it fires; then C31, C35 and C49. A schedule without pause, with its invariant (Props/Starved.lean) |
| C110 | The invariant of C101 keeps books (`Ledger`): what was said was heard or is under way, the question awaited is the last one, at most one zone report is under way; at the end they give what C109 needs of the start |
| C111 | From C40, C44 and C45: what the library was told is a prefix of what the panel said, the lines heard are the first commands, and the n-th confirmation told completes the n-th command |
| C112 | An invariant of where the command in hand is (buffered, written and not heard, heard and not told) and a measure that shrinks whenever the actor whose turn it is acts; a sleeping task is always registered with what it waits for |
| C113 | Without the waiting for the queue, a run is a run of C104's system in which nothing happens at times (`rest`); transmitted, queued and outstanding requests together are always all requests made; the outstanding ones become fewer because the queue is drained |
| C114 | FALSE (C08's stall). Negation: induction on the pieces that arrive; `_partial`: `decode` fails only on short or stuck buffers, and a read adds at most its size |
| C115 | The grammar of RFC 8259 as inductive predicates (Spec/JsonGrammar.lean); the reader is sound and complete for it, by induction on fuel and on derivations; UTF-8 against `String.utf8EncodeChar`; then C77 and C78 |
| C116 | The printer derives the grammar, by induction on the value; all strings of events are ASCII by C102 and C103, those of the configuration are UTF-8 by C115; invariant over site histories |
| C117 | `decode` satisfies the grammar case by case (from the characterisation of `decode` behind C13 and C102), and the cases of the grammar exclude each other; induction over the buffer |
| C118 | Both directions for each kind of message, from those for numbers of two and three characters |
| C119 | Each field and separator comes to a panic, a value or an error, by the places in the text; composed in the order of the code |
| C120 | Decoding the bytes of a valid packet gives it back (C10); a packet cannot be decoded as the beginning of a longer one, by cases of the grammar of C117 |
| C121 | Reasons are single lines, so the first line break ends them; the dump can be read back (C106) |
| C122 | Case analysis of each operation (`StepCase`) against the rules of the machine, along the history; the rules exclude each other |
| C123 | Case analysis of each tick (`TickCase`) against the rules of the machine, along the history |
| C124 | Case analysis of each poll of the bridge (panel first, inbox first, sending) against the rules of the machine, on top of C122; uniqueness rule by rule |
| C125 | Every function that logs is modelled a second time with its log (Model/Log.lean); equal to the first function by function; values shown are well formed by the invariants of C18 and C31, so showing them does not panic |
| C126 | The log of each step as a function of state and outcome, related to the machine of C122 |
| C127 | From C126 and the conservation of bytes of C122; `{:?}` of packets is injective (C105) |
| C128 | FALSE of the code (`panel event` shows a completed request). Negation + `_partial`: masking as in C70 |
| C129 | Log of each step of the bridge against `Notices`, coupled with the machine of C124; uniqueness rule by rule |
| C130 | The same for connecting (`Utters`, C123) |
| C131 | `Sees`/`Prints` over the machine of C122; C71's lines |
| C132 | `Proceeds`/`Perishes`: each step of `Prog` against `Connects` (C123), `Opens` and `Serves` (C124) |
| C133 | `Spots`/`Blinds`: each step of `Watcher` against `Connects`/`Utters` (C130) and `Sees`/`Prints` (C131) |
| C134 | C122 with the flags of the read state (`Hears`); conversely answers of the socket are constructed for each call the machine allows, and the uniqueness of C122 shows that the code then does that |
| C135 | C132 with the records of C129 and C130: one lemma per operation gives the step of the machine and the log at once |
| C136 | C123 with C134's `Hears` for a connection that has neither failed nor ended; conversely answers of the socket for each poll, and uniqueness (`C123_packet`, `connects_settled`, `C123_breaks`) |
| C137 | a table of checks per command (`Checks`), the first that fails (`First`); a calculus `Judges` of computations that fail as a list of checks says, composed along each `from_ascii_data` |
| C138 | a function from the text on the wire to JSON with tables of names (Spec/Document.lean); lines of JSON text by nesting, joined; used by the machines of C124 and C132 in place of "can be read back" |
| C139 | every step of the bridge is one of the machine (C124) that reads only where C134 allows; conversely answers of the socket for every step of the machine (C134) and determinism of what is published and taken up |
| C140 | C136 while connecting and C139 while serving, put together: what is queued while connecting leaves the machine where it is, and the step after it is determined by what it read and wrote (C132_settled); the panics of starting are all those of an unusable configuration |
| C141 | C136 while connecting and C135 in the loop, put together; with the same bytes read and written the machine logs the same and goes to the same place (spots_one), unless the end of the connection is read |
| C142 | Step by step for the three places; the other inclusion from C134, since whom a call wakes depends only on the calls before it |
| C143 | The start as a list of requests and an end, composed function by function; each function against its part of the plan; the queue of ten by an invariant of its steps, and a schedule for each number of transmitted requests. Finding: a start that fails (no areas) leaves states retained by the broker |
| C144 | The programs in a monad that keeps the log of a computation that panics (Model/Said.lean), each function proved to be the one of C133/C135 when the log of a panic is forgotten; the steps that panic against `LastWords`/`LastSight`; that no other step logs the same by the reference machine |
| C145 | `run_eventloop` and `inner` with the channel between them; each operation against `Abides`; that handing over the waiting room is a series of deliveries, so that a history of the whole is one of the bridge program; the order of messages by induction over histories |
| C146 | from the invariant of the bridge, that a stuck one has nothing left to write, so that `poll_ready` cannot even fail; each operation keeps `Frozen`; at the broker, by induction with C79; when it happens, by the cases of a step |
| C147 | that the machine leaves no choice, from C124, C129, C130 and C132; forwards, C145 with what C140 says of reads; backwards, a run of `inner` from C140, to which the channel is added (answers of the panel's socket do not look at the inbox), and by the first its log is the machine's |
| C148 | the date of a day by counting off years and months, shown to be the one with so many days before it; decimal numbers of one width sort as the numbers do |
| C149 | the sorted set of directives finds the one that decides (induction over the directives added); one history shows that each of the three calls of C128 tells the code, C128 that the others do not |
| C150 | the parser accepts exactly the grammar (cases of what has been read so far); C107 for what `read` prints |
| C151 | the strings in what `{:?}` shows are ASCII (valid packets, texts of faults, names) and are escaped; invariants of the reference machines (outstanding command, names) |
| C152 | each step of the reference machines (C122, C123) enters at most one packet into a ledger; the bytes have one reading only (C117); a report is withheld until five seconds after some poll |
| C153 | a history of the bridge's machine contains one of its panel's (C124), so C152 applies; what is retained follows from the views (C49); connecting takes the fewest packets after which no question is open |
| C154 | the packets observed are those taken off the front of the bytes received (machines of C122-C124); `read` takes the same and goes on (C54, draining is unique) |
| C155 | the zones are a small machine over packets alone (Spec/Senses), which the machines of C122 and C124 contain; connecting takes the same packets in both runs (C153), so both start from the same zones |
| C156 | a withheld report counts as one event owed; each step of the machines of C122 and C124 returns no more than it takes in or owed before; messages are counted per event |
| C157 | a machine without clock (Spec/Calm) that the machines of C122-C124 follow while nothing is withheld; calmness of the packets keeps that so, from connecting on |
| C158 | the diary of C131 (Spec/Minutes) projected onto the zones (as C155), and onto the machine without clock of C157 |
| C159 | Spec/Gist; the relations of C152, C155, C157 and C158 on packets factor through the messages that count; the end of connecting is at the same message |
| C160 | from C54 and C07 (`drains_append`), with the lines of C107 for the text; a line on a rest can only be the last one |
| C161 | Spec/Relay; C17, C19 and C05 for what is written; the gist of C159 is that of the messages. The relay is no part of the code: it is a client of the library |
| C162 | Spec/FinalSay; the tally of C152 entered message by message keeps the last word; C49 for the topics |
| C163 | Spec/OneZone; the news of Spec/Senses, restricted to one zone, by induction over the packets; distinct names give distinct topics |
| C164 | false of the code (reports are withheld as a whole): witness with two sessions; Spec/OneArea; settled sessions by C162, calm streams by the machine without clock of C157 |
| C165 | Spec/Shuffle (permutations of the association lists); C162 for the topics of entries, distinct topics for the documents |
| C166 | C162 for the topics of entries, and that the first messages of each run cover all topics on which a run ever retains anything |

## Where code and property disagree
Each is proved as a negation with a concrete witness; the theorem is named in MANIFEST.json.
- C08: a buffer of 1023 bytes that starts an RP packet, with DLE ETX just before the 1024-byte limit,
  makes `decode` return `None` for ever (pkt.rs `RpPacket::decode`).
- C21: `u8::from_str` accepts a leading `+`, so `ZC+16200` is zone 16 (msg.rs `parse_u8_dec`).
- C26: `from_iso_8601` slices a `str` at byte offsets and panics inside a multi-byte character; the year
  2100 is accepted and printed as `20100`.
- C28, C48: `AlarmState::is_firing` uses `>` so that `FireAlarm` is not firing, and Home Assistant does
  not see a fire alarm.
- C30: the derived `Deserialize` of the wrapper types does not validate.
- C34, C71: a `ZS` report changes the zone view without a `Change` (and `watch` logs nothing).
- C39: an `SD` reply with a number beyond the array makes `connect` panic.
- C42: a task blocked in `poll_ready` is not woken if another task completes the flush.
- C43: an unsolicited reply frees the panel before its bytes are written; `poll_flush` then reports
  success without flushing.
- C47: `poll_close` never shuts the connection down (tokio.rs:82 calls `poll_flush_unpin`).
- C51, C69: (de)serialising a `ZoneStatusReport` is `todo!()`; a `ZS` message ends the bridge.
- C52: the deadlock of the TODO at main.rs:313 of elkm1-mqtt is real, and permanent. Nobody
  notices (C146): the program runs on, and is `online`, even when the panel hangs up.
- C58: `TextDescription::is_empty` looks at the first character only.
- C64: a report with an alarm is withheld for 5 s if it also contains a suspicious transition.
- C69: a date is read as `&str`, so a message with a date cannot be read from a `serde_json::Value`.
- C70: an event that reports a completed request contains the configured code.
- C76: `ArmCode::arbitrary` shifts by 24 and 16 instead of 16 and 8 bits: 4096 of 10^6 codes are tried.
- C81: discovery documents of areas and zones removed from the configuration stay retained.
- C82: a name sent with the "Show On Keypad" bit makes `connect` wait for ever.
- C84: a command posted to be retained is carried out again at every restart (`publish.retain` is ignored).
- C86: zone states `on`/`off`/`offline` are not the payloads Home Assistant expects (`ON`/`OFF`).
- C87: `ARM_NIGHT` and `ARM_VACATION` are ignored although the panel has such levels.
- C89: `ka` is documented as sent on connecting (state.rs:55) and is never sent.
- C91, C92: Packet::decode (pkt.rs:49-66) takes any two hex digits for a length. Begun in the middle of a zone change it reads `C0` and skips 196 bytes, which is the middle of the 14th next zone change, and so on; one lost byte of any message leads there. The bridge's zone states then stay as they were. (Any other message in between may end this.) The documentation (pkt.rs:37-40) admits confusion without saying that it can last.
- C100: an invalid packet of 931 bytes or more (noise, e.g. a wrong baud rate) is published as more than 10 KiB of
  text, which the MQTT client refuses; the bridge ends.
- C103: `StringDescriptionResponse` needs 21 bytes and complains about fewer with "expected at least 5 bytes"
  (msg.rs:1420).  Other oddities of texts, written out in the specification as they are: every number out of range is
  called `t` (`stringify!(t)`, msg.rs:553); "[0, 255)" although 255 is accepted (msg.rs:31); the area of an `EE` message
  is reported by the code of its character.
- C108: `RtcData` has no `rename_all`, so JSON has `clock_display` and `date_display` where all other names are in
  camelCase (msg.rs:706-715).
- C109: `poll_next` looks at the timer of a withheld report only when no packet is at hand, so a panel that never
  pauses keeps a suspicious report withheld for ever (`C109_starved`; the withholding is meant to last 5 seconds).
- C111: a command is reported completed by any message that looks like a reply, even before it was written
  (documented, state.rs:30-33).
- C112: the same look-alike makes `poll_flush` return Ok with the command still in the buffer, where it stays until
  something else is sent.
- C114: C08's stall makes the read buffer grow by all that arrives: the peer decides how much memory is used.
- C128: the same event is logged at level `info`, the default: the code is in the log of the bridge in clear.
- C148: the time in the log has no offset: it is ambiguous while clocks that were put back show an hour again.
- C164: a report is withheld as a whole, so what is said on one area can keep a burglar alarm in another from being shown.

## Trusted base
- The Lean 4.33.0 kernel.  Every theorem depends on no axioms beyond `propext`, `Classical.choice` and
  `Quot.sound` (checked with `#print axioms`); there is no `sorry`, `native_decide` or `bv_decide`.
  `decide +kernel` is used for whole finite tables (all bytes, all pairs of nibbles) and for concrete
  witnesses.
- That the definitions in `Model/*` say what the Rust code does.  This was done by reading; every
  definition cites the lines it models.
- That the statements (with `Spec/*`) say what the properties say.

### Modelled
- elkm1/src/pkt.rs: all of it, with the exact reasons of invalid packets, and the text of `{:?}`.
- elkm1/src/msg.rs: all messages, enums, limited numbers, dates, `parse`, `to_pkt`, `is_response_to`,
  (de)serialisation as JSON data, the `Arbitrary` generators, the exact texts of parse errors
  and of `{:?}` (Model/Debug.lean), `==` of packets and `{}` of packets (Model/Show.lean).
- elkm1/src/tokio.rs: `Connection`, including the parts of tokio-util's `Framed` it relies on.
- elkm1/src/state.rs: `Panel`, its `Stream` and `Sink`, initialisation.
- elkm1-mqtt/src/main.rs: configuration from the bytes of the file, `main`, `run_eventloop`, `inner`, `handle_publish`, discovery,
  publishing, the last will.
- elkm1-cli/src/main.rs: `main` and its arguments, `watch` and `read`; a line that `watch` shows is modelled as the data it shows,
  the text that `read` prints is exact (Model/Debug.lean).
- fuzz/fuzz_targets: all three.
- Logging: every call of `tracing` but the span of state.rs:134, as call and fields (Model/Log.lean; what the MQTT
  client notifies, main.rs:335 in elkm1-mqtt, in Model/Whole.lean); the time of a line (Model/Clock.lean); which calls the
  environment enables (Model/EnvFilter.lean).  How a subscriber formats the rest of a record is not.

### Assumed about what is not in the repository
- tokio-util `Framed`: modelled from its documentation and behaviour (read state, EOF handling,
  write buffer, back-pressure boundary).  futures `SinkExt::send`: ready, start_send, flush.
- A socket returns any bytes in any chunks, errors or EOF at any time; a timer is ready when its deadline
  has passed; the clock does not run backwards.
- rumqttc: `publish` succeeds unless the topic has a wildcard; `subscribe_many` succeeds unless the list is
  empty; its default `max_outgoing_packet_size` is 10 KiB (C100 only), and a larger packet makes
  `EventLoop::poll` fail, which main.rs:334 unwraps; elsewhere size is not considered;
  its channel is a first-in first-out queue that is never full, except in C113 and C143, where it holds 10; no DISCONNECT is sent when the program panics, so the broker
  publishes the will.
- The broker (Model/World.lean, C83-C84): forwards messages of subscribed topics in order or loses them,
  sends the retained message of a topic on subscribing, forgets a client's subscriptions when it is gone.
- Home Assistant (C85-C87): the documented defaults of its MQTT integration.
- Rust's `core::fmt` (Model/Fmt.lean): decimal, padded and hexadecimal numbers, `Debug` of bytes, characters and strings,
  the builders `debug_tuple`, `debug_struct`, `debug_list`, `debug_map`; the crate pretty-hex 0.4.1: `hex_dump`
  (Model/Debug.lean).
- serde_json's `PrettyFormatter`: two spaces per level, one field or element per line, `{}`/`[]` when empty,
  strings escaped as Model/JsonText.lean says.
- serde_json's reader (Model/JsonRead.lean): accepts JSON, decodes only strings that are used, reads `u8` keys as
  they are written.
- serde's derives: as documented (camelCase names, transparent newtypes, externally tagged enums; structs also from
  sequences, in the configuration only).
- jiff (Model/Clock.lean): `Zoned::now().strftime` as documented, with the offset of the time zone as an input.
- tracing-subscriber's `EnvFilter` (Model/EnvFilter.lean): as documented, for directives with a target, a level or both.
- clap (Model/Args.lean): two subcommands with one required value each; `--` makes what follows a value.
- arbitrary: its primitives may return any value of their range.
- `usize` is unbounded (`Nat`); allocation does not fail; logging and printing do not fail.

### Not modelled
- The syntax of `RUST_LOG`, what elkm1-cli prints about its usage, formatting of log lines, DNS and TCP connect; the exchange with the broker other than what is
  published and delivered; what the panic hook prints.

## Testing the model
All unit tests of /repo (pkt.rs, msg.rs, state.rs) are transcribed in Tests/Repo.lean and pass on the model.

## Testing the theorems
`seeded/LOG.jsonl` lists wrong programs: the definition of the model edited, the edit, the claim it
breaks and the theorems that no longer prove.
