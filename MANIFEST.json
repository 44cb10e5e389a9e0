{
 "claims": [
  {
   "property": "C01",
   "status": "proved",
   "theorems": [
    "Elk.Props.C01_lossless",
    "Elk.Props.C01_lossless_all"
   ],
   "note": "all byte strings"
  },
  {
   "property": "C02",
   "status": "proved",
   "theorems": [
    "Elk.Props.C02_roundtrip",
    "Elk.Props.C02_sequence"
   ],
   "note": ""
  },
  {
   "property": "C03",
   "status": "proved",
   "theorems": [
    "Elk.Props.C03_sound"
   ],
   "note": ""
  },
  {
   "property": "C04",
   "status": "proved",
   "theorems": [
    "Elk.Props.C04_constraints"
   ],
   "note": ""
  },
  {
   "property": "C05",
   "status": "proved",
   "theorems": [
    "Elk.Props.C05_progress",
    "Elk.Props.C05_drain_terminates"
   ],
   "note": ""
  },
  {
   "property": "C06",
   "status": "proved",
   "theorems": [
    "Elk.Props.C06_prefix_waits"
   ],
   "note": ""
  },
  {
   "property": "C07",
   "status": "proved",
   "theorems": [
    "Elk.Props.C07_chunking",
    "Elk.Props.C07_chunking_indep"
   ],
   "note": ""
  },
  {
   "property": "C08",
   "status": "partial",
   "theorems": [
    "Elk.Props.C08_no_stall_partial",
    "Elk.Props.C08_stalls_forever",
    "Elk.Props.C08_false"
   ],
   "note": "The stated property is false of the code: a 1023-byte buffer with DLE ETX just before the 1024-byte limit makes decode return None for ever. Proved: the negation, and the exact set of stalling buffers."
  },
  {
   "property": "C09",
   "status": "proved",
   "theorems": [
    "Elk.Props.C09_single_byte"
   ],
   "note": ""
  },
  {
   "property": "C10",
   "status": "proved",
   "theorems": [
    "Elk.Props.C10_contained"
   ],
   "note": ""
  },
  {
   "property": "C11",
   "status": "proved",
   "theorems": [
    "Elk.Props.C11_crc_is_remainder",
    "Elk.Props.C11_crc_iff"
   ],
   "note": "polynomial remainder over ZMod 2 (Mathlib)"
  },
  {
   "property": "C12",
   "status": "proved",
   "theorems": [
    "Elk.Props.C12_window",
    "Elk.Props.C12_contained"
   ],
   "note": ""
  },
  {
   "property": "C13",
   "status": "proved",
   "theorems": [
    "Elk.Props.C13_resync"
   ],
   "note": ""
  },
  {
   "property": "C14",
   "status": "proved",
   "theorems": [
    "Elk.Props.C14_ascii",
    "Elk.Props.C14_rp"
   ],
   "note": ""
  },
  {
   "property": "C15",
   "status": "proved",
   "theorems": [
    "Elk.Props.C15_prefix_free"
   ],
   "note": ""
  },
  {
   "property": "C16",
   "status": "proved",
   "theorems": [
    "Elk.Props.C16_decode_never_panics"
   ],
   "note": ""
  },
  {
   "property": "C17",
   "status": "proved",
   "theorems": [
    "Elk.Props.C17_roundtrip",
    "Elk.Props.C17_injective"
   ],
   "note": ""
  },
  {
   "property": "C18",
   "status": "proved",
   "theorems": [
    "Elk.Props.C18_parse_never_panics"
   ],
   "note": ""
  },
  {
   "property": "C19",
   "status": "proved",
   "theorems": [
    "Elk.Props.C19_parsed_wellformed",
    "Elk.Props.C19_zone_index"
   ],
   "note": ""
  },
  {
   "property": "C20",
   "status": "proved",
   "theorems": [
    "Elk.Props.C20_reencode"
   ],
   "note": ""
  },
  {
   "property": "C21",
   "status": "partial",
   "theorems": [
    "Elk.Props.C21_noncanonical_accepted",
    "Elk.Props.C21_canonical_partial",
    "Elk.Props.C21_without_plus_partial"
   ],
   "note": "The stated property is false of the code: u8::from_str accepts a leading '+', so \"ZC+16200\" is read as zone 16. Proved: the negation; accepted packets are canonical up to '+' written for a leading zero; the property for packets without '+'."
  },
  {
   "property": "C22",
   "status": "proved",
   "theorems": [
    "Elk.Props.C22_code",
    "Elk.Props.C22_unsupported",
    "Elk.Props.C22_not_ascii"
   ],
   "note": ""
  },
  {
   "property": "C23",
   "status": "proved",
   "theorems": [
    "Elk.Props.C23_responds"
   ],
   "note": ""
  },
  {
   "property": "C24",
   "status": "proved",
   "theorems": [
    "Elk.Props.C24_split",
    "Elk.Props.C24_new"
   ],
   "note": ""
  },
  {
   "property": "C25",
   "status": "proved",
   "theorems": [
    "Elk.Props.C25_number",
    "Elk.Props.C25_number_injective",
    "Elk.Props.C25_bytes"
   ],
   "note": ""
  },
  {
   "property": "C26",
   "status": "partial",
   "theorems": [
    "Elk.Props.C26_panics",
    "Elk.Props.C26_year_2100",
    "Elk.Props.C26_roundtrip_partial",
    "Elk.Props.C26_accepts_partial"
   ],
   "note": "The stated property is false of the code: a two-byte character across a field boundary makes from_iso_8601 panic, and the accepted year 2100 prints as 20100. Proved: both negations, and the property for ASCII strings and years up to 2099."
  },
  {
   "property": "C27",
   "status": "proved",
   "theorems": [
    "Elk.Props.C27_text",
    "Elk.Props.C27_equal"
   ],
   "note": ""
  },
  {
   "property": "C28",
   "status": "partial",
   "theorems": [
    "Elk.Props.C28_fire_alarm_not_firing",
    "Elk.Props.C28_is_firing_partial"
   ],
   "note": "The stated property is false of the code: FireAlarm is not firing (`>` where `>=` is meant). Proved: the negation, and the property for all other states."
  },
  {
   "property": "C29",
   "status": "proved",
   "theorems": [
    "Elk.Props.C29_suspicious"
   ],
   "note": ""
  },
  {
   "property": "C30",
   "status": "partial",
   "theorems": [
    "Elk.Props.C30_zone_forged",
    "Elk.Props.C30_status_forged",
    "Elk.Props.C30_code_forged",
    "Elk.Props.C30_text_forged",
    "Elk.Props.C30_packet_forged",
    "Elk.Props.C30_date_partial"
   ],
   "note": "The stated property is false of the code: the derived transparent Deserialize impls do not validate. Proved: a witness for each type together with the panic it causes, and the property for dates (hand-written impl)."
  },
  {
   "property": "C31",
   "status": "proved",
   "theorems": [
    "Elk.Props.C31_latest"
   ],
   "note": "For every history of a connected panel."
  },
  {
   "property": "C32",
   "status": "proved",
   "theorems": [
    "Elk.Props.C32_withheld",
    "Elk.Props.C32_next_shown"
   ],
   "note": "Suspicious report not shown until superseded or polled 5 s later; a report following a withheld one is shown at once."
  },
  {
   "property": "C33",
   "status": "proved",
   "theorems": [
    "Elk.Props.C33_applied"
   ],
   "note": "A late poll that finds no packet applies the withheld report with the right prior."
  },
  {
   "property": "C34",
   "status": "partial",
   "theorems": [
    "Elk.Props.C34_zone_report_silent",
    "Elk.Props.C34_truthful_partial",
    "Elk.Props.C34_only_events_partial"
   ],
   "note": "False of the code: a zone status report (ZS) changes the zone view without a change (negation proved). Proved for every other event, and that nothing but an event alters the views."
  },
  {
   "property": "C35",
   "status": "proved",
   "theorems": [
    "Elk.Props.C35_zones"
   ],
   "note": ""
  },
  {
   "property": "C36",
   "status": "proved",
   "theorems": [
    "Elk.Props.C36_connected_never_panics",
    "Elk.Props.C36_start_send",
    "Elk.Props.C36_connect_establishes",
    "Elk.Props.C36_after_connect"
   ],
   "note": "start_send is the only later operation that may panic: exactly if a command is outstanding already (C36_start_send), which is the Sink contract."
  },
  {
   "property": "C37",
   "status": "proved",
   "theorems": [
    "Elk.Props.C37_dialogue",
    "Elk.Props.C37_questions",
    "Elk.Props.C37_reply_between",
    "Elk.Props.C37_wire"
   ],
   "note": "For every history of reads, writes and polls; the questions are a sublist of the 250 possible ones in order, and exactly these are what is put on the wire."
  },
  {
   "property": "C38",
   "status": "proved",
   "theorems": [
    "Elk.Props.C38_completes",
    "Elk.Props.C38_learns",
    "Elk.Props.C38_views",
    "Elk.Props.C38_names",
    "Elk.Props.C38_waits",
    "Elk.Props.C38_polls_return"
   ],
   "note": "C38_completes and C38_learns: the whole dialogue with a panel that answers each question after any packets that are not replies to it. C38_views and C38_names: for every history in which connect completes, however it is interleaved."
  },
  {
   "property": "C39",
   "status": "partial",
   "theorems": [
    "Elk.Props.C39_panics",
    "Elk.Props.C39_cause_partial",
    "Elk.Props.C39_no_panic_partial"
   ],
   "note": "False of the code: a description with a number beyond the array panics (witness proved). Proved: that is the only panic, and there is none if no such description arrives."
  },
  {
   "property": "C40",
   "status": "proved",
   "theorems": [
    "Elk.Props.C40_flow",
    "Elk.Props.C40_each_once",
    "Elk.Props.C40_between",
    "Elk.Props.C40_ready"
   ],
   "note": ""
  },
  {
   "property": "C41",
   "status": "proved",
   "theorems": [
    "Elk.Props.C41_busy_until_read"
   ],
   "note": ""
  },
  {
   "property": "C42",
   "status": "partial",
   "theorems": [
    "Elk.Props.C42_lost_wakeup",
    "Elk.Props.C42_woken_partial",
    "Elk.Props.C42_woken_flushed_partial"
   ],
   "note": "False of the code: if another task completes the flush (poll_flush), the task blocked in poll_ready is never woken (witness proved). Proved when nobody else calls poll_ready/poll_flush/poll_close, or when the command is already flushed."
  },
  {
   "property": "C43",
   "status": "partial",
   "theorems": [
    "Elk.Props.C43_flush_forgotten",
    "Elk.Props.C43_flushed_partial",
    "Elk.Props.C43_candid_partial"
   ],
   "note": "False of the code: an unsolicited reply frees the panel before the bytes were written, then poll_flush says Ok without flushing (witness proved). Proved whenever a command is outstanding, and always with a panel that confirms only commands it got (C111)."
  },
  {
   "property": "C44",
   "status": "proved",
   "theorems": [
    "Elk.Props.C44_wire_is_commands"
   ],
   "note": ""
  },
  {
   "property": "C45",
   "status": "proved",
   "theorems": [
    "Elk.Props.C45_mirror"
   ],
   "note": ""
  },
  {
   "property": "C46",
   "status": "proved",
   "theorems": [
    "Elk.Props.C46_end_of_stream",
    "Elk.Props.C46_polls_return"
   ],
   "note": "From any reachable state of a live connection (see C62)."
  },
  {
   "property": "C47",
   "status": "partial",
   "theorems": [
    "Elk.Props.C47_never_shut_down",
    "Elk.Props.C47_handed_over_partial"
   ],
   "note": "False of the code: poll_close only flushes; nothing ever shuts the write side down (proved for all histories). The bytes are handed over."
  },
  {
   "property": "C48",
   "status": "partial",
   "theorems": [
    "Elk.Props.C48_area_state_partial",
    "Elk.Props.C48_unique",
    "Elk.Props.C48_fire_unseen"
   ],
   "note": "False of the code for fire alarms: AlarmState::is_firing omits FireAlarm (msg.rs), so an area in fire alarm is published as its mode, e.g. 'disarmed' (C48_fire_unseen). Proved for every report, area and every other alarm state; the specification determines the text uniquely (C48_unique)."
  },
  {
   "property": "C49",
   "status": "proved",
   "theorems": [
    "Elk.Props.C49_tracks"
   ],
   "note": "For every configuration with distinct names and keys, every history. Both as the code's own function of the view and (unless in fire alarm, see C48) as the independent specification AreaShows; zones by status nibble."
  },
  {
   "property": "C50",
   "status": "proved",
   "theorems": [
    "Elk.Props.C50_commands",
    "Elk.Props.C50_asks_unique"
   ],
   "note": "Messages are taken up in order of delivery, each is found to ask exactly what topic and payload say, each command asked for is handed over once and in order, and the bytes written are their encodings."
  },
  {
   "property": "C51",
   "status": "partial",
   "theorems": [
    "Elk.Props.C51_dies_partial",
    "Elk.Props.C51_fatal_partial",
    "Elk.Props.C51_zone_report_ends"
   ],
   "note": "False of the code: serializing a ZoneStatusReport is todo!(), so a ZS message ends the bridge (C51_zone_report_ends). Proved: the complete list of what ends it, in both directions; no other panel message does."
  },
  {
   "property": "C52",
   "status": "partial",
   "theorems": [
    "Elk.Props.C52_stuck_forever",
    "Elk.Props.C52_deadlock",
    "Elk.Props.C52_progress_partial",
    "Elk.Props.C52_select_partial"
   ],
   "note": "False of the code: a second command taken up while the panel awaits a reply leaves the bridge stuck for ever, even when the reply arrives (C52_stuck_forever, witness C52_deadlock). Proved: commands taken up while no reply is awaited are handed over and sent in three polls."
  },
  {
   "property": "C53",
   "status": "proved",
   "theorems": [
    "Elk.Props.C53_unique"
   ],
   "note": "Also that there is exactly one retained document per area and zone."
  },
  {
   "property": "C54",
   "status": "proved",
   "theorems": [
    "Elk.Props.C54_read"
   ],
   "note": "A line is here the packet or the bytes it shows; the text printed is C107."
  },
  {
   "property": "C55",
   "status": "proved",
   "theorems": [
    "Elk.Props.C55_wire_format"
   ],
   "note": ""
  },
  {
   "property": "C56",
   "status": "proved",
   "theorems": [
    "Elk.Props.C56_layout"
   ],
   "note": ""
  },
  {
   "property": "C57",
   "status": "proved",
   "theorems": [
    "Elk.Props.C57_tail_ignored"
   ],
   "note": ""
  },
  {
   "property": "C58",
   "status": "partial",
   "theorems": [
    "Elk.Props.C58_leading_space",
    "Elk.Props.C58_is_empty_partial"
   ],
   "note": "The stated property is false of the code: a description starting with a space counts as empty. Proved: the negation, and the property for all other descriptions."
  },
  {
   "property": "C59",
   "status": "proved",
   "theorems": [
    "Elk.Props.C59_event_meaning"
   ],
   "note": ""
  },
  {
   "property": "C60",
   "status": "proved",
   "theorems": [
    "Elk.Props.C60_names_fixed"
   ],
   "note": ""
  },
  {
   "property": "C61",
   "status": "proved",
   "theorems": [
    "Elk.Props.C61_reader_woken"
   ],
   "note": ""
  },
  {
   "property": "C62",
   "status": "proved",
   "theorems": [
    "Elk.Props.C62_live"
   ],
   "note": ""
  },
  {
   "property": "C63",
   "status": "proved",
   "theorems": [
    "Elk.Props.C63_end_after_error"
   ],
   "note": ""
  },
  {
   "property": "C64",
   "status": "partial",
   "theorems": [
    "Elk.Props.C64_alarm_withheld",
    "Elk.Props.C64_shown_at_once_partial",
    "Elk.Props.C64_exact"
   ],
   "note": "False of the code: a report containing an alarm is withheld for 5 seconds if it also contains a suspicious arming transition (witness proved). Proved for all other reports, and exactly which reports are shown at once (C64_exact)."
  },
  {
   "property": "C65",
   "status": "proved",
   "theorems": [
    "Elk.Props.C65_starts",
    "Elk.Props.C65_connect"
   ],
   "note": "rumqttc's subscribe_many is taken to succeed."
  },
  {
   "property": "C66",
   "status": "proved",
   "theorems": [
    "Elk.Props.C66_online_last",
    "Elk.Props.C66_online_stays"
   ],
   "note": "The broker's last will (offline) is outside the model."
  },
  {
   "property": "C67",
   "status": "proved",
   "theorems": [
    "Elk.Props.C67_area_document",
    "Elk.Props.C67_zone_document"
   ],
   "note": ""
  },
  {
   "property": "C68",
   "status": "proved",
   "theorems": [
    "Elk.Props.C68_events"
   ],
   "note": "The events are those of a run of the panel fed with exactly what arrived (`arrived pops = arrivedAt ops`)."
  },
  {
   "property": "C69",
   "status": "partial",
   "theorems": [
    "Elk.Props.C69_message_partial",
    "Elk.Props.C69_event_partial",
    "Elk.Props.C69_injective",
    "Elk.Props.C69_zone_report",
    "Elk.Props.C69_date_elsewhere"
   ],
   "note": "False of the code: the zone status report's serialisation and deserialisation are todo!() (C69_zone_report), and a date is read as a borrowed &str, so that a message with a date cannot be read from a reader or a serde_json::Value (C69_date_elsewhere). Proved for every other well-formed message and event; different ones have different JSON."
  },
  {
   "property": "C70",
   "status": "partial",
   "theorems": [
    "Elk.Props.C70_secret_partial",
    "Elk.Props.C70_disclosed"
   ],
   "note": "False of the code: an event that reports a completed request to arm contains that request, with the code (C70_disclosed). Proved: on every other topic the log is the same whatever the code, and on all topics as long as no event reports a completion."
  },
  {
   "property": "C71",
   "status": "partial",
   "theorems": [
    "Elk.Props.C71_lines_partial",
    "Elk.Props.C71_report_unlogged",
    "Elk.Props.C71_replay_areas",
    "Elk.Props.C71_replay_zones_partial",
    "Elk.Props.C71_after_connect"
   ],
   "note": "False of the code for zone status reports, which change the view of the zones and log nothing (C71_report_unlogged). Proved for every other event, and the replay of the areas in full. The first_exit_time of an arming report is not part of a line. The hypotheses WfView and WfNames hold after connect (C71_after_connect)."
  },
  {
   "property": "C72",
   "status": "proved",
   "theorems": [
    "Elk.Props.C72_stays_up",
    "Elk.Props.C72_cause"
   ],
   "note": "Live holds after connect (C71_after_connect)."
  },
  {
   "property": "C73",
   "status": "proved",
   "theorems": [
    "Elk.Props.C73_panics",
    "Elk.Props.C73_returns",
    "Elk.Props.C73_watches"
   ],
   "note": "The log output itself is taken to succeed."
  },
  {
   "property": "C74",
   "status": "proved",
   "theorems": [
    "Elk.Props.C74_depkt",
    "Elk.Props.C74_pkt"
   ],
   "note": ""
  },
  {
   "property": "C75",
   "status": "proved",
   "theorems": [
    "Elk.Props.C75_msg"
   ],
   "note": "The crate arbitrary is modelled by what its primitives document: any bytes, any number of a range, any variant."
  },
  {
   "property": "C76",
   "status": "partial",
   "theorems": [
    "Elk.Props.C76_tried_partial",
    "Elk.Props.C76_others",
    "Elk.Props.C76_untried"
   ],
   "note": "False of the code: ArmCode::arbitrary shifts its first two bytes by 24 and 16 bits instead of 16 and 8, so only codes hi*65536+lo with lo<256 are tried (4096 of the million); 001234 never is (C76_untried). Exact for everything else."
  },
  {
   "property": "C77",
   "status": "proved",
   "theorems": [
    "Elk.Props.C77_sound",
    "Elk.Props.C77_complete",
    "Elk.Props.C77_map"
   ],
   "note": "JSON values, not text; structs given as sequences are not modelled."
  },
  {
   "property": "C78",
   "status": "proved",
   "theorems": [
    "Elk.Props.C78_main"
   ],
   "note": ""
  },
  {
   "property": "C79",
   "status": "proved",
   "theorems": [
    "Elk.Props.C79_online_running",
    "Elk.Props.C79_running_online",
    "Elk.Props.C79_gone"
   ],
   "note": "The broker is modelled as MQTT 3.1.1 describes retained messages and wills."
  },
  {
   "property": "C80",
   "status": "proved",
   "theorems": [
    "Elk.Props.C80_current_run"
   ],
   "note": ""
  },
  {
   "property": "C81",
   "status": "partial",
   "theorems": [
    "Elk.Props.C81_documents_partial",
    "Elk.Props.C81_left_behind"
   ],
   "note": "False of the code: documents of areas and zones removed from the configuration are never withdrawn, and point at a live availability topic (C81_left_behind). Proved for the configured ones."
  },
  {
   "property": "C82",
   "status": "partial",
   "theorems": [
    "Elk.Props.C82_invalid",
    "Elk.Props.C82_false",
    "Elk.Props.C82_understood_partial",
    "Elk.Props.C82_connect_hangs"
   ],
   "note": "False of the code (it has a TODO about it, pkt.rs:195-198): with the bit set every description is an invalid packet, and connect never completes if the panel has such a name. Proved for messages without the bit."
  },
  {
   "property": "C83",
   "status": "proved",
   "theorems": [
    "Elk.Props.C83_posted",
    "Elk.Props.C83_own_topics",
    "Elk.Props.C83_no_echo"
   ],
   "note": "In a model of the broker (Model/World.lean): it forwards what is posted to subscribed topics, the program's own messages included, and retained messages on subscribing."
  },
  {
   "property": "C84",
   "status": "partial",
   "theorems": [
    "Elk.Props.C84_once_partial",
    "Elk.Props.C84_fresh_partial",
    "Elk.Props.C84_false"
   ],
   "note": "False for a command posted to be retained: handle_publish does not look at publish.retain, so it is carried out again after every restart. Proved if no command is posted to be retained."
  },
  {
   "property": "C85",
   "status": "proved",
   "theorems": [
    "Elk.Props.C85_areas"
   ],
   "note": "Against a specification of Home Assistant's MQTT integration from its documentation (Spec/HomeAssistant.lean)."
  },
  {
   "property": "C86",
   "status": "partial",
   "theorems": [
    "Elk.Props.C86_never",
    "Elk.Props.C86_false",
    "Elk.Props.C86_by_hand_partial"
   ],
   "note": "False of the code: it publishes on/off/offline, the document names no payloads and Home Assistant's defaults are ON/OFF, so no zone state is ever understood. Proved for payloads on/off configured by hand (trouble is still not understood)."
  },
  {
   "property": "C87",
   "status": "partial",
   "theorems": [
    "Elk.Props.C87_actions_partial",
    "Elk.Props.C87_offered",
    "Elk.Props.C87_ignored",
    "Elk.Props.C87_false"
   ],
   "note": "False of the code for arm night and arm vacation, which are offered and ignored. Proved for disarm, arm home and arm away."
  },
  {
   "property": "C88",
   "status": "proved",
   "theorems": [
    "Elk.Props.C88_unanswered",
    "Elk.Props.C88_connecting",
    "Elk.Props.C88_bridge",
    "Elk.Props.C88_look_alikes",
    "Elk.Props.C88_no_overflow"
   ],
   "note": "Answered means: completed by a message that counts as a reply. C88_no_overflow: with a panel that confirms only commands it got, the panel never has more than 17 characters it has not taken. C88_look_alikes shows that the caveat of state.rs:30-33 is real: with unsolicited look-alikes of replies 260 characters are written to a panel that has answered nothing."
  },
  {
   "property": "C89",
   "status": "partial",
   "theorems": [
    "Elk.Props.C89_requests_partial",
    "Elk.Props.C89_never",
    "Elk.Props.C89_false"
   ],
   "note": "False of the code: ka is documented and never sent. Proved for the other requests."
  },
  {
   "property": "C90",
   "status": "proved",
   "theorems": [
    "Elk.Props.C90_end_to_end"
   ],
   "note": "Composition of C13, C10, C17, C45, C31, C35 and C49. The exception for fire alarm states is C48's."
  },
  {
   "property": "C91",
   "status": "partial",
   "theorems": [
    "Elk.Props.C91_recovers_partial",
    "Elk.Props.C91_lost_byte",
    "Elk.Props.C08_stalls_forever"
   ],
   "note": "False of the code: after the loss of any one byte after the length digits of any message, zone changes of zones below 100 are never understood again, however many follow (each is 14 bytes long and has C0 at offset 3, which the decoder takes for a packet of 196 = 14*14 bytes); and there are 1023 bytes after which nothing is. Proved for garbage without hex digits and escape bytes, and for a byte spoilt after the length digits."
  },
  {
   "property": "C92",
   "status": "partial",
   "theorems": [
    "Elk.Props.C90_end_to_end",
    "Elk.Props.C92_frozen",
    "Elk.Props.C92_deaf",
    "Elk.Props.C92_false"
   ],
   "note": "False of the code, following C91: the zone states at the broker stay as they are while the bridge is shown as available. C90 is what holds."
  },
  {
   "property": "C93",
   "status": "proved",
   "theorems": [
    "Elk.Props.C93_device"
   ],
   "note": ""
  },
  {
   "property": "C94",
   "status": "proved",
   "theorems": [
    "Elk.Props.C94_undisturbed",
    "Elk.Props.C94_default"
   ],
   "note": ""
  },
  {
   "property": "C95",
   "status": "proved",
   "theorems": [
    "Elk.Props.C95_writes"
   ],
   "note": ""
  },
  {
   "property": "C96",
   "status": "proved",
   "theorems": [
    "Elk.Props.C96_flush",
    "Elk.Props.C96_command"
   ],
   "note": ""
  },
  {
   "property": "C97",
   "status": "proved",
   "theorems": [
    "Elk.Props.C97_bounded",
    "Elk.Props.C97_ready"
   ],
   "note": "The boundary 8192 is tokio-util's, part of the trusted base."
  },
  {
   "property": "C98",
   "status": "proved",
   "theorems": [
    "Elk.Props.C98_received",
    "Elk.Props.C98_all"
   ],
   "note": ""
  },
  {
   "property": "C99",
   "status": "proved",
   "theorems": [
    "Elk.Props.C99_text",
    "Elk.Props.C99_message",
    "Elk.Props.C99_event",
    "Elk.Props.C99_reader",
    "Elk.Props.C99_bridge"
   ],
   "note": "serde_json's PrettyFormatter is modelled from its documentation."
  },
  {
   "property": "C100",
   "status": "partial",
   "theorems": [
    "Elk.Props.C100_noise",
    "Elk.Props.C100_programming",
    "Elk.Props.C100_false",
    "Elk.Props.C100_fits_partial"
   ],
   "note": "The claim is false of the code, with a concrete run of the bridge as witness; proved for all events but those of long packets that are not ASCII. The limit is rumqttc's default, part of the trusted base."
  },
  {
   "property": "C101",
   "status": "proved",
   "theorems": [
    "Elk.Props.C101_connects",
    "Elk.Props.C101_never_fails"
   ],
   "note": "The panel that answers is a specification (Spec/Site.lean), the documented behaviour; everything else is the model of the code."
  },
  {
   "property": "C102",
   "status": "proved",
   "theorems": [
    "Elk.Props.C102_true",
    "Elk.Props.C102_told",
    "Elk.Props.C102_one",
    "Elk.Props.C102_short"
   ],
   "note": ""
  },
  {
   "property": "C103",
   "status": "partial",
   "theorems": [
    "Elk.Props.C103_true_partial",
    "Elk.Props.C103_text",
    "Elk.Props.C103_false"
   ],
   "note": "Missing: texts (SD) with 5 to 20 bytes of data, for which the claim is false (C103_false)."
  },
  {
   "property": "C104",
   "status": "proved",
   "theorems": [
    "Elk.Props.C104_carried_out",
    "Elk.Props.C104_sample"
   ],
   "note": "Messages that ask for nothing are not posted: select! in the schedule counts as acting only if it starts with the inbox. Without the restriction to a quiet bridge the claim is false (C52_stuck_forever)."
  },
  {
   "property": "C105",
   "status": "proved",
   "theorems": [
    "Elk.Props.C105_message",
    "Elk.Props.C105_parsed",
    "Elk.Props.C105_event",
    "Elk.Props.C105_connecting",
    "Elk.Props.C105_forged"
   ],
   "note": "C105_forged: with values forged through Deserialize (C30) `{:?}` panics."
  },
  {
   "property": "C106",
   "status": "proved",
   "theorems": [
    "Elk.Props.C106_message",
    "Elk.Props.C106_packet",
    "Elk.Props.C106_event",
    "Elk.Props.C106_log"
   ],
   "note": ""
  },
  {
   "property": "C107",
   "status": "proved",
   "theorems": [
    "Elk.Props.C107_read"
   ],
   "note": ""
  },
  {
   "property": "C108",
   "status": "partial",
   "theorems": [
    "Elk.Props.C108_message_partial",
    "Elk.Props.C108_event_partial",
    "Elk.Props.C108_names_false"
   ],
   "note": "False of the code for RtcData (msg.rs:706-715), which has no rename_all: its fields appear as clock_display and date_display. Everything else is proved."
  },
  {
   "property": "C109",
   "status": "proved",
   "theorems": [
    "Elk.Props.C109_catches_up",
    "Elk.Props.C109_sample",
    "Elk.Props.C109_starved"
   ],
   "note": "C109_starved: without the pause it fails, since poll_next looks at the timer of a withheld report only when no packet is at hand (state.rs)."
  },
  {
   "property": "C110",
   "status": "proved",
   "theorems": [
    "Elk.Props.C110_from_power_on",
    "Elk.Props.C110_sample"
   ],
   "note": "Composition of C101, C38, C65, C104 and C109. A zone status report of the panel's own accord would end the bridge (C51), so it is excluded."
  },
  {
   "property": "C111",
   "status": "partial",
   "theorems": [
    "Elk.Props.C111_reached_partial",
    "Elk.Props.C111_false",
    "Elk.Props.C111_sample"
   ],
   "note": "False for a panel that says of its own accord what looks like a confirmation (the caveat of state.rs:30-33): the command is reported completed although it has not even left. Proved for panels that confirm only commands they got."
  },
  {
   "property": "C112",
   "status": "partial",
   "theorems": [
    "Elk.Props.C112_served_partial",
    "Elk.Props.C112_false",
    "Elk.Props.C112_sample"
   ],
   "note": "False for a panel that says of its own accord what looks like a confirmation: the command is reported completed, poll_flush then says Ok without flushing, and if nothing else is sent the panel never hears the command. Proved for panels that confirm only commands they got."
  },
  {
   "property": "C113",
   "status": "proved",
   "theorems": [
    "Elk.Props.C113_queue",
    "Elk.Props.C113_catches_up",
    "Elk.Props.C113_sample"
   ],
   "note": "Lifts C104 and C109 to the bounded queue. The queue itself (rumqttc's channel) and transmission are modelled as first in, first out; a failing MQTT connection is not modelled."
  },
  {
   "property": "C114",
   "status": "partial",
   "theorems": [
    "Elk.Props.C114_bounded_partial",
    "Elk.Props.C114_grows",
    "Elk.Props.C114_false"
   ],
   "note": "False: after C08's 1023 bytes everything that arrives is kept and nothing is ever returned, so that the peer decides how much memory is used. Proved for every history in which the buffer is not stuck in the sense of C08."
  },
  {
   "property": "C115",
   "status": "proved",
   "theorems": [
    "Elk.Props.C115_text",
    "Elk.Props.C115_unambiguous",
    "Elk.Props.C115_string",
    "Elk.Props.C115_starts",
    "Elk.Props.C115_setup",
    "Elk.Props.C115_sample"
   ],
   "note": "serde_json's reader is not in the repository; it is modelled in Model/JsonRead.lean as part of the trusted base. The grammar in Spec/JsonGrammar.lean is written as inductive predicates, independently of the reader."
  },
  {
   "property": "C116",
   "status": "proved",
   "theorems": [
    "Elk.Props.C116_value",
    "Elk.Props.C116_unique",
    "Elk.Props.C116_legible",
    "Elk.Props.C116_config",
    "Elk.Props.C116_broker"
   ],
   "note": "serde_json's printer and reader are modelled (Model/JsonText.lean, Model/JsonRead.lean); the grammar is in Spec/JsonGrammar.lean."
  },
  {
   "property": "C117",
   "status": "proved",
   "theorems": [
    "Elk.Props.C117_decode",
    "Elk.Props.C117_one",
    "Elk.Props.C117_tokens",
    "Elk.Props.C117_stream"
   ],
   "note": "Spec/Grammar.lean; the case `late` of `Waits` is the trap of C13."
  },
  {
   "property": "C118",
   "status": "proved",
   "theorems": [
    "Elk.Props.C118_parse",
    "Elk.Props.C118_unique",
    "Elk.Props.C118_error"
   ],
   "note": "Spec/Msg.lean (Written, Says); strengthens C20 to C22, which give only one direction for texts with a sign."
  },
  {
   "property": "C119",
   "status": "proved",
   "theorems": [
    "Elk.Props.C119_date",
    "Elk.Props.C119_one",
    "Elk.Props.C119_panics",
    "Elk.Props.C119_error",
    "Elk.Props.C119_prints"
   ],
   "note": "Spec/Iso.lean; sharpens C26, of which the panic and the year 2100 are the counterexamples."
  },
  {
   "property": "C120",
   "status": "proved",
   "theorems": [
    "Elk.Props.C120_equivalence",
    "Elk.Props.C120_wire",
    "Elk.Props.C120_made",
    "Elk.Props.C120_sequence",
    "Elk.Props.C120_reason",
    "Elk.Props.C120_ignored",
    "Elk.Props.C120_name"
   ],
   "note": "C120_made and C120_ignored show that the hypotheses and the exception are needed."
  },
  {
   "property": "C121",
   "status": "proved",
   "theorems": [
    "Elk.Props.C121_invalid",
    "Elk.Props.C121_rp"
   ],
   "note": "pretty-hex is part of the trusted base, as for C105 and C106."
  },
  {
   "property": "C122",
   "status": "proved",
   "theorems": [
    "Elk.Props.C122_follows",
    "Elk.Props.C122_packet",
    "Elk.Props.C122_waits"
   ],
   "note": "Spec/Machine.lean; the machine uses no function of the model, but Front and Waits (C117), Says (C118), Suspicious and Responds."
  },
  {
   "property": "C123",
   "status": "proved",
   "theorems": [
    "Elk.Props.C123_follows",
    "Elk.Props.C123_panics",
    "Elk.Props.C123_panics_iff",
    "Elk.Props.C123_packet",
    "Elk.Props.C123_breaks",
    "Elk.Props.C123_then"
   ],
   "note": "Spec/Greeting.lean; C39 has the counterexample to never panicking."
  },
  {
   "property": "C124",
   "status": "proved",
   "theorems": [
    "Elk.Props.C124_opens",
    "Elk.Props.C124_opens_one",
    "Elk.Props.C124_follows",
    "Elk.Props.C124_stops",
    "Elk.Props.C124_settled",
    "Elk.Props.C124_fatal"
   ],
   "note": "Spec/Desk.lean; a fire alarm is taken for no alarm, as in C48; HashMap order is that of the lists in the configuration, for every such order."
  },
  {
   "property": "C125",
   "status": "proved",
   "theorems": [
    "Elk.Props.C125_panel",
    "Elk.Props.C125_connect",
    "Elk.Props.C125_bridge",
    "Elk.Props.C125_watch"
   ],
   "note": "Model/Log.lean has every function that logs again, with what it logs; it is proved equal to the one without."
  },
  {
   "property": "C126",
   "status": "proved",
   "theorems": [
    "Elk.Props.C126_chronicle",
    "Elk.Props.C126_one"
   ],
   "note": "Spec/Log.lean."
  },
  {
   "property": "C127",
   "status": "proved",
   "theorems": [
    "Elk.Props.C127_trace",
    "Elk.Props.C127_determines"
   ],
   "note": "Uses that the text of {:?} determines a packet (C105)."
  },
  {
   "property": "C128",
   "status": "partial",
   "theorems": [
    "Elk.Props.C128_log_partial",
    "Elk.Props.C128_disclosed"
   ],
   "note": "Missing: events that report a completed request; of those the property is false."
  },
  {
   "property": "C129",
   "status": "proved",
   "theorems": [
    "Elk.Props.C129_minutes",
    "Elk.Props.C129_one"
   ],
   "note": "Spec/Minutes.lean; on top of the machine of C124. What a step that panics logs before it does is in C144."
  },
  {
   "property": "C130",
   "status": "proved",
   "theorems": [
    "Elk.Props.C130_tale",
    "Elk.Props.C130_one"
   ],
   "note": "Spec/Minutes.lean; on top of the machine of C123."
  },
  {
   "property": "C131",
   "status": "proved",
   "theorems": [
    "Elk.Props.C131_follows",
    "Elk.Props.C131_panics",
    "Elk.Props.C131_one",
    "Elk.Props.C131_info"
   ],
   "note": "Spec/Minutes.lean; that a report on all zones has no lines is C71's disagreement."
  },
  {
   "property": "C132",
   "status": "proved",
   "theorems": [
    "Elk.Props.C132_follows",
    "Elk.Props.C132_perishes",
    "Elk.Props.C132_settled",
    "Elk.Props.C132_fatal"
   ],
   "note": "Spec/Program.lean; the machines of C123 and C124 joined. Reading the configuration is C77, C78 and C115."
  },
  {
   "property": "C133",
   "status": "proved",
   "theorems": [
    "Elk.Props.C133_follows",
    "Elk.Props.C133_panics",
    "Elk.Props.C133_info",
    "Elk.Props.C133_settled"
   ],
   "note": "Spec/Watching.lean; the machines of C123/C130 and C131 joined. The parsing of the arguments (clap) is not modelled."
  },
  {
   "property": "C134",
   "status": "proved",
   "theorems": [
    "Elk.Props.C134_exact",
    "Elk.Props.C134_connect",
    "Elk.Props.C134_error_then_end",
    "Elk.Props.C134_frugal"
   ],
   "note": "Spec/Exact.lean. Wakers are left out (C42, C61); the texts of faults are C103."
  },
  {
   "property": "C135",
   "status": "proved",
   "theorems": [
    "Elk.Props.C135_follows",
    "Elk.Props.C135_erases",
    "Elk.Props.C135_proceeds",
    "Elk.Props.C135_info"
   ],
   "note": "Model/ProgLog.lean, Spec/ProgLog.lean. The trace of notifications of the MQTT client (main.rs:335) is not modelled."
  },
  {
   "property": "C136",
   "status": "proved",
   "theorems": [
    "Elk.Props.C136_exact",
    "Elk.Props.C136_traced",
    "Elk.Props.C136_panics"
   ],
   "note": "Spec/ExactGreeting.lean. Converse of C123, with the bytes of a failing poll left out, since the connection is dropped then."
  },
  {
   "property": "C137",
   "status": "proved",
   "theorems": [
    "Elk.Props.C137_text",
    "Elk.Props.C137_one",
    "Elk.Props.C137_faulty",
    "Elk.Props.C122_packet",
    "Elk.Props.C123_packet"
   ],
   "note": "Spec/Objection.lean. C122_packet and C123_packet now settle the whole event; C134_exact and C136_exact compare the texts of faults as well."
  },
  {
   "property": "C138",
   "status": "proved",
   "theorems": [
    "Elk.Props.C138_message",
    "Elk.Props.C138_unspelled",
    "Elk.Props.C138_event",
    "Elk.Props.C138_text",
    "Elk.Props.C138_topic",
    "Elk.Props.C124_settled",
    "Elk.Props.C132_settled"
   ],
   "note": "Spec/Document.lean. C124_settled and C132_settled now settle everything that is published, to the byte. serde_json's PrettyFormatter and the rules of serde's derive are part of the trusted base."
  },
  {
   "property": "C139",
   "status": "proved",
   "theorems": [
    "Elk.Props.C139_exact",
    "Elk.Props.C139_ends"
   ],
   "note": "Spec/ExactDesk.lean. The tasks woken are not compared. What a poll that panics read or wrote is not part of the history."
  },
  {
   "property": "C140",
   "status": "proved",
   "theorems": [
    "Elk.Props.C140_exact",
    "Elk.Props.C140_ends",
    "Elk.Props.C140_traced"
   ],
   "note": "Spec/ExactProgram.lean. C140_traced: the history's messages are those that C132's run publishes. What a poll that panics read, wrote or published is not part of the history."
  },
  {
   "property": "C141",
   "status": "proved",
   "theorems": [
    "Elk.Props.C141_exact",
    "Elk.Props.C141_ends",
    "Elk.Props.C141_traced"
   ],
   "note": "Spec/ExactWatching.lean. C141_traced: the history's log is that of C133's run. What a poll that panics read, wrote or logged is not part of the history."
  },
  {
   "property": "C142",
   "status": "proved",
   "theorems": [
    "Elk.Props.C142_follows",
    "Elk.Props.C142_exact",
    "Elk.Props.C142_one",
    "Elk.Props.C142_told"
   ],
   "note": "Spec/ExactWakes.lean. The task registered with the timer of a withheld report is not part of it (C61): time passing is not an operation."
  },
  {
   "property": "C143",
   "status": "proved",
   "theorems": [
    "Elk.Props.C143_plan",
    "Elk.Props.C143_start",
    "Elk.Props.C143_unannounced",
    "Elk.Props.C143_lost",
    "Elk.Props.C143_possible",
    "Elk.Props.C143_kept",
    "Elk.Props.C143_ends",
    "Elk.Props.C143_noAreas"
   ],
   "note": "Model/Starting.lean, Spec/Starting.lean. A transmitted request is one that the client took out of its queue of ten; the connection to the broker is assumed to work. C143_sample is the bridge that publishes the state of a zone and then fails."
  },
  {
   "property": "C144",
   "status": "proved",
   "theorems": [
    "Elk.Props.C144_words",
    "Elk.Props.C144_same",
    "Elk.Props.C144_perishes",
    "Elk.Props.C144_info",
    "Elk.Props.C144_alive",
    "Elk.Props.C144_postmortem",
    "Elk.Props.C144_autopsy",
    "Elk.Props.C144_watch",
    "Elk.Props.C144_watch_same",
    "Elk.Props.C144_blinds"
   ],
   "note": "Model/Said.lean has the program once more in a monad that keeps the log of a computation that panics; C144_same and C144_watch_same say that it is otherwise that of C133 and C135. Spec/LastWords.lean. What the panic hook prints on stderr is not modelled."
  },
  {
   "property": "C145",
   "status": "proved",
   "theorems": [
    "Elk.Props.C145_follows",
    "Elk.Props.C145_collapses",
    "Elk.Props.C145_fails",
    "Elk.Props.C145_messages",
    "Elk.Props.C145_mailed",
    "Elk.Props.C145_room",
    "Elk.Props.C145_annals",
    "Elk.Props.C145_notes"
   ],
   "note": "Model/Whole.lean, Spec/Whole.lean. Notifications other than messages are opaque. That neither side returns, so that tx.send does not fail, is by the form of the code (run_eventloop is -> !, inner ends in a loop without break)."
  },
  {
   "property": "C146",
   "status": "proved",
   "theorems": [
    "Elk.Props.C146_stuck",
    "Elk.Props.C146_site",
    "Elk.Props.C146_unnoticed",
    "Elk.Props.C146_jams",
    "Elk.Props.C146_chance"
   ],
   "note": "Spec/Stuck.lean. C146_chance is a concrete witness for the part about chance."
  },
  {
   "property": "C147",
   "status": "proved",
   "theorems": [
    "Elk.Props.C147_exact",
    "Elk.Props.C147_ends",
    "Elk.Props.C147_one",
    "Elk.Props.C147_traced"
   ],
   "note": "Spec/ExactWhole.lean. C147_exact is an equivalence, C147_ends is the one for panics; C147_traced says that the history records what Whole.runL gives."
  },
  {
   "property": "C148",
   "status": "proved",
   "theorems": [
    "Elk.Props.C148_time",
    "Elk.Props.C148_one",
    "Elk.Props.C148_order",
    "Elk.Props.C148_chronological",
    "Elk.Props.C148_put_back"
   ],
   "note": "Spec/Clock.lean is the calendar; the model of jiff (Model/Clock.lean) is from its documentation."
  },
  {
   "property": "C149",
   "status": "proved",
   "theorems": [
    "Elk.Props.C149_filter",
    "Elk.Props.C149_decided",
    "Elk.Props.C149_default",
    "Elk.Props.C149_louder",
    "Elk.Props.C149_hidden",
    "Elk.Props.C149_secret",
    "Elk.Props.C149_warn"
   ],
   "note": "Spec/EnvFilter.lean says which directive decides; the model of EnvFilter (Model/EnvFilter.lean) is from its documentation, and the environment is given as directives rather than as text."
  },
  {
   "property": "C150",
   "status": "proved",
   "theorems": [
    "Elk.Props.C150_args",
    "Elk.Props.C150_all",
    "Elk.Props.C150_main"
   ],
   "note": "Spec/Args.lean is the grammar of the command line; the model of clap (Model/Args.lean) is from its documentation."
  },
  {
   "property": "C151",
   "status": "proved",
   "theorems": [
    "Elk.Props.C151_read",
    "Elk.Props.C151_watch",
    "Elk.Props.C151_panel",
    "Elk.Props.C151_bridge",
    "Elk.Props.C151_broker"
   ],
   "note": "C151_broker is the witness that the four calls of the bridge are rightly excepted. Records hold the values given to tracing; what tracing-subscriber adds to a line is not modelled."
  },
  {
   "property": "C152",
   "status": "proved",
   "theorems": [
    "Elk.Props.C152_settled",
    "Elk.Props.C152_agree",
    "Elk.Props.C152_tally",
    "Elk.Props.C152_connecting",
    "Elk.Props.C152_one",
    "Elk.Props.C152_question",
    "Elk.Props.C152_over",
    "Elk.Props.C152_sooner"
   ],
   "note": "C152_sooner is the witness that the five seconds are needed."
  },
  {
   "property": "C153",
   "status": "proved",
   "theorems": [
    "Elk.Props.C153_retained",
    "Elk.Props.C153_events",
    "Elk.Props.C153_packets",
    "Elk.Props.C153_tally"
   ],
   "note": ""
  },
  {
   "property": "C154",
   "status": "proved",
   "theorems": [
    "Elk.Props.C154_connecting",
    "Elk.Props.C154_session",
    "Elk.Props.C154_all",
    "Elk.Props.C154_bridge"
   ],
   "note": ""
  },
  {
   "property": "C155",
   "status": "proved",
   "theorems": [
    "Elk.Props.C155_zones",
    "Elk.Props.C155_prefix",
    "Elk.Props.C155_lag",
    "Elk.Props.C155_published",
    "Elk.Props.C155_areas"
   ],
   "note": ""
  },
  {
   "property": "C156",
   "status": "proved",
   "theorems": [
    "Elk.Props.C156_unprompted",
    "Elk.Props.C156_packets",
    "Elk.Props.C156_events",
    "Elk.Props.C156_published"
   ],
   "note": ""
  },
  {
   "property": "C157",
   "status": "proved",
   "theorems": [
    "Elk.Props.C157_events",
    "Elk.Props.C157_prefix",
    "Elk.Props.C157_prompt",
    "Elk.Props.C157_lag",
    "Elk.Props.C157_published"
   ],
   "note": ""
  },
  {
   "property": "C158",
   "status": "proved",
   "theorems": [
    "Elk.Props.C158_exact",
    "Elk.Props.C158_prefix",
    "Elk.Props.C158_zones",
    "Elk.Props.C158_calm_prefix",
    "Elk.Props.C158_calm",
    "Elk.Props.C158_log",
    "Elk.Props.C158_areas"
   ],
   "note": ""
  },
  {
   "property": "C159",
   "status": "proved",
   "theorems": [
    "Elk.Props.C159_exists",
    "Elk.Props.C159_one",
    "Elk.Props.C159_agree",
    "Elk.Props.C159_settled",
    "Elk.Props.C159_retained",
    "Elk.Props.C159_zones",
    "Elk.Props.C159_published",
    "Elk.Props.C159_lines",
    "Elk.Props.C159_calm",
    "Elk.Props.C159_changes",
    "Elk.Props.C159_states",
    "Elk.Props.C159_logged"
   ],
   "note": ""
  },
  {
   "property": "C160",
   "status": "proved",
   "theorems": [
    "Elk.Props.C160_grows",
    "Elk.Props.C160_joined",
    "Elk.Props.C160_output",
    "Elk.Props.C160_all",
    "Elk.Props.C160_cut",
    "Elk.Props.C160_hides"
   ],
   "note": ""
  },
  {
   "property": "C161",
   "status": "proved",
   "theorems": [
    "Elk.Props.C161_writes",
    "Elk.Props.C161_hears",
    "Elk.Props.C161_again",
    "Elk.Props.C161_normal",
    "Elk.Props.C161_grows",
    "Elk.Props.C161_gist",
    "Elk.Props.C161_shown",
    "Elk.Props.C161_zones",
    "Elk.Props.C161_retained",
    "Elk.Props.C161_lines"
   ],
   "note": ""
  },
  {
   "property": "C162",
   "status": "proved",
   "theorems": [
    "Elk.Props.C162_areas",
    "Elk.Props.C162_zones",
    "Elk.Props.C162_same_areas",
    "Elk.Props.C162_same_zones",
    "Elk.Props.C162_topics"
   ],
   "note": "The text for an area in fire alarm is that of C48_fire_unseen."
  },
  {
   "property": "C163",
   "status": "proved",
   "theorems": [
    "Elk.Props.C163_told",
    "Elk.Props.C163_apart",
    "Elk.Props.C163_repeats",
    "Elk.Props.C163_topic",
    "Elk.Props.C163_topics_apart"
   ],
   "note": "Zones are counted from 0 in Fin 208; zone i of the code is i + 1."
  },
  {
   "property": "C164",
   "status": "partial",
   "theorems": [
    "Elk.Props.C164_influenced",
    "Elk.Props.C164_settled_partial",
    "Elk.Props.C164_topic_partial",
    "Elk.Props.C164_apart_partial"
   ],
   "note": "False of the code: a report is withheld as a whole because of one area, so a burglar alarm in the second area may not be shown because of what is said on the first (C164_influenced). Proved instead: in the end (settled sessions) each area shows the last word on it; and if no report is suspicious, all that a bridge publishes on the topic of an area, apart from repetitions, is the text for its status when connected and then the texts for the words on it."
  },
  {
   "property": "C165",
   "status": "proved",
   "theorems": [
    "Elk.Props.C165_asks",
    "Elk.Props.C165_starts",
    "Elk.Props.C165_area",
    "Elk.Props.C165_zone",
    "Elk.Props.C165_retained",
    "Elk.Props.C165_names_needed"
   ],
   "note": "Names of areas, and of zones, are distinct; otherwise two entries share a topic and the order does matter (C165_names_needed)."
  },
  {
   "property": "C166",
   "status": "proved",
   "theorems": [
    "Elk.Props.C166_last_words",
    "Elk.Props.C166_nothing_left",
    "Elk.Props.C166_restart"
   ],
   "note": "Names of areas, and of zones, are distinct. Messages reach the broker in order, and the will before those of the next run. For a changed configuration see C81."
  }
 ]
}
