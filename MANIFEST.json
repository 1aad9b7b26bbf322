{
 "claims": [
  {
   "property": "C01",
   "status": "proved",
   "theorems": [
    "Verif.Modulo.undefined_iff",
    "Verif.Modulo.trichotomy",
    "Verif.Modulo.derived",
    "Verif.Modulo.shift_invariant",
    "Verif.Modulo.agrees_with_counters"
   ],
   "note": "All moduli; TypeError is the value none."
  },
  {
   "property": "C02",
   "status": "proved",
   "theorems": [
    "Verif.Modulo.arithmetic_tracks",
    "Verif.Modulo.new_iff"
   ],
   "note": ""
  },
  {
   "property": "C03",
   "status": "proved",
   "theorems": [
    "Verif.Timers.expires_exactly",
    "Verif.Timers.start_refused",
    "Verif.Timers.negative_timeout_accepted"
   ],
   "note": "Time counted in ticks. negative_timeout_accepted is a finding about negative timeouts, outside the range of the claim."
  },
  {
   "property": "C04",
   "status": "proved",
   "theorems": [
    "Verif.Timers.delivered_fresh",
    "Verif.Timers.expired_needs_start",
    "Verif.Timers.dropped_only_if_restarted"
   ],
   "note": "All interleavings of the caller, timer and node threads at lock granularity."
  },
  {
   "property": "C05",
   "status": "proved",
   "theorems": [
    "Verif.Fields.image_roundtrip",
    "Verif.Fields.image_decode",
    "Verif.Fields.ascii_roundtrip"
   ],
   "note": ""
  },
  {
   "property": "C06",
   "status": "proved",
   "theorems": [
    "Verif.Fields.unsigned_roundtrip",
    "Verif.Fields.unsigned_decode",
    "Verif.Fields.signed_roundtrip",
    "Verif.Fields.counter_saturates"
   ],
   "note": "Counters reject negative values with OverflowError."
  },
  {
   "property": "C07",
   "status": "proved",
   "theorems": [
    "Verif.Fields.bitmap_roundtrip"
   ],
   "note": "Needs pairwise disjoint bit ranges, which the layout compiler does not check."
  },
  {
   "property": "C08",
   "status": "proved",
   "theorems": [
    "Verif.Fields.extensible_roundtrip",
    "Verif.Fields.extensible_decode",
    "Verif.Fields.extensible_negative_never_ends"
   ],
   "note": "Finding: encoding a negative value never terminates (third theorem)."
  },
  {
   "property": "C09",
   "status": "proved",
   "theorems": [
    "Verif.Fields.tlv_roundtrip",
    "Verif.Fields.tlv_exact",
    "Verif.Fields.tlv_item_exact",
    "Verif.Fields.wild_items_not_forwarded"
   ],
   "note": "Finding: unknown items of an open group are dropped when the packet is encoded again (last theorem)."
  },
  {
   "property": "C10",
   "status": "proved",
   "theorems": [
    "Verif.Crc.crc_is_remainder",
    "Verif.Crc.crc_incremental",
    "Verif.Crc.update_bits_is_remainder"
   ],
   "note": "Any width >= 1, generator, initial and final value that fit the width, both bit orders; polynomial remainder over ZMod 2 from Mathlib."
  },
  {
   "property": "C100",
   "status": "partial",
   "theorems": [
    "Verif.Nft.commands_done",
    "Verif.Nft.name_kept",
    "Verif.Nft.target_inside",
    "Verif.Nft.copy_prefix",
    "Verif.Nft.copy_exact_iff",
    "Verif.Nft.copy_differs",
    "Verif.Nft.plain_copy_hangs",
    "Verif.Nft.missing_copy_hangs",
    "Verif.Nft.late_by_one",
    "Verif.Nft.blank_answer",
    "Verif.Nft.lost_spins",
    "Verif.Nft.server_chooses_path",
    "Verif.Nft.long_names_collide"
   ],
   "note": "Proved in full for listings of what is there and for copies by wild cards, except that copies are filled up with zeros to a multiple of 512 bytes (copy_exact_iff, copy_differs). False of the code: a copy by full name never ends (plain_copy_hangs), nor does one of a missing file (missing_copy_hangs); after a listing that failed each listing shows the answer to the one before (late_by_one); an empty line at the prompt fails and spoils the next command (blank_answer); a connection lost in a transfer makes the program loop (lost_spins); the listener chooses where the copy goes (server_chooses_path). Left out: the type command, dates, failures of open."
  },
  {
   "property": "C101",
   "status": "partial",
   "theorems": [
    "Verif.NiceRead.plural_answer",
    "Verif.NiceRead.plural_executor",
    "Verif.NiceRead.plural_name",
    "Verif.NiceRead.plural_links",
    "Verif.NiceRead.plural_delay",
    "Verif.NiceRead.plural_state_exec",
    "Verif.NiceRead.plural_reachable",
    "Verif.NiceRead.plural_unreachable",
    "Verif.NiceRead.plural_stateless",
    "Verif.NiceRead.plural_neighbour",
    "Verif.NiceRead.plural_type",
    "Verif.NiceRead.loop_nodes_merge"
   ],
   "note": "Proved for all requests of these kinds. False of the code where loop nodes are concerned: all have the same key, so that there is at most one record for all of them (loop_nodes_merge); nothing is said of the state of nodes outside the own area (plural_stateless). Characteristics and counters are modelled without theorems."
  },
  {
   "property": "C102",
   "status": "partial",
   "theorems": [
    "Verif.NiceRead.single_reachable",
    "Verif.NiceRead.single_unreachable",
    "Verif.NiceRead.single_exec",
    "Verif.NiceRead.single_endnode",
    "Verif.NiceRead.single_unknown",
    "Verif.NiceRead.single_bad_address",
    "Verif.NiceRead.single_beyond",
    "Verif.NiceRead.single_phase2",
    "Verif.NiceRead.single_loop"
   ],
   "note": "False of the code: an address with node number zero (single_bad_address), a node beyond the size of the tables (single_beyond) and every request to a Phase II node (single_phase2) raise an exception, which ends the connection; a loop node is shown as unreachable and without its circuit (single_loop)."
  },
  {
   "property": "C103",
   "status": "partial",
   "theorems": [
    "Verif.NiceRead.area_single",
    "Verif.NiceRead.area_plural_partial",
    "Verif.NiceRead.last_area_missing",
    "Verif.NiceRead.area_other",
    "Verif.NiceRead.lan_circuit",
    "Verif.NiceRead.ptp_circuit",
    "Verif.NiceRead.ptp_characteristics",
    "Verif.NiceRead.all_circuits",
    "Verif.NiceRead.qualifier_raises",
    "Verif.NiceRead.zero_raises"
   ],
   "note": "False of the code: the last area is missing from the list (last_area_missing); a neighbour as qualifier raises an exception if there is a point to point circuit (qualifier_raises); every request to zero counters raises one (zero_raises)."
  },
  {
   "property": "C104",
   "status": "partial",
   "theorems": [
    "Verif.Ncp.keyword_found",
    "Verif.Ncp.case_ignored",
    "Verif.Ncp.abbreviation_iff",
    "Verif.Ncp.alike_lost",
    "Verif.Ncp.short_not_found",
    "Verif.Ncp.taken_away",
    "Verif.Ncp.words_match",
    "Verif.Ncp.setdefault_raises"
   ],
   "note": "False of the code for keywords that share their first three letters: the later one replaces the earlier (alike_lost); keyword_found says exactly what is found after any history. setdefault always raises. The other comparison, of EXIT and EXECUTOR NODE, accepts any beginning, even of one letter (words_match). ASCII letters."
  },
  {
   "property": "C105",
   "status": "partial",
   "theorems": [
    "Verif.Ncp.show_sound",
    "Verif.Ncp.show_one_meaning",
    "Verif.Ncp.show_complete",
    "Verif.Ncp.show_heard",
    "Verif.Ncp.show_to_listener",
    "Verif.Ncp.loop_sound",
    "Verif.Ncp.loop_complete",
    "Verif.Ncp.loop_heard",
    "Verif.Ncp.loop_node_no_access"
   ],
   "note": "False of the code in one point: user, password and account of LOOP NODE are accepted and never sent (loop_node_no_access). The rest is proved for Phase III and IV requests; entities of other operating systems and Phase II requests are not modelled. Tokens are not empty by token_not_empty of C106."
  },
  {
   "property": "C106",
   "status": "partial",
   "theorems": [
    "Verif.Ncp.session_faithful",
    "Verif.Ncp.session_own_answers",
    "Verif.Ncp.line_tokens",
    "Verif.Ncp.token_shape",
    "Verif.Ncp.token_not_empty",
    "Verif.Ncp.line_ends",
    "Verif.Ncp.nothing_shown_again",
    "Verif.Ncp.nothing_done_again",
    "Verif.Ncp.answers_late",
    "Verif.Ncp.tell_not_restored"
   ],
   "note": "Proved for all sessions whose nodes keep to the rules (accept or refuse, answer with one reply or a list of replies without errors, stay connected). False of the code otherwise: after an error inside a list every answer is displayed one request late (answers_late), and if the local node is then asked nothing is ever displayed again (nothing_shown_again); after the executor takes the connection down no line but TELL does anything (nothing_done_again), and if it happens during a TELL the old executor is lost (tell_not_restored). An unknown first word or a line of spaces ends the program (line_ends)."
  },
  {
   "property": "C107",
   "status": "partial",
   "theorems": [
    "Verif.NspDelay.estimate_exact",
    "Verif.NspDelay.estimate_bounds",
    "Verif.NspDelay.timeout_bounds",
    "Verif.NspDelay.factor_unchecked",
    "Verif.NspDelay.estimate_between",
    "Verif.NspDelay.converges",
    "Verif.NspDelay.no_early_timeout",
    "Verif.NspDelay.slow_path_always_early",
    "Verif.NspDelay.measured_from_first"
   ],
   "note": "False of the code in three points: the factor is not checked, and from 3601 on nothing can be sent to a node once there is a measurement (factor_unchecked); a message that was sent again is measured from its first transmission, and closing the connection counts as acknowledgment (measured_from_first); the estimate is cut at five seconds, so on a path with a round trip above five times the factor every message is sent again (slow_path_always_early). The rest is proved of all histories; times are exact, not floating point, and the clock is never zero."
  },
  {
   "property": "C108",
   "status": "partial",
   "theorems": [
    "Verif.EvMsg.event_roundtrip",
    "Verif.EvMsg.unfit_refused",
    "Verif.EvMsg.event_injective",
    "Verif.EvMsg.line_taken_as_circuit",
    "Verif.EvMsg.event_errors",
    "Verif.EvMsg.stray_bytes",
    "Verif.EvMsg.unknown_number_loses",
    "Verif.EvMsg.time_exact",
    "Verif.EvMsg.time_fits",
    "Verif.EvMsg.time_order",
    "Verif.EvMsg.records_unique",
    "Verif.EvMsg.record_faithful",
    "Verif.EvMsg.received_storable",
    "Verif.EvMsg.listen_goes_on",
    "Verif.EvMsg.listener_delivers",
    "Verif.EvMsg.listener_ended"
   ],
   "note": "Proved for every event with the entity that goes with its class and number, and every class that is not known. False of the code: routing events above 4.19 and data link events above 5.18 are read without entity and data (unknown_number_loses); one or two bytes too many, a multiple value within another, or, with a file, an entity where there should be none end the connection (listener_ended, listen_goes_on); after September 2066 events cannot be sent (time_fits). Data items are a list (one attribute for each number in the code); conversions between nodes, areas and names are not modelled."
  },
  {
   "property": "C109",
   "status": "partial",
   "theorems": [
    "Verif.EthPort.delivered_iff",
    "Verif.EthPort.holder_forever",
    "Verif.EthPort.create_iff",
    "Verif.EthPort.addProto_iff",
    "Verif.EthPort.refused_nothing",
    "Verif.EthPort.remove_fails",
    "Verif.EthPort.line_counter"
   ],
   "note": "False of the code in one point: a type or access point cannot be given back; the call always fails, the port keeps getting the frames, and cannot ask for the type again (remove_fails). The rest is proved for all histories."
  },
  {
   "property": "C11",
   "status": "proved",
   "theorems": [
    "Verif.Crc.class_confirmed",
    "Verif.Crc.crc_bits_good",
    "Verif.Crc.crc_bytes_good",
    "Verif.Crc.burst_changes_crc",
    "Verif.Crc.burst_detected",
    "Verif.Crc.crc16_good",
    "Verif.Crc.crc16_good_iff",
    "Verif.Crc.crc16_only_good"
   ],
   "note": "Burst detection needs the generator to have a constant term, as CRC16's has."
  },
  {
   "property": "C110",
   "status": "proved",
   "theorems": [
    "Verif.EthPort.filter_sound",
    "Verif.EthPort.filter_transparent",
    "Verif.EthPort.filter_tight"
   ],
   "note": "For every meaning libpcap may give to a type number of at most 1500. Frames to the null address are left out. The text of the filter is modelled as its structure; byte 14 is tested whatever the type field says, as a comment in the code notes."
  },
  {
   "property": "C111",
   "status": "partial",
   "theorems": [
    "Verif.EthPort.bridge_delivers_partial",
    "Verif.EthPort.bridge_stopped"
   ],
   "note": "False of the code: a datagram of at most 4 bytes from any host ends the receive thread, as do frames of the peer below 16 bytes (bridge_stopped). Without such datagrams it is proved."
  },
  {
   "property": "C112",
   "status": "proved",
   "theorems": [
    "Verif.Mapper.polled_once",
    "Verif.Mapper.at_most_twenty",
    "Verif.Mapper.scan_complete",
    "Verif.Mapper.never_stuck"
   ],
   "note": "For all histories in which Session Control gives a poller no item after it has reported (two_reports shows when it does) and ends an attempt to connect by an accept or a reject. Empty entries that are made for neighbours reported earlier, at the end of the scan, are not polled in it. A node that keeps sending records keeps the scan from ending: never_stuck says that something will happen, not that the scan ends."
  },
  {
   "property": "C113",
   "status": "partial",
   "theorems": [
    "Verif.Mapper.scan_result",
    "Verif.Mapper.full_scan_deaf",
    "Verif.Mapper.event_lost",
    "Verif.Mapper.event_not_polled",
    "Verif.Mapper.same_second_scan"
   ],
   "note": "The first part is proved for all histories in which the mapper's timer expires at a later second than all events before (same_second_scan shows the need). False of the code: events that arrive during a full scan are dropped (full_scan_deaf, event_lost), and those that arrive in an incremental scan for a node that has been polled do not lead to another poll (event_not_polled)."
  },
  {
   "property": "C114",
   "status": "partial",
   "theorems": [
    "Verif.Mapper.item_shows",
    "Verif.Mapper.down_shown",
    "Verif.Mapper.same_second_down",
    "Verif.Mapper.stale_stamp_down"
   ],
   "note": "Proved for reports at rising times. A report that a node is down in the second in which it came up is lost later on (same_second_down), and a poll has the time stamp of its scan, which may be older than an event (stale_stamp_down)."
  },
  {
   "property": "C115",
   "status": "partial",
   "theorems": [
    "Verif.Mapper.incomplete_nothing",
    "Verif.Mapper.reached",
    "Verif.Mapper.circuits_recorded",
    "Verif.Mapper.hung",
    "Verif.Mapper.two_reports"
   ],
   "note": "False of the code in one point: an error reply together with a disconnect makes two reports (two_reports). After an empty message or a second header nothing is heard of the node until the timer expires (hung)."
  },
  {
   "property": "C116",
   "status": "partial",
   "theorems": [
    "Verif.Mapper.dbupdate_others_partial",
    "Verif.Mapper.dbupdate_takes",
    "Verif.Mapper.dbupdate_wipes",
    "Verif.Mapper.dbupdate_removes"
   ],
   "note": "False of the code: the record of a node that is in the map takes away its history and its circuits (dbupdate_wipes). Other nodes are left alone, but for one with the name of the record, which is removed (dbupdate_removes)."
  },
  {
   "property": "C117",
   "status": "partial",
   "theorems": [
    "Verif.Mapper.load_save",
    "Verif.Mapper.save_load",
    "Verif.Mapper.save_crash_partial",
    "Verif.Mapper.save_crash_loses"
   ],
   "note": "False of the code: a crash between the two renames leaves no current file; the mapper starts with nothing, and after two saves the old data are gone (save_crash_loses). At all other points the claim is proved. The text of JSON is not modelled, and operations on the disk are taken to happen in order."
  },
  {
   "property": "C118",
   "status": "partial",
   "theorems": [
    "Verif.Mapper.dbreply_partial",
    "Verif.Mapper.leftover",
    "Verif.Mapper.no_location_stops"
   ],
   "note": "False of the code: an entry after a scrapped one takes over what was not sent for it (leftover), and an entry without location ends the update, this time and every time after (no_location_stops). Proved if entries that follow a scrapped one are complete and all have a location."
  },
  {
   "property": "C119",
   "status": "partial",
   "theorems": [
    "Verif.MopId.sysid_roundtrip",
    "Verif.MopId.request_id_bytes",
    "Verif.MopId.request_counters_bytes",
    "Verif.MopId.ident_read",
    "Verif.MopId.id_answered",
    "Verif.MopId.id_periodic",
    "Verif.MopId.counters_answered",
    "Verif.MopId.frame_raises_iff",
    "Verif.MopId.clock_back_stops"
   ],
   "note": "Proved for every state and message. False of the code in one point: a request for counters while the clock shows less than the time at which they were zeroed (set back, or end of summer time) stops the node (clock_back_stops); frame_raises_iff says that no other message does. An attribute for the time can be read, but not sent. Exceptions of a console server whose terminal failed are in C72."
  },
  {
   "property": "C12",
   "status": "proved",
   "theorems": [
    "Verif.Addr.address_forms",
    "Verif.Addr.phase3_forms",
    "Verif.Addr.accepted_in_range",
    "Verif.Addr.forms_injective",
    "Verif.Addr.mac_text_roundtrip",
    "Verif.Addr.unchecked_values",
    "Verif.Addr.mac_from_node_text_rejected"
   ],
   "note": "Findings: integers out of range are accepted by Nodeid (unchecked_values); Macaddr never accepts area.node text (mac_from_node_text_rejected)."
  },
  {
   "property": "C120",
   "status": "partial",
   "theorems": [
    "Verif.MopId.heard_last",
    "Verif.MopId.time_read",
    "Verif.MopId.list_partial",
    "Verif.MopId.one_breaks_all",
    "Verif.MopId.zone_right_iff"
   ],
   "note": "The table is right for every history. False of the code: one message of any station without list of functions, or with a time that does not exist, takes the whole list away (one_breaks_all). Time zones west of Greenwich with half hours are shown wrong by an hour (zone_right_iff). Pages for a browser are not modelled."
  },
  {
   "property": "C121",
   "status": "partial",
   "theorems": [
    "Verif.MopId.never_connects",
    "Verif.MopId.connect_stops"
   ],
   "note": "False of the code: the first request to connect never gets sent, no connection gets further, and the node stops when its timer expires, in every history (connect_stops)."
  },
  {
   "property": "C122",
   "status": "partial",
   "theorems": [
    "Verif.Http.file_inside",
    "Verif.Http.file_served_partial",
    "Verif.Http.public_index",
    "Verif.Http.link_hides",
    "Verif.Http.link_renames",
    "Verif.Http.relative_taken"
   ],
   "note": "That nothing outside is sent is proved for all requests and file systems (by name: links inside the directory are followed). False of the code: the path of the request is looked up in the file system of the host, so that a link there hides files (link_hides) or gives them other names (link_renames), and a path without slash is taken from the current directory (relative_taken). Addresses are taken apart by the Python library, which is not modelled."
  },
  {
   "property": "C123",
   "status": "partial",
   "theorems": [
    "Verif.Http.system_page",
    "Verif.Http.system_page_mobile",
    "Verif.Http.system_unknown",
    "Verif.Http.wanted_system",
    "Verif.Http.error_codes",
    "Verif.Http.query_without_system",
    "Verif.Http.foreign_refused",
    "Verif.Http.field_iff",
    "Verif.Http.blank_name",
    "Verif.Http.root_page",
    "Verif.Http.map_page",
    "Verif.Http.own_traceback_partial",
    "Verif.Http.other_traceback"
   ],
   "note": "Pages are proved for all requests without links or null characters. False of the code: with several systems a query that names none raises an exception, even for files (query_without_system); of two requests that fail together one can be sent the traceback of the other (other_traceback)."
  },
  {
   "property": "C124",
   "status": "partial",
   "theorems": [
    "Verif.Topol.split_pieces",
    "Verif.Topol.names_right",
    "Verif.Topol.reply_partial",
    "Verif.Topol.reads_none",
    "Verif.Topol.aborts_iff"
   ],
   "note": "Which names, and their encoding, is proved for all. False of the code: the count in the reply is always 0, so that a client that follows the protocol description reads no name at all (reads_none); one name above six characters or outside latin-1 aborts the connection of every client (aborts_iff); more than 50 names are cut."
  },
  {
   "property": "C125",
   "status": "partial",
   "theorems": [
    "Verif.Html.nested",
    "Verif.Html.mop_page",
    "Verif.Html.not_escaped",
    "Verif.Html.page_unclosed"
   ],
   "note": "Proved for all layouts when the texts have no markup. False of the code: texts are not escaped, so that a station on the LAN puts elements of its choice into the page (not_escaped); and every page leaves one element open (page_unclosed). Of the pages, that of the MOP stations is modelled as a whole; of the others the parts they are built of."
  },
  {
   "property": "C126",
   "status": "partial",
   "theorems": [
    "Verif.ConfFile.scan_iff_partial",
    "Verif.ConfFile.starts_iff_partial",
    "Verif.ConfFile.circle_crashes",
    "Verif.ConfFile.repeated_taken",
    "Verif.ConfFile.blank_name"
   ],
   "note": "Both equivalences are for all files, any nesting, any parser of entries. Missing: names of included files with white space, which the code takes in one form of include and not in the other (blank_name). False of the code: files in a circle end by an exception (circle_crashes); a component that may not be repeated is replaced silently (repeated_taken)."
  },
  {
   "property": "C127",
   "status": "partial",
   "theorems": [
    "Verif.ConfFile.again_partial",
    "Verif.ConfFile.default_conflicts"
   ],
   "note": "Proved for switches without default, entries of any number. False of the code for switches with a default (default_conflicts)."
  },
  {
   "property": "C128",
   "status": "partial",
   "theorems": [
    "Verif.Log.memory_order",
    "Verif.Log.memory_history",
    "Verif.Log.memory_all",
    "Verif.Log.bypass_drops",
    "Verif.Log.bypass_span",
    "Verif.Log.threads_once",
    "Verif.Log.threads_disorder"
   ],
   "note": "Proved for all histories of one thread, and that nothing is written twice for all schedules. False of the code: threads that flush at the same time can write in the wrong order (threads_disorder); the end of the program, also that by an exception, throws the history away before it logs why (bypass_drops)."
  },
  {
   "property": "C129",
   "status": "partial",
   "theorems": [
    "Verif.Log.dump_reads",
    "Verif.Log.dump_offset",
    "Verif.Log.dump_text",
    "Verif.Log.event_shown_partial",
    "Verif.Log.event_lost"
   ],
   "note": "The dump is proved for all packets. False of the code: the text of an event goes through format, so that an event with a single brace in its text, also one sent by another node, is not written at all (event_lost)."
  },
  {
   "property": "C13",
   "status": "proved",
   "theorems": [
    "Verif.RoutPkt.short_roundtrip",
    "Verif.RoutPkt.long_roundtrip",
    "Verif.RoutPkt.first_byte_decides"
   ],
   "note": "Addresses whose node number is 0 cannot be decoded and are excluded."
  },
  {
   "property": "C130",
   "status": "partial",
   "theorems": [
    "Verif.Configr.status_lists_partial",
    "Verif.Configr.raises_iff",
    "Verif.Configr.unknown",
    "Verif.Configr.software_ignored",
    "Verif.Configr.parse_sized",
    "Verif.Configr.heard_good",
    "Verif.Configr.cut_short"
   ],
   "note": "What is decoded from the answer is proved for all tables that can arise (heard_good). False of the code: the software of a station is never sent, because the handler sets an attribute of another name than the table of parameters has (software_ignored); and if the clock was set back behind the start of a circuit, or 65536 hours after it, the answer breaks off with an exception and the connection is aborted (raises_iff)."
  },
  {
   "property": "C131",
   "status": "partial",
   "theorems": [
    "Verif.Boot.plan_iff",
    "Verif.Boot.portless_order"
   ],
   "note": "Which files start what is proved for all lists of files. False of the code in one point: a monitor without port is passed over if it comes before one with a port, and is an error after it (portless_order)."
  },
  {
   "property": "C132",
   "status": "partial",
   "theorems": [
    "Verif.Boot.stops_in_order",
    "Verif.Boot.all_stopped_iff",
    "Verif.Boot.all_started",
    "Verif.Boot.early_nothing",
    "Verif.Boot.unbound_nothing",
    "Verif.Boot.refused_iff",
    "Verif.Boot.once_only",
    "Verif.Boot.start_order",
    "Verif.Boot.api_last",
    "Verif.Boot.quiet_iff",
    "Verif.Boot.refused_in_turn"
   ],
   "note": "Order and number of the stops are proved for all runs. False of the code: a signal while systems are started leaves all of them as they are (early_nothing), as does an API whose socket could not be made (unbound_nothing) and a second signal during the end; all_stopped_iff says exactly when all is stopped. The function that should remove the socket at exit always fails, so that on Linux, where closing a socket does not end accept, the program does not start again until the file is removed by hand (refused_iff, once_only). A node whose main loop ended by an exception has been stopped already, by its own thread, and is stopped again; that thread is not modelled."
  },
  {
   "property": "C133",
   "status": "partial",
   "theorems": [
    "Verif.Lines.one_line",
    "Verif.Lines.no_line",
    "Verif.Lines.known_lines",
    "Verif.Lines.refused",
    "Verif.Lines.line_read",
    "Verif.Lines.combine_total",
    "Verif.Lines.traffic_counted",
    "Verif.Lines.sap_uncounted"
   ],
   "note": "Proved for all lines and requests, with what a client decodes. False of the code in one point: the counters of a LAN leave out ports that have a SAP and no protocol type (sap_uncounted); no part of this package makes such a port at present."
  },
  {
   "property": "C134",
   "status": "partial",
   "theorems": [
    "Verif.Lines.P2.parse_iff",
    "Verif.Lines.P2.own_line_partial",
    "Verif.Lines.P2.shadowed",
    "Verif.Lines.P2.known_unnamed",
    "Verif.Lines.P2.unknown_aborts",
    "Verif.Lines.P2.read_mislabelled",
    "Verif.Lines.P2.shown_back_partial",
    "Verif.Lines.P2.dl_confused",
    "Verif.Lines.P2.device_name",
    "Verif.Lines.P2.other_name",
    "Verif.Lines.P2.last_wins"
   ],
   "note": "own_line_partial needs at most 256 lines, no two names for the same device, none of them DTE-0. False of the code: without that two lines share an identification (shadowed); records of all lines do not say which line they are about (known_unnamed); a line that does not exist aborts the connection (unknown_aborts); local reply timeouts are read as selection errors, since the layout has number 6 twice (read_mislabelled); two devices have the name DL (dl_confused)."
  },
  {
   "property": "C135",
   "status": "partial",
   "theorems": [
    "Verif.NiceRead.counters_plural",
    "Verif.NiceRead.characteristics_plural",
    "Verif.NiceRead.counters_single",
    "Verif.NiceRead.characteristics_single",
    "Verif.NiceRead.loop_by_name"
   ],
   "note": "Proved for all node databases and requests; the characteristics of a layer are one flag each. False of the code: a loop node asked for by name is shown without circuit and with counters of zero (loop_by_name), and all loop nodes share one record. Characteristics of Routing are left out when the qualifier is a plural other than known circuits."
  },
  {
   "property": "C136",
   "status": "partial",
   "theorems": [
    "Verif.Lines.P2.exec_read_partial",
    "Verif.Lines.P2.exec_fails_iff",
    "Verif.Lines.P2.status_known_partial",
    "Verif.Lines.P2.status_one_partial",
    "Verif.Lines.P2.status_unaddressed_aborts",
    "Verif.Lines.P2.status_unknown_aborts"
   ],
   "note": "The _partial theorems need an identification of at most 40 latin-1 characters; for lines the conditions of C134 on names, and neighbours with a number. False of the code without them: a longer identification, which may be configured, ends the connection (exec_fails_iff), as do a neighbour without number (status_unaddressed_aborts) and an unknown line (status_unknown_aborts)."
  },
  {
   "property": "C137",
   "status": "partial",
   "theorems": [
    "Verif.Apps.mirrors_agree",
    "Verif.Apps.module_agrees",
    "Verif.Apps.mirror2_prefix",
    "Verif.Apps.interrupt_divides",
    "Verif.Apps.mirror3_unnamed",
    "Verif.Apps.not_running",
    "Verif.Apps.talk_lines",
    "Verif.Apps.talk_accepts_iff"
   ],
   "note": "The mirrors agree on connections that bring non-empty data and end with a disconnect. False of the code beyond that: an interrupt is ignored, ends the program, or aborts (interrupt_divides); the third mirror ends with an exception for a node without name (mirror3_unnamed), and always at its end (asyncq for asyncio). Left out: JSON, logging, end of input."
  },
  {
   "property": "C138",
   "status": "partial",
   "theorems": [
    "Verif.Hist.shown",
    "Verif.Hist.median_even_partial",
    "Verif.Hist.median_odd_wrong",
    "Verif.Hist.raises_iff",
    "Verif.Hist.work_rows"
   ],
   "note": "False of the code: for an odd number of samples, three or more, the sample before the median is shown (median_odd_wrong); and there is an exception if there was no sample (raises_iff). The mean is left as sum and number; rounding and text are left out."
  },
  {
   "property": "C139",
   "status": "partial",
   "theorems": [
    "Verif.P2Send.sent_up",
    "Verif.P2Send.neighbour_partial",
    "Verif.P2Send.distant_partial",
    "Verif.P2Send.loop_node",
    "Verif.P2Send.never_returned",
    "Verif.P2Send.own_raises",
    "Verif.P2Send.second_circuit_lost",
    "Verif.P2Send.own_lost"
   ],
   "note": "Proved for every history: a packet goes only to circuits that are up and lead to the node or to one that passes packets on. False of the code: a packet for the node itself ends with AttributeError (own_raises); a packet for a node number is never returned (never_returned); with two circuits to one neighbour, the neighbour is given up when one goes down (second_circuit_lost); after a circuit led back to the node, the node itself is gone from the table (own_lost). The positive theorems with the suffix assume that no node is reached by two circuits."
  },
  {
   "property": "C14",
   "status": "proved",
   "theorems": [
    "Verif.RoutMsg.phase4_message_accepted",
    "Verif.RoutMsg.phase3_message_accepted",
    "Verif.RoutMsg.altered_word_detected"
   ],
   "note": "Messages of fewer than 65535 words (any datalink buffer is far smaller)."
  },
  {
   "property": "C140",
   "status": "proved",
   "theorems": [
    "Verif.MapDraw.marker_color",
    "Verif.MapDraw.legend_partial",
    "Verif.MapDraw.legend_wrong",
    "Verif.MapDraw.marker_lists",
    "Verif.MapDraw.default_lists",
    "Verif.MapDraw.default_faded",
    "Verif.MapDraw.path_color",
    "Verif.MapDraw.path_order",
    "Verif.MapDraw.gone_early"
   ],
   "note": "Health is fixed while the map is made. The legend in the documentation of the map differs from this: faded nodes do not count for green and red, half down is red (legend_wrong; legend_partial is the case without faded nodes), faded nodes without place are listed if there are no others (default_faded), paths vanish after 60 days and not 180 (gone_early). Coordinates, names and text are left out, and so is how update_map collects nodes and connections."
  },
  {
   "property": "C141",
   "status": "partial",
   "theorems": [
    "Verif.MapCtr.counted_partial",
    "Verif.MapCtr.page_partial",
    "Verif.MapCtr.names_listed",
    "Verif.MapCtr.plain_loses",
    "Verif.MapCtr.Race.causes_exact",
    "Verif.MapCtr.Race.total_lost"
   ],
   "note": "counted_partial and page_partial take additions one after the other. The receiving thread and the node add to the inbound counter without a lock: with any schedule the numbers of the causes are exact and the counter is not too great (causes_exact), but the counter may be less than the sum of its causes, and a bit be missing (total_lost). Events are what the receiver makes of its input; frames of a framer with bad data are taken to hold a data message. plain_loses: an addition without a cause, which the program never makes, would lose the numbers of the causes."
  },
  {
   "property": "C142",
   "status": "proved",
   "theorems": [
    "Verif.FramerDev.accepted_iff",
    "Verif.FramerDev.mode_iff",
    "Verif.FramerDev.full_name"
   ],
   "note": "int() is a parameter; lower() is for A to Z. How framers are found on the interfaces is not modelled."
  },
  {
   "property": "C143",
   "status": "partial",
   "theorems": [
    "Verif.ScanVer.eight",
    "Verif.ScanVer.hex_iff",
    "Verif.ScanVer.text_iff",
    "Verif.ScanVer.text_inj_partial",
    "Verif.ScanVer.dropped",
    "Verif.ScanVer.all_dropped",
    "Verif.ScanVer.same_as_hex",
    "Verif.ScanVer.number_inj",
    "Verif.ScanVer.also_number"
   ],
   "note": "int(s, 16) is a parameter. text_inj_partial is for texts of Latin-1 without NUL at the end; it is false for others, since other characters are dropped (dropped): a text of such characters only is the same as none (all_dropped), and a text and a number may be the same (same_as_hex). Numbers of more than eight bytes end with OverflowError (hex_iff), which neither the parser of the configuration nor the API expects."
  },
  {
   "property": "C144",
   "status": "partial",
   "theorems": [
    "Verif.FramerRx.data_good_partial",
    "Verif.FramerRx.good_delivered",
    "Verif.FramerRx.bad_data",
    "Verif.FramerRx.other_errors",
    "Verif.FramerRx.short_empty",
    "Verif.FramerRx.dies_iff",
    "Verif.FramerRx.control_passed",
    "Verif.FramerRx.no_header",
    "Verif.FramerRx.no_work",
    "Verif.FramerRx.off_ends"
   ],
   "note": "For all decoders of headers and status messages. False of the code in two points: a frame that is said to be good but too short for its count is passed on as a message without data (short_empty), and a frame without payload, or one said to have bad data whose header cannot be decoded, ends the receive thread (dies_iff says exactly when); the circuit then starts again."
  },
  {
   "property": "C15",
   "status": "proved",
   "theorems": [
    "Verif.RoutMsg.vectors_survive",
    "Verif.RoutMsg.vectors_survive_ph3",
    "Verif.RoutMsg.truncated_segment_accepted",
    "Verif.RoutMsg.stray_word_raises_indexError"
   ],
   "note": "Findings: a segment cut short is accepted; a stray word at the end raises IndexError, which the circuits do not catch (last two theorems)."
  },
  {
   "property": "C16",
   "status": "proved",
   "theorems": [
    "Verif.Route.tables_correct",
    "Verif.Route.self_iff",
    "Verif.Route.no_exception",
    "Verif.Route.level2_ids",
    "Verif.Route.entry_costs",
    "Verif.Route.endOf_iff_up",
    "Verif.Route.hop_limit_hides_route",
    "Verif.Route.area_limits_ignored",
    "Verif.Route.second_circuit_lost",
    "Verif.Route.high_address_stops_node",
    "Verif.Route.message_from_endnode_stops_node",
    "Verif.Route.own_entry_late"
   ],
   "note": "Over every history of adjacencies and routing messages, level 1 and level 2, against offers read off the history. Findings: a cheap offer beyond the hop limit hides a usable one; the separate area limits are ignored (level 1 limits apply); an end node adjacent twice is lost when one adjacency goes; two ways for a neighbour to stop the program."
  },
  {
   "property": "C17",
   "status": "proved",
   "theorems": [
    "Verif.Conv.converges",
    "Verif.Conv.converges_any_limit",
    "Verif.Conv.settles_within",
    "Verif.Conv.stable_is_shortest",
    "Verif.Conv.stable_unique",
    "Verif.Conv.next_hop_closer",
    "Verif.Conv.receive_sim",
    "Verif.Conv.other_destination"
   ],
   "note": "Any finite topology with per-router limits, any initial tables and messages under way, any order of sends, receipts and losses. Tables settle within maxcost+1 rounds on a unique stable state. It has shortest paths when there are no more routers than the hop limit allows (otherwise every entry is still a path). Assumes each table entry has been decided on at least once at the start (see own_entry_late)."
  },
  {
   "property": "C18",
   "status": "proved",
   "theorems": [
    "Verif.Forward.transits_bounded",
    "Verif.Forward.transit_spec",
    "Verif.Forward.transit_send"
   ],
   "note": "Chains of any length through routers with arbitrary tables that may change at every hop. At most M transits before the turn, at most min(2M,63) in all. Not followed across Phase III circuits, which rewrite addresses."
  },
  {
   "property": "C19",
   "status": "proved",
   "theorems": [
    "Verif.Forward.transit_spec",
    "Verif.Forward.turned_at_most_once",
    "Verif.Forward.no_second_return",
    "Verif.Forward.originate_spec"
   ],
   "note": "Case analysis of forward for every table, and along chains of any length."
  },
  {
   "property": "C20",
   "status": "proved",
   "theorems": [
    "Verif.Forward.phase3_wire",
    "Verif.Forward.transit_spec",
    "Verif.Forward.transit_send",
    "Verif.Forward.transit_no_error",
    "Verif.Forward.turned_at_most_once",
    "Verif.Forward.received_as_sent_short",
    "Verif.Forward.received_as_sent_long",
    "Verif.Forward.to_nsp_iff",
    "Verif.Forward.originate_spec",
    "Verif.Forward.endnode_spec"
   ],
   "note": "Together with the wire round trip of short and long headers, and with the router's own tables for who gets a packet."
  },
  {
   "property": "C21",
   "status": "proved",
   "theorems": [
    "Verif.RUpdate.recipients",
    "Verif.RUpdate.update_complete",
    "Verif.RUpdate.update_ph3",
    "Verif.RUpdate.update_no_exception",
    "Verif.RUpdate.neighbours_know",
    "Verif.RUpdate.update_tells_all",
    "Verif.RUpdate.told_within_holdoff",
    "Verif.RUpdate.small_block_stops_node"
   ],
   "note": "One update (all tables, flags, block sizes of 16 or more) through the wire format to what the receiver extracts, and the process over every history: who is not flagged is up to date, and a change is told within the holdoff time. Finding: a neighbour announcing a block size below 16 stops the program."
  },
  {
   "property": "C22",
   "status": "proved",
   "theorems": [
    "Verif.Lan.lan_agrees",
    "Verif.Lan.elected",
    "Verif.Lan.becomes_dr",
    "Verif.Lan.isdr_iff"
   ],
   "note": "Any number of routers with any priorities and distinct addresses, each with its own event history in which it heard the others and no adjacency timed out since. The highest becomes designated router within 5 seconds."
  },
  {
   "property": "C23",
   "status": "proved",
   "theorems": [
    "Verif.Lan.up_entitled",
    "Verif.Lan.up_heard",
    "Verif.Lan.router_limit",
    "Verif.Lan.one_adjacency",
    "Verif.Lan.lowest_dropped",
    "Verif.Lan.wrong_priority_stops",
    "Verif.Lan.high_priority_stops",
    "Verif.Lan.long_hello_time_stops"
   ],
   "note": "Every history of hellos and timer expiries. Findings: hellos with our priority wrong, with priority of 128 or more, or with a very long hello time stop the program."
  },
  {
   "property": "C24",
   "status": "partial",
   "theorems": [
    "Verif.Lan.silent_dropped_partial",
    "Verif.Lan.timer_expiry_removes",
    "Verif.Lan.silent_router_stays",
    "Verif.Lan.silent_goes_on",
    "Verif.Lan.stale_timer_removes"
   ],
   "note": "Holds for every adjacency whose listen timer runs, which are all that are up. A router adjacency that is initialising has no timer: silent_router_stays is the negation, with a history after which the silent router stays designated router for ever. Also: the timer of a deleted adjacency can remove its successor."
  },
  {
   "property": "C25",
   "status": "proved",
   "theorems": [
    "Verif.Ptp.verified_up",
    "Verif.Ptp.no_password_never_up",
    "Verif.Ptp.up_history",
    "Verif.Ptp.wrong_password_restarts",
    "Verif.Ptp.right_password_up",
    "Verif.Ptp.phase2_password_prefix",
    "Verif.Ptp.phase2_no_password_stops",
    "Verif.Ptp.multinet_duplicate_init_stops",
    "Verif.Ptp.multinet_requeued_init_stops"
   ],
   "note": "State machine of route_ptp.py over all histories of received buffers, datalink status, timers and operator commands. Phase II passwords are compared in their 8 byte field, as the statement of VerifyOk says. Witness theorems: a Phase II verification without configured password and duplicate init messages on Multinet stop the node."
  },
  {
   "property": "C26",
   "status": "partial",
   "theorems": [
    "Verif.Ptp.up_allowed",
    "Verif.Ptp.up_limits_partial",
    "Verif.Ptp.good_init_accepted",
    "Verif.Ptp.bad_init_refused",
    "Verif.Ptp.told",
    "Verif.Ptp.running_error_restarts",
    "Verif.Ptp.running_leaves_iff",
    "Verif.Ptp.stop_takes_down",
    "Verif.Ptp.waiting_times_out",
    "Verif.Ptp.running_is_watched",
    "Verif.Ptp.ds_requested",
    "Verif.Ptp.passed_up",
    "Verif.Ptp.no_exception",
    "Verif.Ptp.phase2_number_unchecked",
    "Verif.Ptp.phase3_number_zero",
    "Verif.Ptp.phase2_long_password_stops",
    "Verif.Ptp.stopped_circuit_reopens"
   ],
   "note": "Proved for Phase IV and Phase III neighbours of routers. False as stated for Phase II neighbours (address from the name table is not checked) and for Phase III neighbours of an endnode (number 0 accepted): both proved as witnesses. running_leaves_iff and passed_up assume a datalink that reports restarts (not Multinet)."
  },
  {
   "property": "C27",
   "status": "proved",
   "theorems": [
    "Verif.Ddcmp.delivers_in_order",
    "Verif.Ddcmp.accepted_from_client"
   ],
   "note": "FIFO channel (TCP, serial); local Restart, disconnection and maintenance mode end the session and are not modelled; UDP reordering is outside."
  },
  {
   "property": "C28",
   "status": "proved",
   "theorems": [
    "Verif.Ddcmp.window_and_buffer",
    "Verif.Ddcmp.delivers_in_order"
   ],
   "note": "Assertion failures are the value none; delivers_in_order shows they never happen."
  },
  {
   "property": "C29",
   "status": "proved",
   "theorems": [
    "Verif.DdcmpFrame.frame_roundtrip",
    "Verif.DdcmpFrame.encodable",
    "Verif.DdcmpFrame.header_burst_rejected",
    "Verif.DdcmpFrame.data_burst_rejected",
    "Verif.DdcmpFrame.accepted_is_encoding",
    "Verif.DdcmpFrame.udp_delivers",
    "Verif.DdcmpFrame.search_finds_first",
    "Verif.DdcmpFrame.stream_next",
    "Verif.DdcmpFrame.stream_delivers",
    "Verif.DdcmpFrame.noise_never_delivered"
   ],
   "note": "All messages; datagram and stream modes; the hardware framers, which add the CRC themselves, are not modelled."
  },
  {
   "property": "C30",
   "status": "proved",
   "theorems": [
    "Verif.DdcmpFrame.telnet_transparent",
    "Verif.DdcmpFrame.connection_delivers"
   ],
   "note": "Any data, read sizes and segmentation."
  },
  {
   "property": "C31",
   "status": "proved",
   "theorems": [
    "Verif.NspPkt.nsp_roundtrip",
    "Verif.NspPkt.nsp_encodes",
    "Verif.NspPkt.accepted_allowed",
    "Verif.NspPkt.disallowed_dropped",
    "Verif.NspPkt.nonempty_survives",
    "Verif.NspPkt.reserved_qual_skipped",
    "Verif.NspPkt.discConf_class",
    "Verif.NspPkt.empty_packet_stops_node",
    "Verif.NspPkt.tolerant_gap"
   ],
   "note": "encode/decode of all NSP message classes over the message type of the connection model; findings: an empty NSP packet stops the node, No Resources is never recognised on receipt, gap in the tolerant image field"
  },
  {
   "property": "C32",
   "status": "proved",
   "theorems": [
    "Verif.Nsp.delivered_numbers",
    "Verif.Nsp.delivered_in_order",
    "Verif.Nsp.delivered_complete"
   ],
   "note": "Any packets at any time; the last two assume segments arrive while their number is within half the modulus of the next expected one."
  },
  {
   "property": "C33",
   "status": "proved",
   "theorems": [
    "Verif.Nsp.messages_intact",
    "Verif.Nsp.segments_of_message",
    "Verif.Nsp.empty_message_vanishes"
   ],
   "note": "empty_message_vanishes is a finding: an empty message produces no segment."
  },
  {
   "property": "C34",
   "status": "proved",
   "theorems": [
    "Verif.Nsp.end_to_end"
   ],
   "note": "Two connections and a network that loses, duplicates, delays and reorders; RSTS compatibility option not set; packets from earlier connections with the same link addresses are outside."
  },
  {
   "property": "C35",
   "status": "proved",
   "theorems": [
    "Verif.Nsp.ack_exact",
    "Verif.Nsp.released_was_received",
    "Verif.Nsp.bogus_ack_releases_unsent"
   ],
   "note": "bogus_ack_releases_unsent is a finding about a non-conforming peer."
  },
  {
   "property": "C36",
   "status": "proved",
   "theorems": [
    "Verif.Nsp.window",
    "Verif.Nsp.flow_control"
   ],
   "note": ""
  },
  {
   "property": "C37",
   "status": "proved",
   "theorems": [
    "Verif.NspMap.addresses_unique",
    "Verif.NspMap.reuse_fifo",
    "Verif.NspMap.reuse_value",
    "Verif.NspMap.refused_only_when_full",
    "Verif.NspMap.unknown_node_leaks"
   ],
   "note": "unknown_node_leaks is a finding: connecting to an unknown node name loses a link address."
  },
  {
   "property": "C38",
   "status": "partial",
   "theorems": [
    "Verif.NspMap.mapping_partial",
    "Verif.NspMap.mapping_connect",
    "Verif.NspMap.connections_run",
    "Verif.NspMap.mapping_poisoned"
   ],
   "note": "False of the code: an answer from a wrong node sets the remote link address of an opening connection (mapping_poisoned). Everything else is proved."
  },
  {
   "property": "C39",
   "status": "proved",
   "theorems": [
    "Verif.Nsp.legal_transitions",
    "Verif.Nsp.data_only_when_running",
    "Verif.Nsp.closed_is_silent",
    "Verif.Nsp.released_once"
   ],
   "note": ""
  },
  {
   "property": "C40",
   "status": "proved",
   "theorems": [
    "Verif.Nsp.transmission_limit",
    "Verif.Nsp.gives_up",
    "Verif.Nsp.retransmits"
   ],
   "note": ""
  },
  {
   "property": "C41",
   "status": "proved",
   "theorems": [
    "Verif.Nsp.interrupt_limits",
    "Verif.Nsp.interrupt_too_long"
   ],
   "note": ""
  },
  {
   "property": "C42",
   "status": "partial",
   "theorems": [
    "Verif.Nsp.recv_no_error_partial",
    "Verif.Nsp.timeout_no_error",
    "Verif.Nsp.send_errors",
    "Verif.Nsp.half_modulus_stops_node",
    "Verif.Nsp.half_modulus_ack_stops_node",
    "Verif.Nsp.deferred_disconnect_stops_node"
   ],
   "note": "False of the code for numbers exactly 2048 apart and for deferred disconnects with a bad reason (the last three theorems); proved for everything else."
  },
  {
   "property": "C43",
   "status": "proved",
   "theorems": [
    "Verif.Bridge.forwarding",
    "Verif.Bridge.addresses",
    "Verif.Bridge.no_exception"
   ],
   "note": "Every interleaving of frames, the timer thread and delivered timeouts. A frame shorter than 12 bytes does not reach the bridge (the Ethernet receive path raises first, see C45)."
  },
  {
   "property": "C44",
   "status": "proved",
   "theorems": [
    "Verif.Bridge.entry_is_latest",
    "Verif.Bridge.present_while_heard",
    "Verif.Bridge.gone_when_silent",
    "Verif.Bridge.never_heard",
    "Verif.Bridge.no_exception"
   ],
   "note": "Composed with the timer wheel model. The entry of a silent station leaves when the node takes the timeout off its work queue; between the tick and that moment it is still there."
  },
  {
   "property": "C45",
   "status": "proved",
   "theorems": [
    "Verif.Framing.Eth.eth_roundtrip",
    "Verif.Framing.Eth.eth_plain_roundtrip",
    "Verif.Framing.Eth.receive_iff",
    "Verif.Framing.Eth.eth_refused",
    "Verif.Framing.Eth.receive_error_short",
    "Verif.Framing.Eth.runt_ends_thread",
    "Verif.Framing.Eth.sap_payload_overrun"
   ],
   "note": "Any history of the transmit buffer. Found: a frame of fewer than 16 bytes ends the receive thread; an 802.3 frame hands up to three bytes of filling to its owner."
  },
  {
   "property": "C46",
   "status": "partial",
   "theorems": [
    "Verif.Framing.Gre.gre_roundtrip",
    "Verif.Framing.Gre.gre_plain_roundtrip",
    "Verif.Framing.Gre.gre_length_partial",
    "Verif.Framing.Gre.gre_short_accepted",
    "Verif.Framing.Gre.gre_receive_only",
    "Verif.Framing.Gre.gre_runt_ends_thread"
   ],
   "note": "Round trip proved. The length claim is false for an excess of one or two bytes (witness gre_short_accepted); proved for every larger excess."
  },
  {
   "property": "C47",
   "status": "partial",
   "theorems": [
    "Verif.Framing.Multinet.multinet_delivers_partial",
    "Verif.Framing.Multinet.broken_stream_prefix",
    "Verif.Framing.Multinet.whole_delivered",
    "Verif.Framing.Multinet.short_send_garbles",
    "Verif.Framing.Multinet.multinet_udp",
    "Verif.Framing.Multinet.udp_sequence"
   ],
   "note": "Proved when the socket takes every message whole. The connecting side leaves its socket non-blocking and ignores the count returned by send; a short send garbles the stream (witness short_send_garbles)."
  },
  {
   "property": "C48",
   "status": "proved",
   "theorems": [
    "Verif.Sess.started_iff",
    "Verif.Sess.rejected_iff",
    "Verif.Sess.started_rights",
    "Verif.Sess.decode_valid",
    "Verif.Sess.empty_connect_raises"
   ],
   "note": "Any object table, authenticator and connect message. Finding empty_connect_raises: a connect message without connect data stops the node."
  },
  {
   "property": "C49",
   "status": "proved",
   "theorems": [
    "Verif.Sess.connect_roundtrip",
    "Verif.Sess.reserved_bit_rejected",
    "Verif.Sess.connect_encodes_iff",
    "Verif.Sess.endUser_roundtrip",
    "Verif.Sess.endUser_encodes_iff"
   ],
   "note": "All end-user formats and all field lengths; the encodable messages are characterised."
  },
  {
   "property": "C50",
   "status": "proved",
   "theorems": [
    "Verif.EvQueue.queue_bounded_honest",
    "Verif.EvQueue.queued_if_room",
    "Verif.EvQueue.no_marker_no_loss",
    "Verif.EvQueue.limit_zero_raises"
   ],
   "note": "Any positive limit and any history of logging and (failing) sends. limit_zero_raises: a limit of 0 raises IndexError."
  },
  {
   "property": "C51",
   "status": "proved",
   "theorems": [
    "Verif.Nice.response_roundtrip",
    "Verif.Nice.encodes_iff",
    "Verif.Nice.encode_injective",
    "Verif.Nice.reencode",
    "Verif.Nice.reencode_item",
    "Verif.Nice.number_bits_lost",
    "Verif.Nice.decode_concat",
    "Verif.Nice.stray_bytes",
    "Verif.Nice.nested_multiple",
    "Verif.Nice.multiple_too_long",
    "Verif.Nice.decode_errors",
    "Verif.Nice.decReqItem_iff",
    "Verif.Nice.request_roundtrip",
    "Verif.Nice.request_unknown",
    "Verif.Nice.request_multiple"
   ],
   "note": "All values, types and lists of items. Findings: one or two stray bytes raise AttributeError and a nested multiple raises TypeError instead of DecodeError; multiples of more than 31 fields are sent but cannot be read; no multiple can be read in a request."
  },
  {
   "property": "C52",
   "status": "proved",
   "theorems": [
    "Verif.Backoff.interval_formula",
    "Verif.Backoff.intervals_grow",
    "Verif.Backoff.reset_restarts",
    "Verif.Backoff.reaches_maximum",
    "Verif.Backoff.init_accepts"
   ],
   "note": "Any limits accepted by the constructor, any history of next and reset."
  },
  {
   "property": "C53",
   "status": "proved",
   "theorems": [
    "Verif.Dlink.reports_alternate",
    "Verif.Dlink.alternates_iff"
   ],
   "note": "PtpDatalink with the Multinet subclass: every interleaving of its receive thread, timer, owner and main loop."
  },
  {
   "property": "C54",
   "status": "proved",
   "theorems": [
    "Verif.WorkQ.in_order",
    "Verif.WorkQ.stops_for_good",
    "Verif.WorkQ.shutdown_reached",
    "Verif.WorkQ.exception_stops_node"
   ],
   "note": "Any handlers, any interleaving of queuing threads with the main loop. exception_stops_node records that an exception in any handler ends the node, which the other findings refer to."
  },
  {
   "property": "C55",
   "status": "partial",
   "theorems": [
    "Verif.Config.accepted_iff",
    "Verif.Config.tables_consistent",
    "Verif.Config.database_consistent_partial",
    "Verif.Config.explicit_areas_suffice",
    "Verif.Config.default_area_collision",
    "Verif.Config.loop_node_hides_node",
    "Verif.Config.lookup_unknown"
   ],
   "note": "The configuration tables are consistent in every case. The node database built from them is consistent unless two entries coincide once the default area is filled in: default_area_collision is the witness."
  },
  {
   "property": "C56",
   "status": "proved",
   "theorems": [
    "Verif.Intercept.choose_iff",
    "Verif.Intercept.no_recv_iff",
    "Verif.Intercept.no_send_iff",
    "Verif.Intercept.table_latest",
    "Verif.Intercept.full_bare",
    "Verif.Intercept.full_hdr_iff",
    "Verif.Intercept.full_send",
    "Verif.Intercept.endnode_recv_iff",
    "Verif.Intercept.endnode_send_iff",
    "Verif.Intercept.through_router",
    "Verif.Intercept.reply_swaps",
    "Verif.Intercept.recv_raises_iff",
    "Verif.Intercept.returned_packet_stops",
    "Verif.Intercept.unknown_source_stops",
    "Verif.Intercept.other_disconnect_misroutes",
    "Verif.Intercept.unnamed_source_is_router"
   ],
   "note": "All packets, node databases and histories of one intercept object. Findings: any packet returned to sender towards a Phase II neighbour stops the node; so do a bad route header with empty content and a connect from a node not in the database; a disconnect may make intercept forget another link."
  },
  {
   "property": "C57",
   "status": "partial",
   "theorems": [
    "Verif.Host.accepted_iff_partial",
    "Verif.Host.accepted_iff_unchanged",
    "Verif.Host.old_address_still_valid",
    "Verif.Host.mapped_answer_refused"
   ],
   "note": "False as stated: addresses found by earlier lookups stay valid for ever (old_address_still_valid). Proved: accepted exactly if found by some lookup so far."
  },
  {
   "property": "C58",
   "status": "proved",
   "theorems": [
    "Verif.Timers.same_tick_in_start_order"
   ],
   "note": ""
  },
  {
   "property": "C59",
   "status": "proved",
   "theorems": [
    "Verif.Ddcmp.never_stuck"
   ],
   "note": "Possibility of progress from every reachable state; not a timing bound."
  },
  {
   "property": "C60",
   "status": "proved",
   "theorems": [
    "Verif.Fields.packet_roundtrip",
    "Verif.Fields.header_roundtrip",
    "Verif.Fields.class_roundtrip",
    "Verif.Fields.class_roundtrip_header",
    "Verif.RoutPkt.routing_classes_roundtrip",
    "Verif.Fields.Tables.classes_roundtrip",
    "Verif.Fields.empty_buffer_accepted"
   ],
   "note": "Finding: the constructor accepts an empty buffer for every class (last theorem). LIST fields and nested packets are not modelled. Class tables instantiated for the routing layer, MOP and the framer; other families have their own theorems."
  },
  {
   "property": "C61",
   "status": "proved",
   "theorems": [
    "Verif.Ptp.password_sent",
    "Verif.Ptp.phase2_long_password_stops"
   ],
   "note": "Any history; a Phase II password above 8 bytes raises FieldOverflow instead of being sent."
  },
  {
   "property": "C62",
   "status": "proved",
   "theorems": [
    "Verif.Ddcmp.any_peer_safe",
    "Verif.Ddcmp.any_peer_item"
   ],
   "note": "One station, any frames with byte-sized numbers, any errors, timeouts and client sends in any order. Added after a mutant of process_ack survived the two-station theorems."
  },
  {
   "property": "C63",
   "status": "proved",
   "theorems": [
    "Verif.Host.chosen_from_latest",
    "Verif.Host.tries_all",
    "Verif.Host.preferred_first"
   ],
   "note": "Any history of lookups and attempts."
  },
  {
   "property": "C64",
   "status": "proved",
   "theorems": [
    "Verif.Dlink.never_waits_for_nothing",
    "Verif.Dlink.can_recover",
    "Verif.Dlink.start_lost",
    "Verif.Dlink.stopped_starts_itself"
   ],
   "note": "Findings: a start command that arrives while the receive thread is still ending is lost; a send error while a stop command waits makes the stopped datalink start itself."
  },
  {
   "property": "C65",
   "status": "proved",
   "theorems": [
    "Verif.Dlink.passed_in_order",
    "Verif.Dlink.passed_only_while_up"
   ],
   "note": "Same executions as C53."
  },
  {
   "property": "C66",
   "status": "proved",
   "theorems": [
    "Verif.SessConn.one_owner",
    "Verif.SessConn.nothing_after_close",
    "Verif.SessConn.connect_first",
    "Verif.SessConn.delivers_all",
    "Verif.SessConn.exit_after_error_stops",
    "Verif.SessConn.module_error_after_close_stops",
    "Verif.SessConn.failed_start_stops"
   ],
   "note": "Any history in which no connection is opened twice. Findings: three ways an application error stops the node."
  },
  {
   "property": "C67",
   "status": "proved",
   "theorems": [
    "Verif.Cque.lists",
    "Verif.Cque.remove_twice",
    "Verif.Cque.add_linked_breaks",
    "Verif.Cque.refines",
    "Verif.Cque.expires_exactly",
    "Verif.Cque.delivered_fresh"
   ],
   "note": "Refinement of the linked lists to the wheel of C03, C04 and C58, with the unlocked test a separate action."
  },
  {
   "property": "C68",
   "status": "proved",
   "theorems": [
    "Verif.Mop.loop_route",
    "Verif.Mop.loop_forward",
    "Verif.Mop.loop_ends"
   ],
   "note": "Through any number of stations that run this loop handler, with the minimum frame filling of Ethernet."
  },
  {
   "property": "C69",
   "status": "partial",
   "theorems": [
    "Verif.Mop.loop_raise_iff",
    "Verif.Mop.loop_no_error_partial",
    "Verif.Mop.loop_stops_node"
   ],
   "note": "False of the code: a minimum length frame whose skip count points at its last bytes raises and stops the node (loop_stops_node). loop_raise_iff gives the exact set of such packets."
  },
  {
   "property": "C70",
   "status": "partial",
   "theorems": [
    "Verif.Mop.receipts",
    "Verif.Mop.no_reuse",
    "Verif.Mop.unexpected_reply",
    "Verif.Mop.reply_delivered",
    "Verif.Mop.counters_never_work",
    "Verif.Mop.console_never_connects",
    "Verif.MopId.other_kind_counts"
   ],
   "note": "False of the code in one point: an identification or counters message with the number of a loop request counts as its reply, whoever sends it (other_kind_counts). The rest is proved of histories in which no number comes back while in use; no_reuse shows that of all histories of up to 32767 events. Findings: requests made without an explicit receipt number (counters, console connect) always raise."
  },
  {
   "property": "C71",
   "status": "proved",
   "theorems": [
    "Verif.Mop.loop_test",
    "Verif.Mop.loop_test_ends",
    "Verif.Mop.client_left",
    "Verif.Mop.client_left_late",
    "Verif.Mop.no_reuse"
   ],
   "note": "Same histories as C70. Finding client_left_late: a client leaving after the first outcome does not stop its test."
  },
  {
   "property": "C72",
   "status": "proved",
   "theorems": [
    "Verif.Mop.console_holder",
    "Verif.Mop.console_exclusive",
    "Verif.Mop.console_repeat",
    "Verif.Mop.response_bounded",
    "Verif.Mop.failed_start_blocks",
    "Verif.Mop.failed_start_stops"
   ],
   "note": "Findings: when the terminal cannot be opened the console stays reserved for ever (failed_start_blocks) and a command then stops the node (failed_start_stops)."
  },
  {
   "property": "C73",
   "status": "proved",
   "theorems": [
    "Verif.Mop.typed_in_order",
    "Verif.Mop.typed_all"
   ],
   "note": "Client and server models joined by channels that lose and repeat but do not reorder. As the code stands the client never gets this far (console_never_connects, C70); proved of the connected state."
  },
  {
   "property": "C74",
   "status": "partial",
   "theorems": [
    "Verif.Mop.shown_in_order",
    "Verif.Mop.shown_once_partial",
    "Verif.Mop.shown_twice",
    "Verif.Mop.shown_twice_slow"
   ],
   "note": "False of the code: a response received again while no command is unanswered is shown again. Proved: in order, nothing left out; exactly once if nothing is repeated."
  },
  {
   "property": "C75",
   "status": "proved",
   "theorems": [
    "Verif.LanEnd.next_hop_heard",
    "Verif.LanEnd.next_hop_router",
    "Verif.LanEnd.next_hop_direct",
    "Verif.LanEnd.forgotten_router",
    "Verif.LanEnd.forgotten_direct",
    "Verif.LanEnd.forgetting_lingers"
   ],
   "note": "Every history in which timers are served when due, times in milliseconds. forgetting_lingers is a finding: after a request to forget, the timer of the forgotten entry removes the next one early; NSP never makes such requests, though the routing interface says retransmissions do."
  },
  {
   "property": "C76",
   "status": "partial",
   "theorems": [
    "Verif.LanEnd.sent_once",
    "Verif.LanEnd.no_relay",
    "Verif.LanEnd.to_self",
    "Verif.LanEnd.loop_node",
    "Verif.LanEnd.returned_partial",
    "Verif.LanEnd.connect_returned_though_sent",
    "Verif.LanEnd.returned_connect_fails"
   ],
   "note": "False of the code: a Connect Initiate for a node heard within the last minute is sent and also returned to NSP as undeliverable (connect_returned_though_sent), which ends the connection as unreachable (returned_connect_fails). Proved: everything else, and that nothing else is returned."
  },
  {
   "property": "C77",
   "status": "proved",
   "theorems": [
    "Verif.LanEnd.delivered",
    "Verif.LanEnd.nsp_items",
    "Verif.LanEnd.long_frame",
    "Verif.LanEnd.short_frame",
    "Verif.LanEnd.hello_frame",
    "Verif.LanEnd.ignored_frame",
    "Verif.LanEnd.frame_delivered",
    "Verif.LanEnd.accepted_iff"
   ],
   "note": "From the bytes of the frame."
  },
  {
   "property": "C78",
   "status": "proved",
   "theorems": [
    "Verif.LanEnd.routing_informed",
    "Verif.LanEnd.hello_regular",
    "Verif.LanEnd.hello_neighbor",
    "Verif.LanEnd.no_exception",
    "Verif.LanEnd.long_hello_time_stops_node"
   ],
   "note": "no_exception assumes hello times below 1162 s; long_hello_time_stops_node shows that this is needed (finding)."
  },
  {
   "property": "C79",
   "status": "proved",
   "theorems": [
    "Verif.EvLog.list_accepted",
    "Verif.EvLog.list_selects",
    "Verif.EvLog.list_all",
    "Verif.EvLog.list_unambiguous",
    "Verif.EvLog.known_iff",
    "Verif.EvLog.manual_reads"
   ],
   "note": "ASCII digits. A newline at the end of an entry is accepted as well. The exception for numbers out of range is NameError instead of RangeError (not imported)."
  },
  {
   "property": "C80",
   "status": "partial",
   "theorems": [
    "Verif.EvLog.local_exact",
    "Verif.EvLog.remote_exact_partial",
    "Verif.EvLog.file_record",
    "Verif.EvLog.log_succeeds",
    "Verif.EvLog.remote_flags_ignored",
    "Verif.EvLog.no_configuration",
    "Verif.EvLog.bad_list_fails",
    "Verif.EvLog.received_exact"
   ],
   "note": "False of the code in the marks: an event sent to another node is marked for all its sinks, whichever are to have it (remote_flags_ignored). Also: without any logging line nothing is logged (no_configuration), and received events go to the sinks of the last node of the process that has such a sink (received_exact). The rest is proved."
  },
  {
   "property": "C81",
   "status": "partial",
   "theorems": [
    "Verif.EvLog.Remote.sent_in_order",
    "Verif.EvLog.Remote.sent_on_live",
    "Verif.EvLog.Remote.live_sends",
    "Verif.EvLog.Remote.one_connection",
    "Verif.EvLog.Remote.never_stuck_partial",
    "Verif.EvLog.Remote.timer_connects",
    "Verif.EvLog.Remote.accept_sends",
    "Verif.EvLog.Remote.no_exception",
    "Verif.EvLog.Remote.stop_aborts",
    "Verif.EvLog.Remote.early_event_waits",
    "Verif.EvLog.Remote.bad_event_raises",
    "Verif.EvLog.Remote.late_disconnect_drops",
    "Verif.EvLog.Remote.retry_not_kept"
   ],
   "note": "False of the code for events logged before the sink is started: they wait until another event is logged (early_event_waits). Also: a connection that failed is not closed, and its late disconnect drops its successor (late_disconnect_drops); an event that cannot be encoded raises (bad_event_raises). The rest is proved."
  },
  {
   "property": "C82",
   "status": "partial",
   "theorems": [
    "Verif.EvLog.invalid_encodes_iff",
    "Verif.EvLog.invalid_readable_partial",
    "Verif.EvLog.invalid_unreadable",
    "Verif.EvLog.invalid_stops_file",
    "Verif.EvLog.invalid_stops_remote",
    "Verif.EvLog.zeros_dropped"
   ],
   "note": "False of the code: with event 3.0 enabled for a file or connected remote sink, a bad packet of more than 63 bytes stops the node; the report of one of 32 to 63 bytes cannot be read. Proved of 1 to 31 bytes."
  },
  {
   "property": "C83",
   "status": "partial",
   "theorems": [
    "Verif.Nml.read_result",
    "Verif.Nml.read_old_result",
    "Verif.Nml.answered",
    "Verif.Nml.answered_old",
    "Verif.Nml.crash_only",
    "Verif.Nml.stray_bytes",
    "Verif.Nml.old_unknown_line",
    "Verif.Nml.parse_iff",
    "Verif.Nml.stray_iff",
    "Verif.Nml.setup",
    "Verif.Nml.permanent_refused"
   ],
   "note": "False of the code: one or two stray bytes after the entity of a request end the connection without answer (stray_bytes), as does a Phase II request for a line that does not exist (old_unknown_line). Proved of every message for which no exception leaves the decoder or a layer (crash_only)."
  },
  {
   "property": "C84",
   "status": "proved",
   "theorems": [
    "Verif.Nml.modify_refused",
    "Verif.Nml.request_keeps",
    "Verif.Nml.parse_loop"
   ],
   "note": ""
  },
  {
   "property": "C85",
   "status": "partial",
   "theorems": [
    "Verif.Nml.loop_start",
    "Verif.Nml.loop_refused",
    "Verif.Nml.loop_course",
    "Verif.Nml.Sys.inv",
    "Verif.Nml.loop_says",
    "Verif.Nml.loop_ends",
    "Verif.Nml.longest_refused",
    "Verif.Nml.second_loop_request",
    "Verif.Nml.refused_request_changes_count",
    "Verif.Nml.empty_from_mirror",
    "Verif.Nml.parameters",
    "Verif.Nml.reject_reported",
    "Verif.Nml.parse_iff"
   ],
   "note": "False of the code if another loop request comes during the test, even one that is refused (second_loop_request, refused_request_changes_count); proved without such. Length 65535 is accepted but always fails (longest_refused). An empty message from the mirror ends the connection without report (empty_from_mirror)."
  },
  {
   "property": "C86",
   "status": "proved",
   "theorems": [
    "Verif.Nml.api_same",
    "Verif.Nml.api_read",
    "Verif.Nml.api_answered"
   ],
   "note": "Calls in which an exception leaves the decoder or a layer, and loop tests, whose report is one reply, are as in C83 and C85."
  },
  {
   "property": "C87",
   "status": "proved",
   "theorems": [
    "Verif.Nml.circuit_request",
    "Verif.Nml.station",
    "Verif.Nml.parameters",
    "Verif.Nml.parse_iff"
   ],
   "note": ""
  },
  {
   "property": "C88",
   "status": "partial",
   "theorems": [
    "Verif.AppApi.connect_to_holder_partial",
    "Verif.AppApi.bind_iff_partial",
    "Verif.AppApi.lower_case_steals",
    "Verif.AppApi.freed_by_another"
   ],
   "note": "False of the code for names in lower case (the check comes before upper, lower_case_steals) and after a failed request of an application (freed_by_another). Proved of all histories in which names are in upper case and no application acts after one of its requests has failed."
  },
  {
   "property": "C89",
   "status": "partial",
   "theorems": [
    "Verif.AppApi.others_kept",
    "Verif.AppApi.answered",
    "Verif.AppApi.packet_to_owner_partial",
    "Verif.AppApi.fails_iff_partial"
   ],
   "note": "others_kept and answered hold of every history; packet_to_owner_partial and fails_iff_partial of the histories of C88. Not covered: a node stopped by C90."
  },
  {
   "property": "C90",
   "status": "partial",
   "theorems": [
    "Verif.AppApi.gone_is_gone_partial",
    "Verif.AppApi.connect_to_holder_partial",
    "Verif.AppApi.bad_request_then_exit_stops",
    "Verif.AppApi.lower_case_stops",
    "Verif.AppApi.unbind_stops"
   ],
   "note": "False of the code: an application with a connection that makes one bad request and then exits stops the node, in every history (bad_request_then_exit_stops). Proved of the histories of C88."
  },
  {
   "property": "C91",
   "status": "partial",
   "theorems": [
    "Verif.Fal.opened_inside",
    "Verif.Fal.listed_inside_partial",
    "Verif.Fal.listed_parent",
    "Verif.Fal.listing_escapes",
    "Verif.Fal.names_kept"
   ],
   "note": "Names only, symbolic links are not followed. Only files under the root are opened. False of the code for listings: /..;* lists the directory above the root (listing_escapes), never more than that (listed_parent)."
  },
  {
   "property": "C92",
   "status": "partial",
   "theorems": [
    "Verif.Fal.messages_arrive",
    "Verif.Fal.nothing_lost",
    "Verif.Fal.can_send",
    "Verif.Fal.unblocked",
    "Verif.Fal.block_size_partial",
    "Verif.Fal.block_too_large",
    "Verif.Fal.unlimited_peer"
   ],
   "note": "False of the code for sizes: a block can be up to two bytes larger than the peer's buffer, and a peer that announces no limit (0) can be sent nothing."
  },
  {
   "property": "C93",
   "status": "proved",
   "theorems": [
    "Verif.Fal.binary_copy",
    "Verif.Fal.binary_blocks",
    "Verif.Fal.text_copy",
    "Verif.Fal.text_copy_explicit",
    "Verif.Fal.newlines_clean",
    "Verif.Fal.wide_character"
   ],
   "note": "Text of characters that fit in one byte; wide_character: others end the listener. Ends of line are normalised and one is added at the end."
  },
  {
   "property": "C94",
   "status": "partial",
   "theorems": [
    "Verif.Fal.data_only_asked",
    "Verif.Fal.answered_partial",
    "Verif.Fal.flushed_partial",
    "Verif.Fal.error_held_back",
    "Verif.Fal.odd_blocks_die",
    "Verif.Fal.listing",
    "Verif.Fal.refused"
   ],
   "note": "False of the code: the status for a file that is not found is not flushed (error_held_back), and asking for blocks other than 512 bytes ends the listener (odd_blocks_die)."
  },
  {
   "property": "C95",
   "status": "partial",
   "theorems": [
    "Verif.Conn.tags_fresh",
    "Verif.Conn.own_answer",
    "Verif.Conn.answered_once",
    "Verif.Conn.answer_given_partial",
    "Verif.Conn.waits",
    "Verif.Conn.down_iff",
    "Verif.Conn.down_final",
    "Verif.Conn.crossing_kills",
    "Verif.Conn.cancelled_kills",
    "Verif.Conn.cancelled_leaks"
   ],
   "note": "False of the code: a message for a connection just closed, or (from Python 3.8) an answer to a cancelled request, ends the receiver, after which no one is answered (down_iff says exactly when); before 3.8 a cancelled connect leaves a connection open that nobody knows."
  },
  {
   "property": "C96",
   "status": "partial",
   "theorems": [
    "Verif.Conn.messages_in_order",
    "Verif.Conn.recv_next",
    "Verif.Conn.recv_closes",
    "Verif.Conn.handles_apart",
    "Verif.Conn.heard_grows",
    "Verif.Conn.calls_in_order",
    "Verif.Conn.crossed_call_rejected",
    "Verif.Conn.request_sent",
    "Verif.Conn.request_refused",
    "Verif.Conn.crossing_kills"
   ],
   "note": "Proved as long as the receiver runs; see C95 for what ends it."
  },
  {
   "property": "C97",
   "status": "partial",
   "theorems": [
    "Verif.Pmr.route_followed_partial",
    "Verif.Pmr.one_node",
    "Verif.Pmr.several_nodes",
    "Verif.Pmr.route_with_user",
    "Verif.Pmr.relay_route",
    "Verif.Pmr.plan_sound",
    "Verif.Pmr.answer_lists_route",
    "Verif.Pmr.answer_accepts",
    "Verif.Pmr.reject_text",
    "Verif.Pmr.short_success_raises",
    "Verif.Pmr.quote_kept",
    "Verif.Pmr.no_user",
    "Verif.Pmr.never_accepts"
   ],
   "note": "Where the connects of a route lead is proved for all routes. False of the code: a relay never accepts (never_accepts), a quote after a task is kept in its name (quote_kept), a route without user leads to the task None (no_user), a success without colon raises (short_success_raises)."
  },
  {
   "property": "C98",
   "status": "partial",
   "theorems": [
    "Verif.ApiSock.requests_are_lines",
    "Verif.ApiSock.passed_on",
    "Verif.ApiSock.called_only",
    "Verif.ApiSock.answer_sent",
    "Verif.ApiSock.answered_at_once",
    "Verif.ApiSock.systems_listed",
    "Verif.ApiSock.undecodable",
    "Verif.ApiSock.ends_iff",
    "Verif.ApiSock.in_order",
    "Verif.ApiSock.nodes_told",
    "Verif.ApiSock.bad_repeats",
    "Verif.ApiSock.value_ends"
   ],
   "note": "False of the code: ends_iff lists the requests that end the connection (JSON that is no dictionary, a system that is a number or list, an interface that is a list); the text \"bad\" is answered by the reply to the request before it (bad_repeats); the error for a line that is not JSON has no tag (undecodable)."
  },
  {
   "property": "C99",
   "status": "partial",
   "theorems": [
    "Verif.Dap.message_roundtrip",
    "Verif.Dap.message_types",
    "Verif.Dap.messages_read",
    "Verif.Dap.send_encodings",
    "Verif.Dap.plain_iff",
    "Verif.Dap.attributes_default",
    "Verif.Dap.omitted",
    "Verif.Dap.fillers",
    "Verif.Dap.mode_sendable",
    "Verif.Dap.mode_shown",
    "Verif.Dap.other_flags_swallow",
    "Verif.Dap.length_beyond_end",
    "Verif.Dap.spool_option_lost",
    "Verif.Dap.long_name_refused",
    "Verif.Dap.status_text"
   ],
   "note": "False of the code for one attribute: fb_spl of the Attributes message stands for two bits and the first is overwritten (spool_option_lost). Messages with stream identification or bit count flags (which nothing sends) are excepted from the round trip; received in a block they swallow what follows (other_flags_swallow). Status messages with six of the major codes cannot be shown (status_text)."
  }
 ]
}