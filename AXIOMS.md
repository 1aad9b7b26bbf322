# Axioms of the theorems in MANIFEST.json

Output of `#print axioms`, by property. p = `propext`, c = `Classical.choice`, q = `Quot.sound`.

## C01

* `Verif.Modulo.undefined_iff`: c, q, p
* `Verif.Modulo.trichotomy`: c, q, p
* `Verif.Modulo.derived`: c, q, p
* `Verif.Modulo.shift_invariant`: q, p
* `Verif.Modulo.agrees_with_counters`: c, q, p

## C02

* `Verif.Modulo.arithmetic_tracks`: q, p
* `Verif.Modulo.new_iff`: c, q, p

## C03

* `Verif.Timers.expires_exactly`: c, q, p
* `Verif.Timers.start_refused`: q, p
* `Verif.Timers.negative_timeout_accepted`: q, p

## C04

* `Verif.Timers.delivered_fresh`: c, q, p
* `Verif.Timers.expired_needs_start`: q, p
* `Verif.Timers.dropped_only_if_restarted`: c, q, p

## C05

* `Verif.Fields.image_roundtrip`: c, q, p
* `Verif.Fields.image_decode`: c, q, p
* `Verif.Fields.ascii_roundtrip`: c, q, p

## C06

* `Verif.Fields.unsigned_roundtrip`: c, q, p
* `Verif.Fields.unsigned_decode`: c, q, p
* `Verif.Fields.signed_roundtrip`: c, q, p
* `Verif.Fields.counter_saturates`: c, q, p

## C07

* `Verif.Fields.bitmap_roundtrip`: c, q, p

## C08

* `Verif.Fields.extensible_roundtrip`: c, q, p
* `Verif.Fields.extensible_decode`: q, p
* `Verif.Fields.extensible_negative_never_ends`: c, q, p

## C09

* `Verif.Fields.tlv_roundtrip`: c, q, p
* `Verif.Fields.tlv_exact`: c, q, p
* `Verif.Fields.tlv_item_exact`: q, p
* `Verif.Fields.wild_items_not_forwarded`: q, p

## C10

* `Verif.Crc.crc_is_remainder`: c, q, p
* `Verif.Crc.crc_incremental`: q, p
* `Verif.Crc.update_bits_is_remainder`: c, q, p

## C100

* `Verif.Nft.commands_done`: q, p
* `Verif.Nft.name_kept`: q, p
* `Verif.Nft.target_inside`: q, p
* `Verif.Nft.copy_prefix`: q, p
* `Verif.Nft.copy_exact_iff`: q, p
* `Verif.Nft.copy_differs`: q, p
* `Verif.Nft.plain_copy_hangs`: q, p
* `Verif.Nft.missing_copy_hangs`: c, q, p
* `Verif.Nft.late_by_one`: c, q, p
* `Verif.Nft.blank_answer`: q, p
* `Verif.Nft.lost_spins`: p
* `Verif.Nft.server_chooses_path`: c, q, p
* `Verif.Nft.long_names_collide`: p

## C101

* `Verif.NiceRead.plural_answer`: c, q, p
* `Verif.NiceRead.plural_executor`: c, q, p
* `Verif.NiceRead.plural_name`: c, q, p
* `Verif.NiceRead.plural_links`: c, q, p
* `Verif.NiceRead.plural_delay`: c, q, p
* `Verif.NiceRead.plural_state_exec`: c, q, p
* `Verif.NiceRead.plural_reachable`: c, q, p
* `Verif.NiceRead.plural_unreachable`: c, q, p
* `Verif.NiceRead.plural_stateless`: c, q, p
* `Verif.NiceRead.plural_neighbour`: c, q, p
* `Verif.NiceRead.plural_type`: c, q, p
* `Verif.NiceRead.loop_nodes_merge`: c, q, p

## C102

* `Verif.NiceRead.single_reachable`: c, q, p
* `Verif.NiceRead.single_unreachable`: c, q, p
* `Verif.NiceRead.single_exec`: c, q, p
* `Verif.NiceRead.single_endnode`: c, q, p
* `Verif.NiceRead.single_unknown`: q, p
* `Verif.NiceRead.single_bad_address`: c, q, p
* `Verif.NiceRead.single_beyond`: c, q, p
* `Verif.NiceRead.single_phase2`: c, q, p
* `Verif.NiceRead.single_loop`: c, q, p

## C103

* `Verif.NiceRead.area_single`: q, p
* `Verif.NiceRead.area_plural_partial`: q, p
* `Verif.NiceRead.last_area_missing`: q, p
* `Verif.NiceRead.area_other`: q, p
* `Verif.NiceRead.lan_circuit`: c, q, p
* `Verif.NiceRead.ptp_circuit`: q, p
* `Verif.NiceRead.ptp_characteristics`: p
* `Verif.NiceRead.all_circuits`: c, q, p
* `Verif.NiceRead.qualifier_raises`: c, q, p
* `Verif.NiceRead.zero_raises`: q, p

## C104

* `Verif.Ncp.keyword_found`: c, q, p
* `Verif.Ncp.case_ignored`: none
* `Verif.Ncp.abbreviation_iff`: c, q, p
* `Verif.Ncp.alike_lost`: c, q, p
* `Verif.Ncp.short_not_found`: c, q, p
* `Verif.Ncp.taken_away`: c, q, p
* `Verif.Ncp.words_match`: q, p
* `Verif.Ncp.setdefault_raises`: none

## C105

* `Verif.Ncp.show_sound`: c, q, p
* `Verif.Ncp.show_one_meaning`: c, q, p
* `Verif.Ncp.show_complete`: c, q, p
* `Verif.Ncp.show_heard`: c, q, p
* `Verif.Ncp.show_to_listener`: c, q, p
* `Verif.Ncp.loop_sound`: c, q, p
* `Verif.Ncp.loop_complete`: c, q, p
* `Verif.Ncp.loop_heard`: c, q, p
* `Verif.Ncp.loop_node_no_access`: c, q, p

## C106

* `Verif.Ncp.session_faithful`: c, q, p
* `Verif.Ncp.session_own_answers`: c, q, p
* `Verif.Ncp.line_tokens`: c, q, p
* `Verif.Ncp.token_shape`: c, q, p
* `Verif.Ncp.token_not_empty`: c, q, p
* `Verif.Ncp.line_ends`: c, q, p
* `Verif.Ncp.nothing_shown_again`: q, p
* `Verif.Ncp.nothing_done_again`: c, q, p
* `Verif.Ncp.answers_late`: c, q, p
* `Verif.Ncp.tell_not_restored`: q, p

## C107

* `Verif.NspDelay.estimate_exact`: c, q, p
* `Verif.NspDelay.estimate_bounds`: c, q, p
* `Verif.NspDelay.timeout_bounds`: c, q, p
* `Verif.NspDelay.factor_unchecked`: c, q, p
* `Verif.NspDelay.estimate_between`: c, q, p
* `Verif.NspDelay.converges`: c, q, p
* `Verif.NspDelay.no_early_timeout`: c, q, p
* `Verif.NspDelay.slow_path_always_early`: c, q, p
* `Verif.NspDelay.measured_from_first`: c, q, p

## C108

* `Verif.EvMsg.event_roundtrip`: c, q, p
* `Verif.EvMsg.unfit_refused`: c, q, p
* `Verif.EvMsg.event_injective`: c, q, p
* `Verif.EvMsg.line_taken_as_circuit`: c, q, p
* `Verif.EvMsg.event_errors`: c, q, p
* `Verif.EvMsg.stray_bytes`: c, q, p
* `Verif.EvMsg.unknown_number_loses`: c, q, p
* `Verif.EvMsg.time_exact`: q, p
* `Verif.EvMsg.time_fits`: c, q, p
* `Verif.EvMsg.time_order`: q, p
* `Verif.EvMsg.records_unique`: q, p
* `Verif.EvMsg.record_faithful`: c, q, p
* `Verif.EvMsg.received_storable`: c, q, p
* `Verif.EvMsg.listen_goes_on`: c, q, p
* `Verif.EvMsg.listener_delivers`: c, q, p
* `Verif.EvMsg.listener_ended`: q, p

## C109

* `Verif.EthPort.delivered_iff`: c, q, p
* `Verif.EthPort.holder_forever`: p
* `Verif.EthPort.create_iff`: c, q, p
* `Verif.EthPort.addProto_iff`: c, q, p
* `Verif.EthPort.refused_nothing`: q, p
* `Verif.EthPort.remove_fails`: c, q, p
* `Verif.EthPort.line_counter`: c, q, p

## C11

* `Verif.Crc.class_confirmed`: c, q, p
* `Verif.Crc.crc_bits_good`: c, q, p
* `Verif.Crc.crc_bytes_good`: c, q, p
* `Verif.Crc.burst_changes_crc`: c, q, p
* `Verif.Crc.burst_detected`: c, q, p
* `Verif.Crc.crc16_good`: c, q, p
* `Verif.Crc.crc16_good_iff`: q, p
* `Verif.Crc.crc16_only_good`: c, q, p

## C110

* `Verif.EthPort.filter_sound`: c, q, p
* `Verif.EthPort.filter_transparent`: c, q, p
* `Verif.EthPort.filter_tight`: c, q, p

## C111

* `Verif.EthPort.bridge_delivers_partial`: c, q, p
* `Verif.EthPort.bridge_stopped`: q, p

## C112

* `Verif.Mapper.polled_once`: c, q, p
* `Verif.Mapper.at_most_twenty`: c, q, p
* `Verif.Mapper.scan_complete`: c, q, p
* `Verif.Mapper.never_stuck`: c, q, p

## C113

* `Verif.Mapper.scan_result`: c, q, p
* `Verif.Mapper.full_scan_deaf`: q, p
* `Verif.Mapper.event_lost`: q, p
* `Verif.Mapper.event_not_polled`: q, p
* `Verif.Mapper.same_second_scan`: q, p

## C114

* `Verif.Mapper.item_shows`: q, p
* `Verif.Mapper.down_shown`: c, q, p
* `Verif.Mapper.same_second_down`: q, p
* `Verif.Mapper.stale_stamp_down`: q, p

## C115

* `Verif.Mapper.incomplete_nothing`: c, q, p
* `Verif.Mapper.reached`: q, p
* `Verif.Mapper.circuits_recorded`: q, p
* `Verif.Mapper.hung`: p
* `Verif.Mapper.two_reports`: p

## C116

* `Verif.Mapper.dbupdate_others_partial`: q, p
* `Verif.Mapper.dbupdate_takes`: q, p
* `Verif.Mapper.dbupdate_wipes`: q, p
* `Verif.Mapper.dbupdate_removes`: none

## C117

* `Verif.Mapper.load_save`: q, p
* `Verif.Mapper.save_load`: p
* `Verif.Mapper.save_crash_partial`: p
* `Verif.Mapper.save_crash_loses`: p

## C118

* `Verif.Mapper.dbreply_partial`: c, q, p
* `Verif.Mapper.leftover`: c, q, p
* `Verif.Mapper.no_location_stops`: c, q, p

## C119

* `Verif.MopId.sysid_roundtrip`: q, p
* `Verif.MopId.request_id_bytes`: q, p
* `Verif.MopId.request_counters_bytes`: q, p
* `Verif.MopId.ident_read`: c, q, p
* `Verif.MopId.id_answered`: c, q, p
* `Verif.MopId.id_periodic`: c, q, p
* `Verif.MopId.counters_answered`: q, p
* `Verif.MopId.frame_raises_iff`: c, q, p
* `Verif.MopId.clock_back_stops`: q, p

## C12

* `Verif.Addr.address_forms`: c, q, p
* `Verif.Addr.phase3_forms`: c, q, p
* `Verif.Addr.accepted_in_range`: c, q, p
* `Verif.Addr.forms_injective`: c, q, p
* `Verif.Addr.mac_text_roundtrip`: q, p
* `Verif.Addr.unchecked_values`: none
* `Verif.Addr.mac_from_node_text_rejected`: c, q, p

## C120

* `Verif.MopId.heard_last`: q, p
* `Verif.MopId.time_read`: q, p
* `Verif.MopId.list_partial`: c, q, p
* `Verif.MopId.one_breaks_all`: c, q, p
* `Verif.MopId.zone_right_iff`: q, p

## C121

* `Verif.MopId.never_connects`: q, p
* `Verif.MopId.connect_stops`: q, p

## C122

* `Verif.Http.file_inside`: c, q, p
* `Verif.Http.file_served_partial`: c, q, p
* `Verif.Http.public_index`: c, q, p
* `Verif.Http.link_hides`: c, q, p
* `Verif.Http.link_renames`: c, q, p
* `Verif.Http.relative_taken`: c, q, p

## C123

* `Verif.Http.system_page`: c, q, p
* `Verif.Http.system_page_mobile`: c, q, p
* `Verif.Http.system_unknown`: c, q, p
* `Verif.Http.wanted_system`: p
* `Verif.Http.error_codes`: c, q, p
* `Verif.Http.query_without_system`: c, q, p
* `Verif.Http.foreign_refused`: c, q, p
* `Verif.Http.field_iff`: q, p
* `Verif.Http.blank_name`: p
* `Verif.Http.root_page`: c, q, p
* `Verif.Http.map_page`: c, q, p
* `Verif.Http.own_traceback_partial`: p
* `Verif.Http.other_traceback`: none

## C124

* `Verif.Topol.split_pieces`: q, p
* `Verif.Topol.names_right`: q, p
* `Verif.Topol.reply_partial`: q, p
* `Verif.Topol.reads_none`: p
* `Verif.Topol.aborts_iff`: c, q, p

## C125

* `Verif.Html.nested`: c, q, p
* `Verif.Html.mop_page`: c, q, p
* `Verif.Html.not_escaped`: c, q, p
* `Verif.Html.page_unclosed`: c, q, p

## C126

* `Verif.ConfFile.scan_iff_partial`: c, q, p
* `Verif.ConfFile.starts_iff_partial`: c, q, p
* `Verif.ConfFile.circle_crashes`: p
* `Verif.ConfFile.repeated_taken`: c, q, p
* `Verif.ConfFile.blank_name`: c, q, p

## C127

* `Verif.ConfFile.again_partial`: q, p
* `Verif.ConfFile.default_conflicts`: q, p

## C128

* `Verif.Log.memory_order`: q, p
* `Verif.Log.memory_history`: q, p
* `Verif.Log.memory_all`: q, p
* `Verif.Log.bypass_drops`: q, p
* `Verif.Log.bypass_span`: q, p
* `Verif.Log.threads_once`: p
* `Verif.Log.threads_disorder`: none

## C129

* `Verif.Log.dump_reads`: q, p
* `Verif.Log.dump_offset`: c, q, p
* `Verif.Log.dump_text`: c, q, p
* `Verif.Log.event_shown_partial`: q, p
* `Verif.Log.event_lost`: q, p

## C13

* `Verif.RoutPkt.short_roundtrip`: c, q, p
* `Verif.RoutPkt.long_roundtrip`: c, q, p
* `Verif.RoutPkt.first_byte_decides`: p

## C130

* `Verif.Configr.status_lists_partial`: c, q, p
* `Verif.Configr.raises_iff`: c, q, p
* `Verif.Configr.unknown`: c, q, p
* `Verif.Configr.software_ignored`: c, q, p
* `Verif.Configr.parse_sized`: q, p
* `Verif.Configr.heard_good`: q, p
* `Verif.Configr.cut_short`: c, q, p

## C131

* `Verif.Boot.plan_iff`: q, p
* `Verif.Boot.portless_order`: p

## C132

* `Verif.Boot.stops_in_order`: q, p
* `Verif.Boot.all_stopped_iff`: q, p
* `Verif.Boot.all_started`: c, q, p
* `Verif.Boot.early_nothing`: q, p
* `Verif.Boot.unbound_nothing`: q, p
* `Verif.Boot.refused_iff`: q, p
* `Verif.Boot.once_only`: q, p
* `Verif.Boot.start_order`: q, p
* `Verif.Boot.api_last`: c, q, p
* `Verif.Boot.quiet_iff`: q, p
* `Verif.Boot.refused_in_turn`: q, p

## C133

* `Verif.Lines.one_line`: c, q, p
* `Verif.Lines.no_line`: c, q, p
* `Verif.Lines.known_lines`: c, q, p
* `Verif.Lines.refused`: p
* `Verif.Lines.line_read`: c, q, p
* `Verif.Lines.combine_total`: c, q, p
* `Verif.Lines.traffic_counted`: c, q, p
* `Verif.Lines.sap_uncounted`: p

## C134

* `Verif.Lines.P2.parse_iff`: q, p
* `Verif.Lines.P2.own_line_partial`: c, q, p
* `Verif.Lines.P2.shadowed`: c, q, p
* `Verif.Lines.P2.known_unnamed`: c, q, p
* `Verif.Lines.P2.unknown_aborts`: c, q, p
* `Verif.Lines.P2.read_mislabelled`: p
* `Verif.Lines.P2.shown_back_partial`: c, q, p
* `Verif.Lines.P2.dl_confused`: c, q, p
* `Verif.Lines.P2.device_name`: c, q, p
* `Verif.Lines.P2.other_name`: c, q, p
* `Verif.Lines.P2.last_wins`: c, q, p

## C135

* `Verif.NiceRead.counters_plural`: c, q, p
* `Verif.NiceRead.characteristics_plural`: c, q, p
* `Verif.NiceRead.counters_single`: c, q, p
* `Verif.NiceRead.characteristics_single`: c, q, p
* `Verif.NiceRead.loop_by_name`: c, q, p

## C136

* `Verif.Lines.P2.exec_read_partial`: c, q, p
* `Verif.Lines.P2.exec_fails_iff`: c, q, p
* `Verif.Lines.P2.status_known_partial`: c, q, p
* `Verif.Lines.P2.status_one_partial`: c, q, p
* `Verif.Lines.P2.status_unaddressed_aborts`: c, q, p
* `Verif.Lines.P2.status_unknown_aborts`: c, q, p

## C137

* `Verif.Apps.mirrors_agree`: q, p
* `Verif.Apps.module_agrees`: q, p
* `Verif.Apps.mirror2_prefix`: p
* `Verif.Apps.interrupt_divides`: q, p
* `Verif.Apps.mirror3_unnamed`: p
* `Verif.Apps.not_running`: p
* `Verif.Apps.talk_lines`: c, q, p
* `Verif.Apps.talk_accepts_iff`: c, q, p

## C138

* `Verif.Hist.shown`: q, p
* `Verif.Hist.median_even_partial`: q, p
* `Verif.Hist.median_odd_wrong`: c, q, p
* `Verif.Hist.raises_iff`: c, q, p
* `Verif.Hist.work_rows`: c, q, p

## C139

* `Verif.P2Send.sent_up`: c, q, p
* `Verif.P2Send.neighbour_partial`: c, q, p
* `Verif.P2Send.distant_partial`: c, q, p
* `Verif.P2Send.loop_node`: c, q, p
* `Verif.P2Send.never_returned`: p
* `Verif.P2Send.own_raises`: c, q, p
* `Verif.P2Send.second_circuit_lost`: none
* `Verif.P2Send.own_lost`: none

## C14

* `Verif.RoutMsg.phase4_message_accepted`: c, q, p
* `Verif.RoutMsg.phase3_message_accepted`: c, q, p
* `Verif.RoutMsg.altered_word_detected`: c, q, p

## C140

* `Verif.MapDraw.marker_color`: c, q, p
* `Verif.MapDraw.legend_partial`: c, q, p
* `Verif.MapDraw.legend_wrong`: none
* `Verif.MapDraw.marker_lists`: q, p
* `Verif.MapDraw.default_lists`: p
* `Verif.MapDraw.default_faded`: none
* `Verif.MapDraw.path_color`: c, q, p
* `Verif.MapDraw.path_order`: c, q, p
* `Verif.MapDraw.gone_early`: c, q, p

## C141

* `Verif.MapCtr.counted_partial`: q, p
* `Verif.MapCtr.page_partial`: q, p
* `Verif.MapCtr.names_listed`: c, q, p
* `Verif.MapCtr.plain_loses`: p
* `Verif.MapCtr.Race.causes_exact`: q, p
* `Verif.MapCtr.Race.total_lost`: p

## C142

* `Verif.FramerDev.accepted_iff`: c, q, p
* `Verif.FramerDev.mode_iff`: c, q, p
* `Verif.FramerDev.full_name`: c, q, p

## C143

* `Verif.ScanVer.eight`: q, p
* `Verif.ScanVer.hex_iff`: q, p
* `Verif.ScanVer.text_iff`: q, p
* `Verif.ScanVer.text_inj_partial`: q, p
* `Verif.ScanVer.dropped`: q, p
* `Verif.ScanVer.all_dropped`: c, q, p
* `Verif.ScanVer.same_as_hex`: p
* `Verif.ScanVer.number_inj`: q, p
* `Verif.ScanVer.also_number`: q, p

## C144

* `Verif.FramerRx.data_good_partial`: q, p
* `Verif.FramerRx.good_delivered`: q, p
* `Verif.FramerRx.bad_data`: p
* `Verif.FramerRx.other_errors`: q, p
* `Verif.FramerRx.short_empty`: q, p
* `Verif.FramerRx.dies_iff`: q, p
* `Verif.FramerRx.control_passed`: p
* `Verif.FramerRx.no_header`: p
* `Verif.FramerRx.no_work`: p
* `Verif.FramerRx.off_ends`: p

## C15

* `Verif.RoutMsg.vectors_survive`: c, q, p
* `Verif.RoutMsg.vectors_survive_ph3`: c, q, p
* `Verif.RoutMsg.truncated_segment_accepted`: c, q, p
* `Verif.RoutMsg.stray_word_raises_indexError`: c, q, p

## C16

* `Verif.Route.tables_correct`: c, q, p
* `Verif.Route.self_iff`: c, q, p
* `Verif.Route.no_exception`: c, q, p
* `Verif.Route.level2_ids`: q, p
* `Verif.Route.entry_costs`: q, p
* `Verif.Route.endOf_iff_up`: q, p
* `Verif.Route.hop_limit_hides_route`: none
* `Verif.Route.area_limits_ignored`: p
* `Verif.Route.second_circuit_lost`: none
* `Verif.Route.high_address_stops_node`: q, p
* `Verif.Route.message_from_endnode_stops_node`: q, p
* `Verif.Route.own_entry_late`: none

## C17

* `Verif.Conv.converges`: c, q, p
* `Verif.Conv.converges_any_limit`: c, q, p
* `Verif.Conv.settles_within`: c, q, p
* `Verif.Conv.stable_is_shortest`: q, p
* `Verif.Conv.stable_unique`: c, q, p
* `Verif.Conv.next_hop_closer`: q, p
* `Verif.Conv.receive_sim`: q, p
* `Verif.Conv.other_destination`: q, p

## C18

* `Verif.Forward.transits_bounded`: q, p
* `Verif.Forward.transit_spec`: q, p
* `Verif.Forward.transit_send`: q, p

## C19

* `Verif.Forward.transit_spec`: q, p
* `Verif.Forward.turned_at_most_once`: q, p
* `Verif.Forward.no_second_return`: q, p
* `Verif.Forward.originate_spec`: q, p

## C20

* `Verif.Forward.phase3_wire`: c, q, p
* `Verif.Forward.transit_spec`: q, p
* `Verif.Forward.transit_send`: q, p
* `Verif.Forward.transit_no_error`: q, p
* `Verif.Forward.turned_at_most_once`: q, p
* `Verif.Forward.received_as_sent_short`: c, q, p
* `Verif.Forward.received_as_sent_long`: c, q, p
* `Verif.Forward.to_nsp_iff`: c, q, p
* `Verif.Forward.originate_spec`: q, p
* `Verif.Forward.endnode_spec`: p

## C21

* `Verif.RUpdate.recipients`: q, p
* `Verif.RUpdate.update_complete`: c, q, p
* `Verif.RUpdate.update_ph3`: c, q, p
* `Verif.RUpdate.update_no_exception`: c, q, p
* `Verif.RUpdate.neighbours_know`: c, q, p
* `Verif.RUpdate.update_tells_all`: c, q, p
* `Verif.RUpdate.told_within_holdoff`: c, q, p
* `Verif.RUpdate.small_block_stops_node`: q, p

## C22

* `Verif.Lan.lan_agrees`: c, q, p
* `Verif.Lan.elected`: c, q, p
* `Verif.Lan.becomes_dr`: c, q, p
* `Verif.Lan.isdr_iff`: c, q, p

## C23

* `Verif.Lan.up_entitled`: c, q, p
* `Verif.Lan.up_heard`: c, q, p
* `Verif.Lan.router_limit`: c, q, p
* `Verif.Lan.one_adjacency`: c, q, p
* `Verif.Lan.lowest_dropped`: c, q, p
* `Verif.Lan.wrong_priority_stops`: c, q, p
* `Verif.Lan.high_priority_stops`: p
* `Verif.Lan.long_hello_time_stops`: p

## C24

* `Verif.Lan.silent_dropped_partial`: c, q, p
* `Verif.Lan.timer_expiry_removes`: c, q, p
* `Verif.Lan.silent_router_stays`: c, q, p
* `Verif.Lan.silent_goes_on`: p
* `Verif.Lan.stale_timer_removes`: p

## C25

* `Verif.Ptp.verified_up`: c, q, p
* `Verif.Ptp.no_password_never_up`: c, q, p
* `Verif.Ptp.up_history`: c, q, p
* `Verif.Ptp.wrong_password_restarts`: c, q, p
* `Verif.Ptp.right_password_up`: c, q, p
* `Verif.Ptp.phase2_password_prefix`: p
* `Verif.Ptp.phase2_no_password_stops`: c, q, p
* `Verif.Ptp.multinet_duplicate_init_stops`: c, q, p
* `Verif.Ptp.multinet_requeued_init_stops`: c, q, p

## C26

* `Verif.Ptp.up_allowed`: c, q, p
* `Verif.Ptp.up_limits_partial`: q, p
* `Verif.Ptp.good_init_accepted`: c, q, p
* `Verif.Ptp.bad_init_refused`: c, q, p
* `Verif.Ptp.told`: c, q, p
* `Verif.Ptp.running_error_restarts`: c, q, p
* `Verif.Ptp.running_leaves_iff`: c, q, p
* `Verif.Ptp.stop_takes_down`: c, q, p
* `Verif.Ptp.waiting_times_out`: c, q, p
* `Verif.Ptp.running_is_watched`: c, q, p
* `Verif.Ptp.ds_requested`: c, q, p
* `Verif.Ptp.passed_up`: c, q, p
* `Verif.Ptp.no_exception`: c, q, p
* `Verif.Ptp.phase2_number_unchecked`: p
* `Verif.Ptp.phase3_number_zero`: p
* `Verif.Ptp.phase2_long_password_stops`: c, q, p
* `Verif.Ptp.stopped_circuit_reopens`: p

## C27

* `Verif.Ddcmp.delivers_in_order`: c, q, p
* `Verif.Ddcmp.accepted_from_client`: q, p

## C28

* `Verif.Ddcmp.window_and_buffer`: c, q, p
* `Verif.Ddcmp.delivers_in_order`: c, q, p

## C29

* `Verif.DdcmpFrame.frame_roundtrip`: c, q, p
* `Verif.DdcmpFrame.encodable`: c, q, p
* `Verif.DdcmpFrame.header_burst_rejected`: c, q, p
* `Verif.DdcmpFrame.data_burst_rejected`: c, q, p
* `Verif.DdcmpFrame.accepted_is_encoding`: c, q, p
* `Verif.DdcmpFrame.udp_delivers`: c, q, p
* `Verif.DdcmpFrame.search_finds_first`: c, q, p
* `Verif.DdcmpFrame.stream_next`: c, q, p
* `Verif.DdcmpFrame.stream_delivers`: c, q, p
* `Verif.DdcmpFrame.noise_never_delivered`: q, p

## C30

* `Verif.DdcmpFrame.telnet_transparent`: c, q, p
* `Verif.DdcmpFrame.connection_delivers`: c, q, p

## C31

* `Verif.NspPkt.nsp_roundtrip`: c, q, p
* `Verif.NspPkt.nsp_encodes`: c, q, p
* `Verif.NspPkt.accepted_allowed`: c, q, p
* `Verif.NspPkt.disallowed_dropped`: c, q, p
* `Verif.NspPkt.nonempty_survives`: q, p
* `Verif.NspPkt.reserved_qual_skipped`: c, q, p
* `Verif.NspPkt.discConf_class`: p
* `Verif.NspPkt.empty_packet_stops_node`: p
* `Verif.NspPkt.tolerant_gap`: none

## C32

* `Verif.Nsp.delivered_numbers`: c, q, p
* `Verif.Nsp.delivered_in_order`: c, q, p
* `Verif.Nsp.delivered_complete`: c, q, p

## C33

* `Verif.Nsp.messages_intact`: q, p
* `Verif.Nsp.segments_of_message`: q, p
* `Verif.Nsp.empty_message_vanishes`: q, p

## C34

* `Verif.Nsp.end_to_end`: c, q, p

## C35

* `Verif.Nsp.ack_exact`: c, q, p
* `Verif.Nsp.released_was_received`: c, q, p
* `Verif.Nsp.bogus_ack_releases_unsent`: p

## C36

* `Verif.Nsp.window`: c, q, p
* `Verif.Nsp.flow_control`: c, q, p

## C37

* `Verif.NspMap.addresses_unique`: c, q, p
* `Verif.NspMap.reuse_fifo`: c, q, p
* `Verif.NspMap.reuse_value`: c, q, p
* `Verif.NspMap.refused_only_when_full`: c, q, p
* `Verif.NspMap.unknown_node_leaks`: p

## C38

* `Verif.NspMap.mapping_partial`: c, q, p
* `Verif.NspMap.mapping_connect`: c, q, p
* `Verif.NspMap.connections_run`: c, q, p
* `Verif.NspMap.mapping_poisoned`: p

## C39

* `Verif.Nsp.legal_transitions`: c, q, p
* `Verif.Nsp.data_only_when_running`: c, q, p
* `Verif.Nsp.closed_is_silent`: c, q, p
* `Verif.Nsp.released_once`: c, q, p

## C40

* `Verif.Nsp.transmission_limit`: c, q, p
* `Verif.Nsp.gives_up`: p
* `Verif.Nsp.retransmits`: q, p

## C41

* `Verif.Nsp.interrupt_limits`: c, q, p
* `Verif.Nsp.interrupt_too_long`: q, p

## C42

* `Verif.Nsp.recv_no_error_partial`: c, q, p
* `Verif.Nsp.timeout_no_error`: c, q, p
* `Verif.Nsp.send_errors`: c, q, p
* `Verif.Nsp.half_modulus_stops_node`: p
* `Verif.Nsp.half_modulus_ack_stops_node`: p
* `Verif.Nsp.deferred_disconnect_stops_node`: p

## C43

* `Verif.Bridge.forwarding`: c, q, p
* `Verif.Bridge.addresses`: q, p
* `Verif.Bridge.no_exception`: c, q, p

## C44

* `Verif.Bridge.entry_is_latest`: c, q, p
* `Verif.Bridge.present_while_heard`: c, q, p
* `Verif.Bridge.gone_when_silent`: c, q, p
* `Verif.Bridge.never_heard`: c, q, p
* `Verif.Bridge.no_exception`: c, q, p

## C45

* `Verif.Framing.Eth.eth_roundtrip`: c, q, p
* `Verif.Framing.Eth.eth_plain_roundtrip`: c, q, p
* `Verif.Framing.Eth.receive_iff`: c, q, p
* `Verif.Framing.Eth.eth_refused`: q, p
* `Verif.Framing.Eth.receive_error_short`: q, p
* `Verif.Framing.Eth.runt_ends_thread`: p
* `Verif.Framing.Eth.sap_payload_overrun`: p

## C46

* `Verif.Framing.Gre.gre_roundtrip`: c, q, p
* `Verif.Framing.Gre.gre_plain_roundtrip`: c, q, p
* `Verif.Framing.Gre.gre_length_partial`: c, q, p
* `Verif.Framing.Gre.gre_short_accepted`: p
* `Verif.Framing.Gre.gre_receive_only`: q, p
* `Verif.Framing.Gre.gre_runt_ends_thread`: p

## C47

* `Verif.Framing.Multinet.multinet_delivers_partial`: c, q, p
* `Verif.Framing.Multinet.broken_stream_prefix`: c, q, p
* `Verif.Framing.Multinet.whole_delivered`: c, q, p
* `Verif.Framing.Multinet.short_send_garbles`: p
* `Verif.Framing.Multinet.multinet_udp`: c, q, p
* `Verif.Framing.Multinet.udp_sequence`: c, q, p

## C48

* `Verif.Sess.started_iff`: c, q, p
* `Verif.Sess.rejected_iff`: c, q, p
* `Verif.Sess.started_rights`: c, q, p
* `Verif.Sess.decode_valid`: c, q, p
* `Verif.Sess.empty_connect_raises`: c, q, p

## C49

* `Verif.Sess.connect_roundtrip`: c, q, p
* `Verif.Sess.reserved_bit_rejected`: c, q, p
* `Verif.Sess.connect_encodes_iff`: c, q, p
* `Verif.Sess.endUser_roundtrip`: c, q, p
* `Verif.Sess.endUser_encodes_iff`: c, q, p

## C50

* `Verif.EvQueue.queue_bounded_honest`: c, q, p
* `Verif.EvQueue.queued_if_room`: p
* `Verif.EvQueue.no_marker_no_loss`: p
* `Verif.EvQueue.limit_zero_raises`: none

## C51

* `Verif.Nice.response_roundtrip`: c, q, p
* `Verif.Nice.encodes_iff`: c, q, p
* `Verif.Nice.encode_injective`: c, q, p
* `Verif.Nice.reencode`: c, q, p
* `Verif.Nice.reencode_item`: c, q, p
* `Verif.Nice.number_bits_lost`: p
* `Verif.Nice.decode_concat`: c, q, p
* `Verif.Nice.stray_bytes`: c, q, p
* `Verif.Nice.nested_multiple`: c, q, p
* `Verif.Nice.multiple_too_long`: c, q, p
* `Verif.Nice.decode_errors`: c, q, p
* `Verif.Nice.decReqItem_iff`: c, q, p
* `Verif.Nice.request_roundtrip`: c, q, p
* `Verif.Nice.request_unknown`: c, q, p
* `Verif.Nice.request_multiple`: c, q, p

## C52

* `Verif.Backoff.interval_formula`: q, p
* `Verif.Backoff.intervals_grow`: c, q, p
* `Verif.Backoff.reset_restarts`: q, p
* `Verif.Backoff.reaches_maximum`: q, p
* `Verif.Backoff.init_accepts`: c, q, p

## C53

* `Verif.Dlink.reports_alternate`: q, p
* `Verif.Dlink.alternates_iff`: q, p

## C54

* `Verif.WorkQ.in_order`: p
* `Verif.WorkQ.stops_for_good`: p
* `Verif.WorkQ.shutdown_reached`: q, p
* `Verif.WorkQ.exception_stops_node`: p

## C55

* `Verif.Config.accepted_iff`: c, q, p
* `Verif.Config.tables_consistent`: c, q, p
* `Verif.Config.database_consistent_partial`: c, q, p
* `Verif.Config.explicit_areas_suffice`: q, p
* `Verif.Config.default_area_collision`: none
* `Verif.Config.loop_node_hides_node`: q, p
* `Verif.Config.lookup_unknown`: q, p

## C56

* `Verif.Intercept.choose_iff`: none
* `Verif.Intercept.no_recv_iff`: q, p
* `Verif.Intercept.no_send_iff`: c, q, p
* `Verif.Intercept.table_latest`: c, q, p
* `Verif.Intercept.full_bare`: c, q, p
* `Verif.Intercept.full_hdr_iff`: p
* `Verif.Intercept.full_send`: p
* `Verif.Intercept.endnode_recv_iff`: c, q, p
* `Verif.Intercept.endnode_send_iff`: q, p
* `Verif.Intercept.through_router`: c, q, p
* `Verif.Intercept.reply_swaps`: p
* `Verif.Intercept.recv_raises_iff`: c, q, p
* `Verif.Intercept.returned_packet_stops`: p
* `Verif.Intercept.unknown_source_stops`: p
* `Verif.Intercept.other_disconnect_misroutes`: p
* `Verif.Intercept.unnamed_source_is_router`: p

## C57

* `Verif.Host.accepted_iff_partial`: c, q, p
* `Verif.Host.accepted_iff_unchanged`: c, q, p
* `Verif.Host.old_address_still_valid`: c, q, p
* `Verif.Host.mapped_answer_refused`: c, q, p

## C58

* `Verif.Timers.same_tick_in_start_order`: c, q, p

## C59

* `Verif.Ddcmp.never_stuck`: c, q, p

## C60

* `Verif.Fields.packet_roundtrip`: c, q, p
* `Verif.Fields.header_roundtrip`: c, q, p
* `Verif.Fields.class_roundtrip`: c, q, p
* `Verif.Fields.class_roundtrip_header`: c, q, p
* `Verif.RoutPkt.routing_classes_roundtrip`: c, q, p
* `Verif.Fields.Tables.classes_roundtrip`: c, q, p
* `Verif.Fields.empty_buffer_accepted`: q, p

## C61

* `Verif.Ptp.password_sent`: c, q, p
* `Verif.Ptp.phase2_long_password_stops`: c, q, p

## C62

* `Verif.Ddcmp.any_peer_safe`: c, q, p
* `Verif.Ddcmp.any_peer_item`: c, q, p

## C63

* `Verif.Host.chosen_from_latest`: c, q, p
* `Verif.Host.tries_all`: c, q, p
* `Verif.Host.preferred_first`: q, p

## C64

* `Verif.Dlink.never_waits_for_nothing`: q, p
* `Verif.Dlink.can_recover`: q, p
* `Verif.Dlink.start_lost`: p
* `Verif.Dlink.stopped_starts_itself`: p

## C65

* `Verif.Dlink.passed_in_order`: q, p
* `Verif.Dlink.passed_only_while_up`: q, p

## C66

* `Verif.SessConn.one_owner`: c, q, p
* `Verif.SessConn.nothing_after_close`: c, q, p
* `Verif.SessConn.connect_first`: c, q, p
* `Verif.SessConn.delivers_all`: c, q, p
* `Verif.SessConn.exit_after_error_stops`: q, p
* `Verif.SessConn.module_error_after_close_stops`: q, p
* `Verif.SessConn.failed_start_stops`: q, p

## C67

* `Verif.Cque.lists`: c, q, p
* `Verif.Cque.remove_twice`: q, p
* `Verif.Cque.add_linked_breaks`: none
* `Verif.Cque.refines`: q, p
* `Verif.Cque.expires_exactly`: c, q, p
* `Verif.Cque.delivered_fresh`: c, q, p

## C68

* `Verif.Mop.loop_route`: q, p
* `Verif.Mop.loop_forward`: q, p
* `Verif.Mop.loop_ends`: c, q, p

## C69

* `Verif.Mop.loop_raise_iff`: q, p
* `Verif.Mop.loop_no_error_partial`: q, p
* `Verif.Mop.loop_stops_node`: none

## C70

* `Verif.Mop.receipts`: q, p
* `Verif.Mop.no_reuse`: q, p
* `Verif.Mop.unexpected_reply`: q, p
* `Verif.Mop.reply_delivered`: q, p
* `Verif.Mop.counters_never_work`: none
* `Verif.Mop.console_never_connects`: p
* `Verif.MopId.other_kind_counts`: q, p

## C71

* `Verif.Mop.loop_test`: q, p
* `Verif.Mop.loop_test_ends`: c, q, p
* `Verif.Mop.client_left`: q, p
* `Verif.Mop.client_left_late`: none
* `Verif.Mop.no_reuse`: q, p

## C72

* `Verif.Mop.console_holder`: p
* `Verif.Mop.console_exclusive`: p
* `Verif.Mop.console_repeat`: q, p
* `Verif.Mop.response_bounded`: q, p
* `Verif.Mop.failed_start_blocks`: p
* `Verif.Mop.failed_start_stops`: p

## C73

* `Verif.Mop.typed_in_order`: c, q, p
* `Verif.Mop.typed_all`: c, q, p

## C74

* `Verif.Mop.shown_in_order`: c, q, p
* `Verif.Mop.shown_once_partial`: c, q, p
* `Verif.Mop.shown_twice`: p
* `Verif.Mop.shown_twice_slow`: p

## C75

* `Verif.LanEnd.next_hop_heard`: q, p
* `Verif.LanEnd.next_hop_router`: q, p
* `Verif.LanEnd.next_hop_direct`: q, p
* `Verif.LanEnd.forgotten_router`: c, q, p
* `Verif.LanEnd.forgotten_direct`: c, q, p
* `Verif.LanEnd.forgetting_lingers`: q, p

## C76

* `Verif.LanEnd.sent_once`: q, p
* `Verif.LanEnd.no_relay`: q, p
* `Verif.LanEnd.to_self`: p
* `Verif.LanEnd.loop_node`: q, p
* `Verif.LanEnd.returned_partial`: q, p
* `Verif.LanEnd.connect_returned_though_sent`: q, p
* `Verif.LanEnd.returned_connect_fails`: p

## C77

* `Verif.LanEnd.delivered`: c, q, p
* `Verif.LanEnd.nsp_items`: q, p
* `Verif.LanEnd.long_frame`: c, q, p
* `Verif.LanEnd.short_frame`: c, q, p
* `Verif.LanEnd.hello_frame`: c, q, p
* `Verif.LanEnd.ignored_frame`: q, p
* `Verif.LanEnd.frame_delivered`: c, q, p
* `Verif.LanEnd.accepted_iff`: c, q, p

## C78

* `Verif.LanEnd.routing_informed`: q, p
* `Verif.LanEnd.hello_regular`: q, p
* `Verif.LanEnd.hello_neighbor`: q, p
* `Verif.LanEnd.no_exception`: q, p
* `Verif.LanEnd.long_hello_time_stops_node`: q, p

## C79

* `Verif.EvLog.list_accepted`: c, q, p
* `Verif.EvLog.list_selects`: c, q, p
* `Verif.EvLog.list_all`: p
* `Verif.EvLog.list_unambiguous`: c, q, p
* `Verif.EvLog.known_iff`: q, p
* `Verif.EvLog.manual_reads`: p

## C80

* `Verif.EvLog.local_exact`: c, q, p
* `Verif.EvLog.remote_exact_partial`: c, q, p
* `Verif.EvLog.file_record`: q, p
* `Verif.EvLog.log_succeeds`: p
* `Verif.EvLog.remote_flags_ignored`: q, p
* `Verif.EvLog.no_configuration`: p
* `Verif.EvLog.bad_list_fails`: c, q, p
* `Verif.EvLog.received_exact`: c, q, p

## C81

* `Verif.EvLog.Remote.sent_in_order`: c, q, p
* `Verif.EvLog.Remote.sent_on_live`: q, p
* `Verif.EvLog.Remote.live_sends`: q, p
* `Verif.EvLog.Remote.one_connection`: q, p
* `Verif.EvLog.Remote.never_stuck_partial`: q, p
* `Verif.EvLog.Remote.timer_connects`: c, q, p
* `Verif.EvLog.Remote.accept_sends`: q, p
* `Verif.EvLog.Remote.no_exception`: c, q, p
* `Verif.EvLog.Remote.stop_aborts`: q, p
* `Verif.EvLog.Remote.early_event_waits`: q, p
* `Verif.EvLog.Remote.bad_event_raises`: q, p
* `Verif.EvLog.Remote.late_disconnect_drops`: q, p
* `Verif.EvLog.Remote.retry_not_kept`: q, p

## C82

* `Verif.EvLog.invalid_encodes_iff`: c, q, p
* `Verif.EvLog.invalid_readable_partial`: c, q, p
* `Verif.EvLog.invalid_unreadable`: c, q, p
* `Verif.EvLog.invalid_stops_file`: c, q, p
* `Verif.EvLog.invalid_stops_remote`: c, q, p
* `Verif.EvLog.zeros_dropped`: p

## C83

* `Verif.Nml.read_result`: q, p
* `Verif.Nml.read_old_result`: q, p
* `Verif.Nml.answered`: q, p
* `Verif.Nml.answered_old`: q, p
* `Verif.Nml.crash_only`: q, p
* `Verif.Nml.stray_bytes`: c, q, p
* `Verif.Nml.old_unknown_line`: q, p
* `Verif.Nml.parse_iff`: c, q, p
* `Verif.Nml.stray_iff`: c, q, p
* `Verif.Nml.setup`: q, p
* `Verif.Nml.permanent_refused`: q, p

## C84

* `Verif.Nml.modify_refused`: q, p
* `Verif.Nml.request_keeps`: q, p
* `Verif.Nml.parse_loop`: q, p

## C85

* `Verif.Nml.loop_start`: q, p
* `Verif.Nml.loop_refused`: q, p
* `Verif.Nml.loop_course`: c, q, p
* `Verif.Nml.Sys.inv`: q, p
* `Verif.Nml.loop_says`: q, p
* `Verif.Nml.loop_ends`: q, p
* `Verif.Nml.longest_refused`: q, p
* `Verif.Nml.second_loop_request`: q, p
* `Verif.Nml.refused_request_changes_count`: q, p
* `Verif.Nml.empty_from_mirror`: q, p
* `Verif.Nml.parameters`: c, q, p
* `Verif.Nml.reject_reported`: q, p
* `Verif.Nml.parse_iff`: c, q, p

## C86

* `Verif.Nml.api_same`: q, p
* `Verif.Nml.api_read`: q, p
* `Verif.Nml.api_answered`: q, p

## C87

* `Verif.Nml.circuit_request`: q, p
* `Verif.Nml.station`: q, p
* `Verif.Nml.parameters`: c, q, p
* `Verif.Nml.parse_iff`: c, q, p

## C88

* `Verif.AppApi.connect_to_holder_partial`: c, q, p
* `Verif.AppApi.bind_iff_partial`: c, q, p
* `Verif.AppApi.lower_case_steals`: q, p
* `Verif.AppApi.freed_by_another`: q, p

## C89

* `Verif.AppApi.others_kept`: q, p
* `Verif.AppApi.answered`: q, p
* `Verif.AppApi.packet_to_owner_partial`: c, q, p
* `Verif.AppApi.fails_iff_partial`: c, q, p

## C90

* `Verif.AppApi.gone_is_gone_partial`: c, q, p
* `Verif.AppApi.connect_to_holder_partial`: c, q, p
* `Verif.AppApi.bad_request_then_exit_stops`: c, q, p
* `Verif.AppApi.lower_case_stops`: q, p
* `Verif.AppApi.unbind_stops`: q, p

## C91

* `Verif.Fal.opened_inside`: q, p
* `Verif.Fal.listed_inside_partial`: q, p
* `Verif.Fal.listed_parent`: q, p
* `Verif.Fal.listing_escapes`: q, p
* `Verif.Fal.names_kept`: q, p

## C92

* `Verif.Fal.messages_arrive`: c, q, p
* `Verif.Fal.nothing_lost`: q, p
* `Verif.Fal.can_send`: q, p
* `Verif.Fal.unblocked`: q, p
* `Verif.Fal.block_size_partial`: q, p
* `Verif.Fal.block_too_large`: none
* `Verif.Fal.unlimited_peer`: q, p

## C93

* `Verif.Fal.binary_copy`: c, q, p
* `Verif.Fal.binary_blocks`: q, p
* `Verif.Fal.text_copy`: c, q, p
* `Verif.Fal.text_copy_explicit`: c, q, p
* `Verif.Fal.newlines_clean`: p
* `Verif.Fal.wide_character`: q, p

## C94

* `Verif.Fal.data_only_asked`: c, q, p
* `Verif.Fal.answered_partial`: q, p
* `Verif.Fal.flushed_partial`: q, p
* `Verif.Fal.error_held_back`: q, p
* `Verif.Fal.odd_blocks_die`: q, p
* `Verif.Fal.listing`: q, p
* `Verif.Fal.refused`: q, p

## C95

* `Verif.Conn.tags_fresh`: q, p
* `Verif.Conn.own_answer`: c, q, p
* `Verif.Conn.answered_once`: c, q, p
* `Verif.Conn.answer_given_partial`: c, q, p
* `Verif.Conn.waits`: q, p
* `Verif.Conn.down_iff`: c, q, p
* `Verif.Conn.down_final`: c, q, p
* `Verif.Conn.crossing_kills`: p
* `Verif.Conn.cancelled_kills`: p
* `Verif.Conn.cancelled_leaks`: p

## C96

* `Verif.Conn.messages_in_order`: c, q, p
* `Verif.Conn.recv_next`: c, q, p
* `Verif.Conn.recv_closes`: q, p
* `Verif.Conn.handles_apart`: c, q, p
* `Verif.Conn.heard_grows`: c, q, p
* `Verif.Conn.calls_in_order`: c, q, p
* `Verif.Conn.crossed_call_rejected`: c, q, p
* `Verif.Conn.request_sent`: c, q, p
* `Verif.Conn.request_refused`: c, q, p
* `Verif.Conn.crossing_kills`: p

## C97

* `Verif.Pmr.route_followed_partial`: c, q, p
* `Verif.Pmr.one_node`: c, q, p
* `Verif.Pmr.several_nodes`: c, q, p
* `Verif.Pmr.route_with_user`: c, q, p
* `Verif.Pmr.relay_route`: c, q, p
* `Verif.Pmr.plan_sound`: c, q, p
* `Verif.Pmr.answer_lists_route`: q, p
* `Verif.Pmr.answer_accepts`: p
* `Verif.Pmr.reject_text`: p
* `Verif.Pmr.short_success_raises`: none
* `Verif.Pmr.quote_kept`: c, q, p
* `Verif.Pmr.no_user`: c, q, p
* `Verif.Pmr.never_accepts`: q, p

## C98

* `Verif.ApiSock.requests_are_lines`: q, p
* `Verif.ApiSock.passed_on`: c, q, p
* `Verif.ApiSock.called_only`: c, q, p
* `Verif.ApiSock.answer_sent`: c, q, p
* `Verif.ApiSock.answered_at_once`: c, q, p
* `Verif.ApiSock.systems_listed`: c, q, p
* `Verif.ApiSock.undecodable`: q, p
* `Verif.ApiSock.ends_iff`: c, q, p
* `Verif.ApiSock.in_order`: c, q, p
* `Verif.ApiSock.nodes_told`: c, q, p
* `Verif.ApiSock.bad_repeats`: q, p
* `Verif.ApiSock.value_ends`: q, p

## C99

* `Verif.Dap.message_roundtrip`: c, q, p
* `Verif.Dap.message_types`: q, p
* `Verif.Dap.messages_read`: c, q, p
* `Verif.Dap.send_encodings`: c, q, p
* `Verif.Dap.plain_iff`: c, q, p
* `Verif.Dap.attributes_default`: c, q, p
* `Verif.Dap.omitted`: c, q, p
* `Verif.Dap.fillers`: q, p
* `Verif.Dap.mode_sendable`: c, q, p
* `Verif.Dap.mode_shown`: c, q, p
* `Verif.Dap.other_flags_swallow`: p
* `Verif.Dap.length_beyond_end`: q, p
* `Verif.Dap.spool_option_lost`: q, p
* `Verif.Dap.long_name_refused`: c, q, p
* `Verif.Dap.status_text`: c, q, p

