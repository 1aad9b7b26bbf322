{"id": "C01", "title": "Modular sequence-number comparison is a consistent window order", "statement": "For Mod numbers of modulus m, at most one of a<b, a==b, a>b holds; exactly one holds unless m is even and the two values are m/2 apart (then comparing raises TypeError). a<=b means a<b or a==b, > and >= are the mirror images, comparison is unchanged by adding the same amount to both sides, and for counters whose true values differ by less than m/2 it agrees with the order of the true (unbounded) counters.", "quantifier": "every modulus m>1, every pair of residues, every pair of unbounded counters less than m/2 apart", "why_tests_cant": "there are unboundedly many moduli and counter histories; wraparound cases are exactly what samples miss", "anchors": ["pydecnet/decnet/modulo.py: Mod.__lt__, __le__, __gt__, __ge__, __new__, Mod.__new__"]}
{"id": "C02", "title": "Modular arithmetic tracks unbounded counters", "statement": "Adding, subtracting or multiplying Mod numbers gives the residue of the same operation on any unbounded integers they represent, and the result is always a legal value 0..m-1; construction accepts exactly 0..m-1.", "quantifier": "all moduli, all integers", "why_tests_cant": "infinite domain", "anchors": ["pydecnet/decnet/modulo.py: Mod.__add__, __sub__, __mul__, __new__"]}
{"id": "C03", "title": "Timer wheel fires each timer exactly at its tick", "statement": "A timer started for n ticks (0<n<number of slots) and neither stopped nor restarted is expired at exactly the n-th following tick of the wheel, whatever other timers are started, stopped or restarted in between, and it is expired only once.", "quantifier": "all wheel sizes, all durations below the wheel size, every interleaving of start/stop/tick operations on any number of timers", "why_tests_cant": "interleavings of other timers' operations and wrap of the wheel position are unbounded", "anchors": ["pydecnet/decnet/timers.py: TimerWheel.start, stop, run, expirations; Cque.add_before, remove"]}
{"id": "C04", "title": "No stale timeout is delivered after stop or restart", "statement": "If a timer is stopped or restarted after it expired but before its queued timeout work item was processed, that queued timeout is dropped; a timeout reaches the owner only if the timer was not touched since its expiration. Each start yields at most one delivered timeout.", "quantifier": "every schedule of start/stop/tick/work-queue operations", "why_tests_cant": "depends on the race between the timer thread and the work queue; tests see a few schedules", "anchors": ["pydecnet/decnet/timers.py: Timeout.dispatch, Cque.remove, TimerWheel.expirations"]}
{"id": "C05", "title": "Counted-string (image) fields round-trip and are length-safe", "statement": "Encoding an image or ASCII field with maximum n succeeds exactly when it has at most n (<=255) bytes; decoding the encoding followed by any bytes gives back the value and exactly those following bytes; decoding never reads past the buffer: a truncated or over-long field is rejected.", "quantifier": "all byte strings, all maxima, all trailing buffers", "why_tests_cant": "infinite input space", "anchors": ["pydecnet/decnet/packet.py: I.encode, I.decode, A.encode, A.decode"]}
{"id": "C06", "title": "Fixed-width integer fields round-trip", "statement": "Little-endian integer fields (unsigned, signed, saturating counters) decode to the encoded value for every representable value, values out of range are rejected (saturated for counters), and the field consumes exactly its length.", "quantifier": "all widths and values", "why_tests_cant": "infinite input space", "anchors": ["pydecnet/decnet/packet.py: B.encode/decode, SIGNED, CTR"]}
{"id": "C07", "title": "Bit-map fields do not interfere", "statement": "In a bitmap field group with pairwise disjoint bit ranges, decode(encode(values)) returns every element unchanged; elements never disturb each other; a value too wide for its range is rejected rather than spilled into its neighbours.", "quantifier": "all layouts of disjoint ranges, all values", "why_tests_cant": "layouts and values are unbounded", "anchors": ["pydecnet/decnet/packet.py: BM.encode, BM.decode, BM.makecoderow"]}
{"id": "C08", "title": "Extensible (7-bit) integers round-trip", "statement": "For every non-negative integer that fits, the extensible encoding decodes to the same integer leaving the rest of the buffer untouched; the encoding is at most maxlen bytes or is rejected; only the last byte has a clear top bit.", "quantifier": "all naturals, all maximum lengths, all trailing buffers", "why_tests_cant": "infinite input space", "anchors": ["pydecnet/decnet/packet.py: EX.encode, EX.decode"]}
{"id": "C09", "title": "TLV field groups round-trip and are length-safe", "statement": "Encoding a TLV group and decoding it yields the same tagged values; decode consumes all the data or rejects it; no item reads beyond its declared length.", "quantifier": "all tag/value lists, all buffers", "why_tests_cant": "infinite input space", "anchors": ["pydecnet/decnet/packet.py: TLV.encode, TLV.decode"]}
{"id": "C10", "title": "CRC computation is the polynomial CRC and is incremental", "statement": "The table-driven CRC of a byte string equals bit-serial division by the polynomial for every input; feeding data in pieces gives the same result as feeding it at once.", "quantifier": "all polynomials/widths (at least 8), all byte strings, all splits", "why_tests_cant": "infinite input space", "anchors": ["pydecnet/crc.py: _CRCMeta, update variants, _maketable"]}
{"id": "C11", "title": "Data followed by its CRC checks good, and corrupted data does not", "statement": "Appending the CRC bytes to any message makes the check succeed; and for the DDCMP CRC-16 no burst error of at most 16 bits is ever accepted, in any message of any length.", "quantifier": "all messages, all error bursts and positions", "why_tests_cant": "infinite input space", "anchors": ["pydecnet/crc.py: CRC.good, CRC.__bytes__", "pydecnet/decnet/ddcmp.py: CRC16, DMHdr.decode"]}
{"id": "C12", "title": "Node addresses convert without loss", "statement": "area.node text, 16-bit wire form, (area, node) pair and DECnet Ethernet address all denote the same address: converting between them and back is the identity, area is 0..63 and node 0..1023, and two different node addresses never map to the same Ethernet address.", "quantifier": "all 16 bit addresses / all area-node pairs", "why_tests_cant": "whole-domain statement incl. injectivity", "anchors": ["pydecnet/decnet/common.py: Nodeid, Macaddr"]}
{"id": "C13", "title": "Data packet headers survive the wire", "statement": "Short-format and long-format routing data packets decode to the addresses, flags, visit count and payload they were encoded from, for every payload.", "quantifier": "all header values, all payloads", "why_tests_cant": "infinite input space", "anchors": ["pydecnet/decnet/routing_packets.py: ShortData, LongData"]}
{"id": "C14", "title": "Routing message checksum", "statement": "Every Phase III and Phase IV routing message the encoder produces passes the receiver's check as a message of the right phase; a message in which one 16-bit word was altered to a different value modulo 65535 never passes as the same phase.", "quantifier": "all segment lists, all single-word corruptions", "why_tests_cant": "infinite input space", "anchors": ["pydecnet/decnet/routing_packets.py: RoutingMessage.decode, Ph4RoutingMessage.encode, PhaseIIIRouting.encode"]}
{"id": "C15", "title": "Routing vectors survive the wire", "statement": "The (hops, cost) entries a router places in a routing message are exactly what the receiver extracts for the same destination ids, with one hop and the circuit cost added.", "quantifier": "all vectors with hops<=31, cost<=1023, all segmentations", "why_tests_cant": "infinite input space", "anchors": ["pydecnet/decnet/routing_packets.py: L1Segment, L2Segment, entries, RouteSegEntry"]}
{"id": "C16", "title": "Route selection is least-cost and respects limits", "statement": "After a routing decision the selected output circuit for a destination offers the minimum cost of all adjacencies offering it; the destination is reported reachable exactly if that minimum is within the maximum cost and its hops are within maximum hops; unreachable destinations have infinite cost/hops and no output.", "quantifier": "all adjacency tables and limits", "why_tests_cant": "all vectors of all adjacencies", "anchors": ["pydecnet/decnet/routing.py: L1Router.doroute, L1Router.check"]}
{"id": "C17", "title": "Distance vectors converge to shortest paths", "statement": "In any static network of routers exchanging routing vectors and applying the route decision, every state in which no router would change its table has exactly the shortest-path costs, and from any starting tables whatever order updates are processed in, the tables reach it after every router has been refreshed finitely many times; unreachable destinations become unreachable (bounded count to infinity).", "quantifier": "all finite topologies with positive costs, all initial tables, all fair update orders", "why_tests_cant": "topologies and schedules are unbounded", "anchors": ["pydecnet/decnet/routing.py: doroute, routemsg, Update"]}
{"id": "C18", "title": "Looping packets die", "statement": "A data packet is forwarded at most max-visits times (plus at most twice that while being returned to its sender) no matter how inconsistent the routing tables of the network are; a node never transmits a transit packet whose visit count exceeds the limit.", "quantifier": "all routing tables, all topologies incl. loops", "why_tests_cant": "routing loops of any shape", "anchors": ["pydecnet/decnet/routing.py: L1Router.forward"]}
{"id": "C19", "title": "Return to sender happens at most once", "statement": "An undeliverable packet is returned to its source only if return was requested and it is not already being returned; the returned packet has source and destination swapped, is marked returned, and can never be returned again.", "quantifier": "all packets, all tables", "why_tests_cant": "all packet/table combinations and histories", "anchors": ["pydecnet/decnet/routing.py: L1Router.forward"]}
{"id": "C20", "title": "Forwarding preserves the payload and endpoints", "statement": "A forwarded packet carries the same payload, source, destination as received, only visit count (+1) and header form change; a packet for this node goes to NSP and is never retransmitted.", "quantifier": "all packets, all tables", "why_tests_cant": "infinite input space", "anchors": ["pydecnet/decnet/routing.py: L1Router.forward, EndnodeRouting.send"]}
{"id": "C21", "title": "Routing updates are complete and fit", "statement": "An update sent on a circuit covers every destination flagged as changed, reports the current hops/cost for each covered destination, never contains two entries for one destination, and no packet exceeds the circuit's block size limit.", "quantifier": "all flag vectors, tables, block sizes", "why_tests_cant": "all subsets of changed destinations", "anchors": ["pydecnet/decnet/routing.py: Update.buildupdates, setsrm"]}
{"id": "C22", "title": "Designated router election is unique and agreed", "statement": "When the routers on a LAN in one area see each other, exactly one considers itself designated router and the others all name it: the one with highest (priority, address).", "quantifier": "all sets of routers with distinct addresses, all priorities", "why_tests_cant": "all router sets", "anchors": ["pydecnet/decnet/route_eth.py: RoutingLanCircuit.findbestdr, calcdr"]}
{"id": "C23", "title": "LAN router adjacency: two-way check and table limit", "statement": "A router adjacency is declared up only after a hello from that router that lists this node; the number of router adjacencies never exceeds the configured maximum, and the one dropped is the lowest (priority, address).", "quantifier": "all hello histories", "why_tests_cant": "all message histories", "anchors": ["pydecnet/decnet/route_eth.py: RoutingLanCircuit.dispatch"]}
{"id": "C24", "title": "A silent neighbour is eventually dropped", "statement": "Every LAN adjacency whose node stops sending hellos is removed when its listen timer runs out, so it no longer influences designated-router election.", "quantifier": "all hello histories", "why_tests_cant": "all histories", "anchors": ["pydecnet/decnet/route_eth.py: RoutingLanCircuit.dispatch, deladj", "pydecnet/decnet/adjacency.py: Adjacency.alive, dispatch"]}
{"id": "C25", "title": "Point-to-point circuit with verification", "statement": "If verification is required on a point-to-point circuit, the adjacency is reported up only after a verification message carrying exactly the configured password for the node named in the init message, sent by that node.", "quantifier": "all message sequences and timings", "why_tests_cant": "all message histories", "anchors": ["pydecnet/decnet/route_ptp.py: ri, rv, ru, validate"]}
{"id": "C26", "title": "Point-to-point neighbour acceptance", "statement": "A point-to-point adjacency comes up only with a neighbour whose address is within the configured limits/area rules and whose block size is known, and goes back to initialisation on any restart, timeout or protocol error.", "quantifier": "all init messages, all event orders", "why_tests_cant": "all histories", "anchors": ["pydecnet/decnet/route_ptp.py: ri, ds, ru, restart"]}
{"id": "C27", "title": "DDCMP delivers in order, once, without loss", "statement": "Between two running DDCMP stations over a channel that may lose or corrupt (detectably) any frames, the messages handed up by the receiver are always a prefix of the messages accepted by the sender, in order, none duplicated or skipped, for every schedule of losses, retransmissions, timeouts and acknowledgments.", "quantifier": "all schedules, all window sizes 1..255, any number of messages (sequence numbers wrap)", "why_tests_cant": "needs all loss/timing schedules and unbounded wraparound", "anchors": ["pydecnet/decnet/ddcmp.py: _DDCMP.running, send, process_ack, retransmit, sendmsg"]}
{"id": "C28", "title": "DDCMP window and retransmission buffer", "statement": "The number of unacknowledged DDCMP messages never exceeds the queue limit; a message is retained until acknowledged and released when acknowledged; the internal slot assertions never fail; queued messages are sent in order as the window opens.", "quantifier": "all schedules", "why_tests_cant": "all histories", "anchors": ["pydecnet/decnet/ddcmp.py: send, process_ack, cansend"]}
{"id": "C29", "title": "DDCMP frame headers survive the wire and corrupted headers are rejected", "statement": "Every DDCMP message decodes to the fields and data it was encoded from, alone in a datagram or anywhere in a stream of messages with fill between them; a header with up to 16-bit burst corruption is rejected, data with such corruption is never passed on as good, and the receiver resynchronises on the first valid header.", "quantifier": "all header values, all burst errors", "why_tests_cant": "infinite input space", "anchors": ["pydecnet/decnet/ddcmp.py: DMHdr.decode, encode, BaseDataMsg, CtlMsg"]}
{"id": "C30", "title": "DDCMP over telnet is byte transparent", "statement": "Bytes sent through the telnet DEL escaping are received unchanged, for any data and any segmentation of the stream.", "quantifier": "all byte strings, all read boundaries", "why_tests_cant": "infinite input space", "anchors": ["pydecnet/decnet/ddcmp.py: telnet escape code 1111-1131, 1194"]}
{"id": "C31", "title": "NSP messages survive the wire", "statement": "NSP data, interrupt, link service, acknowledgment, connect and disconnect messages decode to the link addresses, sequence numbers, flags, acks and payload they were encoded from.", "quantifier": "all field values and payloads", "why_tests_cant": "infinite input space", "anchors": ["pydecnet/decnet/nsp_packets.py"]}
{"id": "C32", "title": "NSP receive side delivers each segment once and in order", "statement": "Whatever order, duplication or loss the network applies, the segments passed up by a subchannel are exactly numbers 1,2,3,... in sequence, each once, provided each arriving number lies within 2047 of the last one delivered.", "quantifier": "all arrival sequences", "why_tests_cant": "all arrival orders, wraparound", "anchors": ["pydecnet/decnet/nsp.py: Subchannel.dispatch"]}
{"id": "C33", "title": "NSP transfers whole messages intact", "statement": "Segmenting a nonempty message at any segment size and reassembling the segments in order yields that message and only that, for any sequence of messages.", "quantifier": "all messages, all segment sizes >= 1", "why_tests_cant": "infinite input space", "anchors": ["pydecnet/decnet/nsp.py: Connection.send_data, to_sc"]}
{"id": "C34", "title": "NSP end to end: reliable ordered byte-exact messages", "statement": "Over a network that loses, duplicates and reorders packets (within the sequence number lifetime), the messages delivered to the remote application are always a prefix of the (non-empty) messages accepted from the sending application.", "quantifier": "all schedules", "why_tests_cant": "all schedules and wraparound", "anchors": ["pydecnet/decnet/nsp.py: Data_Subchannel, Subchannel.dispatch, ack, Connection.send_data, to_sc"]}
{"id": "C35", "title": "NSP acknowledgments release exactly the acknowledged segments", "statement": "Processing an acknowledgment removes exactly the pending segments up to that number and ignores acknowledgments outside the sent range; with a conforming peer no segment is released that the peer has not received.", "quantifier": "all queues and ack numbers", "why_tests_cant": "all histories", "anchors": ["pydecnet/decnet/nsp.py: Subchannel.ack, process_ack"]}
{"id": "C36", "title": "NSP send window and flow control", "statement": "At most qmax data segments are outstanding at any time; with segment or message flow control no more segments/messages are sent than the peer requested; nothing is sent when the peer has turned the flow off.", "quantifier": "all histories of sends, acks and link service messages", "why_tests_cant": "all histories", "anchors": ["pydecnet/decnet/nsp.py: Data_Subchannel.flow_ok, send, send_qe, process_ls, send_blocked"]}
{"id": "C37", "title": "NSP connection identifiers are unique", "statement": "Two connections that exist at the same time never share a local link address, the address is never zero, a released address is not reused until all other free ones were used, and at most max-connections exist.", "quantifier": "all open/close histories, all configurations", "why_tests_cant": "all histories", "anchors": ["pydecnet/decnet/nsp.py: NSP.init_id, get_id, ret_id"]}
{"id": "C38", "title": "NSP packets only reach the connection they belong to", "statement": "A received NSP message is acted on only by the open connection that has the message's destination link address and whose remote node and (once known) remote link address equal the message's source; otherwise it is answered from the reserved port or dropped, and discarded classes are never answered.", "quantifier": "all connection tables, all messages", "why_tests_cant": "all tables x messages", "anchors": ["pydecnet/decnet/nsp.py: NSP.dispatch, ReservedPort"]}
{"id": "C39", "title": "NSP connection life cycle", "statement": "An NSP connection follows only legal state transitions, delivers data to session control only while running, and after it is closed sends or delivers nothing more and its link address is released exactly once.", "quantifier": "all event sequences", "why_tests_cant": "all histories", "anchors": ["pydecnet/decnet/nsp.py: Connection"]}
{"id": "C40", "title": "NSP gives up after the retransmission limit", "statement": "A message that is never acknowledged is transmitted a bounded number of times (the configured limit), after which the connection is closed and session control is told.", "quantifier": "all timer/ack schedules", "why_tests_cant": "all schedules", "anchors": ["pydecnet/decnet/nsp.py: txqentry.dispatch, send"]}
{"id": "C41", "title": "NSP interrupt messages respect their limits", "statement": "An interrupt longer than 16 bytes is rejected, and the number of interrupts sent never exceeds the credit granted by the peer.", "quantifier": "all histories", "why_tests_cant": "all histories", "anchors": ["pydecnet/decnet/nsp.py: Connection.interrupt, Other_Subchannel.send, process_ls"]}
{"id": "C42", "title": "No received packet can stop the node", "statement": "Processing a received NSP data segment or acknowledgment never raises an unhandled error, which would stop the whole node's main loop.", "quantifier": "all received sequence and acknowledgment numbers in every connection state", "why_tests_cant": "one bad value out of 4096 in each state", "anchors": ["pydecnet/decnet/nsp.py: Subchannel.dispatch, ack", "pydecnet/decnet/node.py: Node.mainloop", "pydecnet/decnet/modulo.py"]}
{"id": "C43", "title": "Bridge forwarding", "statement": "The bridge never sends a frame back out the circuit it arrived on; a frame to a known station goes to exactly the circuit where that station was last heard; a frame to an unknown station goes once to each other circuit; frames are forwarded unchanged.", "quantifier": "all histories of frames and timeouts", "why_tests_cant": "all histories", "anchors": ["pydecnet/decnet/bridge.py: Bridge.dispatch, AddrDb.learn"]}
{"id": "C44", "title": "Bridge learning and ageing", "statement": "The bridge's table entry for a station is the circuit of the latest frame from it and exists exactly while a frame from it was received within the ageing time.", "quantifier": "all histories of frames and clock ticks", "why_tests_cant": "all histories", "anchors": ["pydecnet/decnet/bridge.py: AddrDb.learn, AddrEnt"]}
{"id": "C45", "title": "Ethernet framing", "statement": "A payload sent through a padded (length-prefixed) Ethernet port is received unchanged whatever its length (up to 1498) and the minimum-frame padding; received frames with inconsistent length are dropped; frames not addressed to the port are not delivered.", "quantifier": "all payloads, addresses, previous frame buffer contents", "why_tests_cant": "infinite input space", "anchors": ["pydecnet/decnet/ethernet.py: EthPort.send, _Ethernet.receive"]}
{"id": "C46", "title": "GRE framing", "statement": "A payload sent through a GRE port is received unchanged; a frame whose length field exceeds the data present is dropped.", "quantifier": "all payloads", "why_tests_cant": "infinite input space", "anchors": ["pydecnet/decnet/gre.py: GREPort.send, GRE.run"]}
{"id": "C47", "title": "Multinet stream framing", "statement": "Over TCP, the sequence of messages received equals the sequence sent, for any segmentation of the byte stream; a partial stream yields a prefix.", "quantifier": "all message sequences, all TCP segmentations", "why_tests_cant": "infinite input space", "anchors": ["pydecnet/decnet/multinet.py: _TcpMultinet.send, receive_loop", "pydecnet/decnet/datalink.py: recvall"]}
{"id": "C48", "title": "Session control access control", "statement": "For an object that requires authentication, an incoming connect reaches the application only if a user name and password were supplied and the system authenticator accepted them, or the object uses login mode with a configured default user; otherwise it is rejected and nothing is started.", "quantifier": "all connect messages, object configurations, authenticator outcomes", "why_tests_cant": "all combinations and authenticators", "anchors": ["pydecnet/decnet/session.py: Session.dispatch"]}
{"id": "C49", "title": "Session control connect message survives the wire", "statement": "A session-control connect message decodes to the same destination/source end-user descriptors, access control strings and user data it was encoded from.", "quantifier": "all names, credentials, data", "why_tests_cant": "infinite input space", "anchors": ["pydecnet/decnet/session.py: SessionConnInit, EndUser"]}
{"id": "C50", "title": "Remote event queue is bounded and honest", "statement": "The event queue for a remote sink never holds more than its limit plus one lost-events marker; events leave in the order logged, and whenever an event is discarded a lost-events marker follows the last retained event.", "quantifier": "all sequences of events and sends", "why_tests_cant": "all histories", "anchors": ["pydecnet/decnet/event_logger.py: EventQueue.append"]}
{"id": "C51", "title": "NICE parameters survive the wire", "statement": "Network management parameters and counters of every standard type decode to the value encoded, leaving the rest of the message untouched; counters saturate rather than wrap.", "quantifier": "all values and types", "why_tests_cant": "infinite input space", "anchors": ["pydecnet/decnet/nice_coding.py"]}
{"id": "C52", "title": "Backoff intervals", "statement": "Successive retry intervals never decrease, never exceed the configured maximum, double until they reach it, and restart at the minimum after reset.", "quantifier": "all limits and histories", "why_tests_cant": "all histories", "anchors": ["pydecnet/decnet/common.py: Backoff"]}
{"id": "C53", "title": "Datalink status reports alternate", "statement": "A point-to-point datalink reports UP and DOWN to its owner strictly alternately starting with UP.", "quantifier": "all event sequences", "why_tests_cant": "all histories", "anchors": ["pydecnet/decnet/datalink.py: PtpDatalink.report_up, report_down, validate"]}
{"id": "C54", "title": "Work items run one at a time in order", "statement": "Work items are processed by a node in the order they were queued, one at a time; the shutdown request stops processing.", "quantifier": "all queues", "why_tests_cant": "all histories", "anchors": ["pydecnet/decnet/node.py: Node.addwork, mainloop"]}
{"id": "C55", "title": "Node name/address tables stay consistent", "statement": "Node database entries are consistent: conflicting redefinition of a name or number is rejected, an identical one is accepted, and afterwards each number has one name.", "quantifier": "all configuration sequences", "why_tests_cant": "all histories", "anchors": ["pydecnet/decnet/config.py: checkdict"]}
{"id": "C56", "title": "Phase II intercept does not misdeliver", "statement": "Without intercept, a packet from a Phase II neighbour is accepted only when addressed from the neighbour to this node, and only packets from this node to the neighbour are sent there; with full intercept, packets without route header go to the node recorded for that link or to this node.", "quantifier": "all packets, connection tables", "why_tests_cant": "all histories", "anchors": ["pydecnet/decnet/intercept.py"]}
{"id": "C57", "title": "Peer address check follows the latest lookup", "statement": "A datagram or connection is accepted only from an address found at the most recent lookup of the configured peer.", "quantifier": "all lookup histories", "why_tests_cant": "all histories", "anchors": ["pydecnet/decnet/host.py: HostAddress.valid, lookup_done"]}
{"id": "C58", "title": "Timers due on the same tick expire in start order", "statement": "If two running timers fall due on the same tick, the one started first expires first, and its timeout is delivered first.", "quantifier": "all histories and interleavings of callers with the timer thread", "why_tests_cant": "all schedules", "anchors": ["pydecnet/decnet/timers.py: TimerWheel.start, Cque.add_before, TimerWheel.expirations"]}
{"id": "C59", "title": "DDCMP cannot get stuck", "statement": "Whatever losses, damage, timeouts and client sends happened since two DDCMP stations connected, timeouts and frame arrivals can still bring both ends to the running state and deliver every accepted message in both directions.", "quantifier": "all reachable states of two stations and their channels", "why_tests_cant": "quantifies over all histories and asserts existence of a continuation", "anchors": ["pydecnet/decnet/ddcmp.py: Istart, Astart, running, process_ack, retransmit, send_rep"]}
{"id": "C60", "title": "Every packet layout round-trips", "statement": "For any packet class built from field, bit-map, reserved, TLV and payload rows with distinct attribute names, an encoded packet decodes without leftover data to the attribute values it was built from (defaults where none were set), and no other attribute appears.", "quantifier": "all packet classes (layouts), all attribute assignments", "why_tests_cant": "a unit test covers one class and a handful of values", "anchors": ["pydecnet/decnet/packet.py: Packet.encode, Packet.decode_data, packet_encoding_meta, ROField"]}
{"id": "C61", "title": "Our own password", "statement": "On a point-to-point circuit our verification password is sent only in answer to an acceptable init message that asks for it, and it is the password configured for the node which sent that message (empty if none is configured).", "quantifier": "all message sequences and timings, all configurations", "why_tests_cant": "all histories, including restarts in the middle of initialisation", "anchors": ["pydecnet/decnet/route_ptp.py: ri, dlsend", "pydecnet/decnet/node.py: nodeinfo"]}
{"id": "C62", "title": "DDCMP against any peer", "statement": "Whatever frames a DDCMP station receives, with whatever numbers, from a faulty or hostile peer, it fails no assertion, never has more than the configured number of messages outstanding, keeps every unacknowledged message, releases messages only for an acknowledgement number naming an outstanding message, and hands up a data message only if it has the next number.", "quantifier": "all sequences of received frames, errors, timeouts and client sends", "why_tests_cant": "all histories of arbitrary input", "anchors": ["pydecnet/decnet/ddcmp.py: running, process_ack, retransmit, send"]}
{"id": "C63", "title": "Addresses used for outgoing connections", "statement": "Once a lookup of a configured peer found a usable address there is always a chosen address; it was found by the latest lookup that found anything; successive attempts try every address of that lookup once per round, those of the preferred family first.", "quantifier": "all histories of lookups, their answers, and connection attempts", "why_tests_cant": "all histories of lookup answers", "anchors": ["pydecnet/decnet/host.py: HostAddress.lookup_done, __next__, addrinfo"]}
{"id": "C64", "title": "A point-to-point datalink does not get stuck", "statement": "A datalink that is not halted, or that set out to connect and was not told to stop since, always has a receive thread, an effective queued event or a running timer; from every such state without a pending stop it can come up again with no further command.", "quantifier": "all interleavings of owner commands, receive thread actions, timer expiries, send errors and main loop rounds", "why_tests_cant": "all schedules of two threads and a timer", "anchors": ["pydecnet/decnet/datalink.py: PtpDatalink", "pydecnet/decnet/multinet.py: _Multinet"]}
{"id": "C65", "title": "Messages of a point-to-point datalink", "statement": "A datalink passes a message to its owner only while it has reported UP; the messages passed since the UP report are the first ones received on that one connection, in order, with none missing, repeated or left over from an earlier connection.", "quantifier": "all interleavings of owner commands, receive thread actions, timer expiries, send errors and main loop rounds, any number of connections", "why_tests_cant": "all schedules of two threads and a timer", "anchors": ["pydecnet/decnet/datalink.py: PtpDatalink", "pydecnet/decnet/multinet.py: _Multinet.receive_loop"]}
{"id": "C66", "title": "Applications get the messages of their own connections", "statement": "All messages of a connection go to one application; the first of a connection that came in is the connect message, admitted by the access check; nothing is delivered after the connection was closed by either side. While applications raise no errors the node keeps running and every message of an open connection is delivered to its application in order.", "quantifier": "all histories of connects, packets, application requests, closes, errors and exits, any number of applications and connections", "why_tests_cant": "all histories", "anchors": ["pydecnet/decnet/session.py: Session.dispatch, SessionConnection, BaseConnector, DictConnector, InternalConnector"]}
{"id": "C67", "title": "The timer lists stay intact under concurrent use", "statement": "Starting, stopping and expiring timers from the node thread and the timer thread in any interleaving, including a list being emptied between the timer thread's unlocked test and its removal, never loses, duplicates or misplaces a timer: the linked lists always hold exactly the timers running, in start order, and stopping a timer that is not running is harmless.", "quantifier": "all interleavings of starts, stops, ticks, tests, removals and deliveries, any number of timers and slots", "why_tests_cant": "heap-shape invariant under concurrency; a race of a few instructions", "anchors": ["pydecnet/decnet/timers.py: Cque, TimerWheel.start, TimerWheel.stop, TimerWheel.expirations"]}
{"id": "C68", "title": "MOP loop packets take the requested way", "statement": "A loop request built for given assistant stations is forwarded from one to the next in the order given and comes back as a loop reply with the same receipt number and data. A forwarding station changes nothing but the skip count, sends only to an individual address, and no packet whatever is forwarded more than about once per 8 bytes of its length.", "quantifier": "all lists of assistants, all payloads and receipt numbers; all byte strings", "why_tests_cant": "all packets, chains of any length", "anchors": ["pydecnet/decnet/mop.py: LoopHandler.dispatch, LoopConnection.buildloop, LoopSkip, LoopFwd, LoopReply"]}
{"id": "C69", "title": "Loop packets cannot stop the node", "statement": "Whatever the content of a received loop packet, handling it raises no exception.", "quantifier": "all byte strings", "why_tests_cant": "all inputs", "anchors": ["pydecnet/decnet/mop.py: LoopHandler.dispatch"]}
{"id": "C70", "title": "Receipt numbers and replies", "statement": "Receipt numbers lie between 1 and 65535 and are not used again within 65535 requests. A reply is counted for the request it answers, once, and for no other; a reply to no pending request has no effect.", "quantifier": "all start values, all histories of requests, replies, timeouts and client exits", "why_tests_cant": "all histories", "anchors": ["pydecnet/decnet/mop.py: ReceiptGen, MopCircuit.request, MopCircuit.deliver, MopConnection"]}
{"id": "C71", "title": "Loop test results", "statement": "A loop test sends at most the number of packets asked for and answers its client exactly once, with the outcome of every packet in order; a network management test stops at the first packet not answered and reports how many were not looped. It ends after a bounded number of timeouts, and stops without an answer if its client leaves before the first outcome.", "quantifier": "all histories of any number of concurrent tests, replies (also late, repeated and forged), timeouts and client exits", "why_tests_cant": "all histories and interleavings", "anchors": ["pydecnet/decnet/mop.py: LoopConnection.start, dispatch, send_req, finished, MopConnection.cancel, end_api"]}
{"id": "C72", "title": "The remote console belongs to one station at a time", "statement": "The console is given to the first station that presents the configured password while it is free, to none if no password is configured, and stays with that station until it releases it or its reservation times out. Only its commands are typed and answered; a repeated command is answered again without being typed again.", "quantifier": "all histories of requests, commands, releases, identity queries and timeouts from any stations", "why_tests_cant": "all histories", "anchors": ["pydecnet/decnet/mop.py: MopCircuit.dispatch, CarrierServer, SysIdHandler.send_id"]}
{"id": "C73", "title": "Console input arrives exactly once and in order", "statement": "What the user of a console connection types reaches the remote terminal exactly once and in order, however many commands and responses are lost or repeated and whatever the timing of retries and partial terminal writes.", "quantifier": "all histories of input, losses, repetitions and timeouts", "why_tests_cant": "all schedules of a lossy channel", "anchors": ["pydecnet/decnet/mop.py: CarrierClientConnection.active, sendpoll, CarrierServer.dispatch"]}
{"id": "C74", "title": "Console output arrives exactly once and in order", "statement": "What the remote terminal outputs is shown to the user of a console connection exactly once and in order, however many commands and responses are lost or repeated.", "quantifier": "all histories of input, losses, repetitions and timeouts", "why_tests_cant": "all schedules of a lossy channel", "anchors": ["pydecnet/decnet/mop.py: CarrierClientConnection.active, CarrierServer.dispatch"]}
{"id": "C75", "title": "Next hop of an end node on a LAN", "statement": "A packet an end node on a LAN sends to another node goes to the link address from which that node was last heard, if that was within the last minute; otherwise to the designated router, the one of the latest hello of a router of its area while that is within the router's listen time; otherwise directly to the node. A caller can ask not to trust what was heard; then the node must be heard again first.", "quantifier": "all histories of received messages, requests to send and timer events with timers served when due, all nodes, routers and times", "why_tests_cant": "all histories and times", "anchors": ["pydecnet/decnet/route_eth.py: EndnodeLanCircuit.send, dispatch, cache_expire, NiCacheEntry", "pydecnet/decnet/routing.py: EndnodeRouting.send"]}
{"id": "C76", "title": "An end node sends each packet once or returns it", "statement": "An end node puts each packet for another node on its LAN exactly once, unaltered, and no packet that its own NSP did not ask for. A packet for itself goes to its NSP. A packet with return request (Connect Initiate) comes back to NSP exactly if it could not be sent.", "quantifier": "all histories, all destinations and payloads, also with late timers", "why_tests_cant": "all histories", "anchors": ["pydecnet/decnet/route_eth.py: EndnodeLanCircuit.send", "pydecnet/decnet/routing.py: EndnodeRouting.send, dispatch, SelfAdj.send", "pydecnet/decnet/nsp.py: Connection.ci"]}
{"id": "C77", "title": "What an end node takes from its LAN", "statement": "Every data packet in a frame addressed to this node, short or long format, with or without padding before it, reaches NSP exactly once with its source, payload and return mark; nothing else does. Frames from itself, from addresses that are not DECnet node addresses, with other message types or with double padding are ignored.", "quantifier": "all byte strings as frames, all data packets, all histories", "why_tests_cant": "all inputs", "anchors": ["pydecnet/decnet/route_eth.py: LanCircuit.common_dispatch, EndnodeLanCircuit.dispatch", "pydecnet/decnet/routing.py: EndnodeRouting.dispatch, SelfAdj.send"]}
{"id": "C78", "title": "An end node and its designated router", "statement": "The routing layer of an end node is told of at most one router at a time: the one of the latest hello, until its listen time has passed without another. Hello messages of the end node go out at exact multiples of the hello time and name that router. No message or timer makes the node fail, provided hello times are below 1162 s.", "quantifier": "all histories with timers served when due", "why_tests_cant": "all histories and times", "anchors": ["pydecnet/decnet/route_eth.py: EndnodeLanCircuit.dispatch, sendhello, adj_timeout", "pydecnet/decnet/adjacency.py: Adjacency"]}
{"id": "C79", "title": "Event lists mean what the manual says", "statement": "An event list in a logging configuration is accepted exactly if it is *.* or a comma separated list of entries class.type, class.type-type2, class.*, or these without the class after the first, with classes below 512, types up to 31 and increasing ranges. It selects exactly the known events in the ranges so written; an entry without a class is of the class of the entry before it. The meaning does not depend on how the text is read.", "quantifier": "all texts and all events", "why_tests_cant": "all inputs of unbounded length", "anchors": ["pydecnet/decnet/event_logger.py: parse_events, evt_re, EventFilter.setfilter, KNOWN_EVENTS"]}
{"id": "C80", "title": "Events reach exactly the sinks that are to have them", "statement": "An event of this node is written once to each local sink (console, file, monitor) whose configuration entry selects it and to no other, and sent once to each other node a sink of which is to have it, marked for the sinks of that node that select it. An event from another node is written to the local sinks it is marked for. Nothing else is logged.", "quantifier": "all configurations and events, any number of nodes in the process", "why_tests_cant": "all configurations and events", "anchors": ["pydecnet/decnet/event_logger.py: EventLogger, EventSink, LocalConsole, LocalFile, LocalMonitor, RemoteSink.sinkmask, logremoteevent", "pydecnet/decnet/node.py: Node.logevent"]}
{"id": "C81", "title": "Events for a remote sink wait for a connection and are sent in order", "statement": "Events for another node are sent in the order they were logged, each once, over however many connections it takes, except for stretches dropped when 50 wait, which are marked. They are sent only on a connection that was accepted and has not ended. At most one connection is set up or in use at a time. While one is in use nothing waits; otherwise a waiting event always has a connection being set up or a running retry timer, unless the node is stopped or the name of the other node unknown. No failure of connections raises an exception.", "quantifier": "all histories of events logged, connections accepted, rejected and lost (also late and repeated), sends that fail at any point, time-outs, start and stop", "why_tests_cant": "all histories and crash points", "anchors": ["pydecnet/decnet/event_logger.py: RemoteSink, EventQueue", "pydecnet/decnet/session.py: SessionConnection"]}
{"id": "C82", "title": "A bad packet is reported, not fatal", "statement": "A received packet that cannot be decoded as an NSP message, whatever its content and length, is reported as event 3.0 with its bytes, which the node that receives the event can read; it does not disturb the node.", "quantifier": "all byte strings, all logging configurations", "why_tests_cant": "all inputs", "anchors": ["pydecnet/decnet/nsp.py: NSP.dispatch", "pydecnet/decnet/events.py: EclEvent, inv_msg", "pydecnet/decnet/nice_coding.py: CM1.encode, checktype"]}
{"id": "C83", "title": "Each management request has one complete answer", "statement": "Every message a network manager (NCP) sends is answered by exactly one complete sequence of replies, or starts a loop test whose result follows; a malformed or unknown one is answered with an error. The answer to a read request contains exactly the entities the layers of the node reported that were asked for, in order, each with all its records; an entity that does not exist is an error, several of which there are none are an empty list.", "quantifier": "all byte strings, all answers of the layers, Phase II and Phase III/IV managers", "why_tests_cant": "all inputs", "anchors": ["pydecnet/decnet/modules/nml.py: Application.dispatch, sendreply", "pydecnet/decnet/nicepackets.py: NiceRequestHeader and subclasses, NodeReqEntity", "pydecnet/decnet/nice_coding.py: NICE.decode"]}
{"id": "C84", "title": "Network managers cannot change the node", "statement": "A management message with any function other than read information and loop is refused, whatever its contents: with a privilege violation for zero counters, with 'unrecognized function' otherwise, and has no effect on the node or the listener (a malformed change request may end the management connection).", "quantifier": "all byte strings and states", "why_tests_cant": "all inputs", "anchors": ["pydecnet/decnet/modules/nml.py: Application.dispatch", "pydecnet/decnet/nicepackets.py: NiceZeroCtrHdr, NiceSetParamHdr"]}
{"id": "C85", "title": "Loop test with another node", "statement": "A loop test of count c and data d reports success exactly when d has come back c times, having been sent c times; otherwise it reports the reason and how many did not come back. There is one report, after which the connection is not used. Against the mirror of this code it succeeds after c round trips, whatever else the manager asks meanwhile.", "quantifier": "all counts, lengths, data and histories of both connections", "why_tests_cant": "all histories and schedules", "anchors": ["pydecnet/decnet/modules/nml.py: Application.loop_request, loop_work", "pydecnet/decnet/modules/mirror.py: Application.dispatch"]}
{"id": "C86", "title": "Local management calls", "statement": "A management request made at the local programming interface is answered by exactly one dictionary, from which the caller learns the same as a manager on the network from the sequence of replies.", "quantifier": "all complete answers, all requests", "why_tests_cant": "all inputs", "anchors": ["pydecnet/decnet/modules/nml.py: Application.api, sendreply", "pydecnet/decnet/session.py: Session.nice_api"]}
{"id": "C87", "title": "Assisted loop tests over a circuit", "statement": "A circuit loop test is started only on an existing circuit with count, length and help in range. Its packets go to the station named; with help by way of the assistant on the way there (transmit), back (receive) or both (full), for which both stations must be named and the assistant's address not be a multicast.", "quantifier": "all byte strings as requests, all answers of the node data base", "why_tests_cant": "all inputs", "anchors": ["pydecnet/decnet/modules/nml.py: Application.loop_circuit"]}
{"id": "C88", "title": "Objects bound by applications", "statement": "An application that asks the programming interface to bind an object number or name is granted it exactly when the request has a number or a name and nobody (the configuration or another application) holds either; from then on every connect from the network for that number or name (in upper or lower case) is given to that application and no other, until it exits.", "quantifier": "all configurations, all histories of requests, exits, incoming connects and packets of any number of applications", "why_tests_cant": "any history, any interleaving of applications", "anchors": ["pydecnet/decnet/session.py: DictConnector.bind, ApiListener, ObjectListener, Session.dispatch, BaseConnector.dispatch"]}
{"id": "C89", "title": "Connections of applications are apart", "statement": "Each request of an application is answered once, with its tag, or is a call that succeeds silently, or ends the application's connections; nothing one application does (bad handles, bad arguments, exit) closes, answers for or shows up on a connection of another; a packet on a connection is told to the application the connection belongs to and to nobody else.", "quantifier": "all histories of any number of applications", "why_tests_cant": "any history, any interleaving of applications", "anchors": ["pydecnet/decnet/session.py: DictConnector.dispatch2, BaseConnector.dispatch, ApiConnector"]}
{"id": "C90", "title": "The exit of an application", "statement": "When an application exits or fails, its connections are aborted and its objects freed, it is told nothing more, and the node and the other applications go on.", "quantifier": "all histories of any number of applications", "why_tests_cant": "any history", "anchors": ["pydecnet/decnet/session.py: BaseConnector.dispatch, ApiListener.disconnect, ApiConnector.close"]}
{"id": "C91", "title": "What the file listener shows of the disk", "statement": "A user without own account who asks the file access listener for a file, whatever the file specification and whatever the number of '..' in it, is given only files under the root directory set for such users, and directory listings only of it; and a name without such tricks is looked up in the root directory as it is.", "quantifier": "all file specifications, all root directories, all contents of the disk", "why_tests_cant": "all inputs", "anchors": ["pydecnet/decnet/applications/fal.py: applyroot, files"]}
{"id": "C92", "title": "DAP messages one by one", "statement": "The messages sent over a DAP session, put in blocks or not as the peer's configuration allows and flushed at any points, are what the peer finds when it splits the blocks: the same messages, once each, in order. No block is larger than the peer's buffer, and messages that fit are accepted.", "quantifier": "all configurations, all sequences of messages of all sizes, all places of flushes", "why_tests_cant": "all sequences", "anchors": ["pydecnet/decnet/dap.py: DapSession.send, flush, recv", "pydecnet/decnet/dap_packets.py: DapBase.decode"]}
{"id": "C93", "title": "Files are copied as they are", "statement": "A client that reads files from the listener in binary mode ends up with exactly their bytes; in text mode with exactly their lines; for any list of files matching a wild card and any choice of files to skip or read.", "quantifier": "all files of all sizes, all choices of the client", "why_tests_cant": "all inputs", "anchors": ["pydecnet/decnet/applications/fal.py: doget, files"]}
{"id": "C94", "title": "The dialogue with the file listener", "statement": "The listener sends data only to a client that has connected to the file and asked for it; every request ends with an answer, which has been sent off when the listener waits for the next one; unsupported and unexpected messages are answered by a status and do not end it.", "quantifier": "all sequences of client messages, all contents of the disk", "why_tests_cant": "any dialogue", "anchors": ["pydecnet/decnet/applications/fal.py: main, doget, dodir"]}
{"id": "C95", "title": "Answers reach the exchange that asked", "statement": "An application that uses the asynchronous connector may have any number of requests under way; each is given exactly the answer that carries its own tag, once, with the connection that the answer names, and the other requests are not affected by one that is given up or by messages for connections that are gone.", "quantifier": "all interleavings of requests, cancellations, calls on connections and messages from the node", "why_tests_cant": "any history, any interleaving of tasks", "anchors": ["pydecnet/decnet/async_connectors.py: AsyncConnector, AsyncApiConnector, AsyncPipeConnector", "pydecnet/decnet/connectors.py: SimpleConnector.parse, Connection"]}
{"id": "C96", "title": "Messages of a connection reach its object", "statement": "Messages from the node for a connection are given by recv on the object of that connection, in order, nothing lost or doubled, and incoming calls by listen on the object they were bound with; the object is closed by the message that ends it, nothing is sent for a closed object, and two open objects never share a handle.", "quantifier": "all interleavings of requests, cancellations, calls on connections and messages from the node", "why_tests_cant": "any history, any interleaving of tasks", "anchors": ["pydecnet/decnet/async_connectors.py: AsyncConnector.dispatch, AsyncConnector.makeconn, AsyncConnection.recv, AsyncConnection.listen", "pydecnet/decnet/connectors.py: SimpleConnector.parse, Connection.close"]}
{"id": "C97", "title": "Poor man's routing", "statement": "A destination that is a list of nodes separated by double colons, with a user at the end or given apart, is connected to by way of exactly these nodes in order, the relay object at each but the last and the user at the last; the answer that comes back lists the nodes; any other destination is used as it stands.", "quantifier": "all destination strings, all lists of nodes of any length, all users", "why_tests_cant": "all inputs", "anchors": ["pydecnet/decnet/connectors.py: SimpleConnector.checkpmr, SimpleConnector.parsepmrresponse", "pydecnet/decnet/applications/pmr.py: route"]}
{"id": "C98", "title": "Requests at the API socket", "statement": "A client of the API socket sends requests as lines, in whatever pieces they arrive; they are dealt with in order. A request which names a known system and subsystem is passed to that subsystem alone with its tag, type and other entries; every other request, and one whose subsystem fails, is answered by an error; every reply has the tag of its request, and the system and subsystem it is from; no request ends the connection or is answered by the reply to another; and when the connection ends every node is told, once.", "quantifier": "all byte streams in all pieces, all sequences of requests, all answers and exceptions of subsystems", "why_tests_cant": "any stream, any history", "anchors": ["pydecnet/decnet/apiserver.py: ApiHandler", "pydecnet/decnet/node.py: Node.api"]}
{"id": "C99", "title": "Fields of DAP messages", "statement": "A DAP message (any of the twelve kinds) that can be encoded is decoded by the peer as the same kind, each field the sender included has the sender's value, each optional field not included is unset or has the default the protocol gives it, and this also holds for messages put together into blocks with lengths, in any order and number; a message which ends early reads as if the missing fields were zero or had their stated defaults; the permissions of any file are shown by the receiver as they are at the sender.", "quantifier": "all kinds of messages, all attribute values, all optional parts present or absent, all sequences of messages and flushes, all truncation points, all file modes", "why_tests_cant": "any values, any combination of flags", "anchors": ["pydecnet/decnet/dap_packets.py: IF, IFELSE, DEF, BMEX, I_int, AV, DapBase, DapHeader, Config, Attrib, Access, Control, Continue, Ack, AccComplete, Data, Status, Date, Prot, Name", "pydecnet/decnet/packet.py: Packet.encode, BM", "pydecnet/decnet/dap.py: DapSession.send"]}
{"id": "C100", "title": "Listing and copying files of another node", "statement": "With the file transfer program and the file listener of this package at the two ends, each directory command shows every entry that can be read, in order, with its directory, name, size, owner and permissions, and nothing else; each copy command writes, for every file that the name stands for and the user agrees to, a file of that name in the directory asked for with exactly the bytes of the original; a name that stands for nothing is reported; and every command comes to its end, whatever happened to the ones before it, however the two programs are scheduled.", "quantifier": "all disks, file contents, names and modes, all sequences of commands and answers, all schedules of the two programs", "why_tests_cant": "any contents, any sequence, any schedule", "anchors": ["pydecnet/applications/nft: files, filedata, dodir, docopy", "pydecnet/decnet/applications/fal.py: files, doget, dodir, main"]}
{"id": "C101", "title": "Lists of nodes shown by network management", "statement": "A summary or status request for several nodes (known, active, loop, adjacent, significant, or a wildcard of an area or a number, with or without a circuit qualifier) is always answered, with exactly the nodes that fit it: those of the node database that it selects, the neighbours on the circuits it admits, the nodes of the own area its routing table covers; the executor first, the rest in order of address, each once; each with its own name, the number of its links, its delay, and the state, circuit, next hop and distance that the tables have for it at that moment.", "quantifier": "all node databases, connections, circuits, neighbours and routing tables, all requests of these kinds", "why_tests_cant": "all states and requests", "anchors": ["pydecnet/decnet/node.py: Node.nice_read", "pydecnet/decnet/nsp.py: NSP.nice_read, NSP.read_node", "pydecnet/decnet/routing.py: BaseRouter.nice_read, L1Router.reach", "pydecnet/decnet/route_ptp.py: nice_read", "pydecnet/decnet/route_eth.py: nice_read", "pydecnet/decnet/nicepackets.py: NodeReplyDict, KPdict"]}
{"id": "C102", "title": "One node shown by network management", "statement": "A summary or status request for one node, by address or by name, is answered with one record, of that node: its name, links and delay, whether it is the executor, and whether and by what circuit and next hop it can be reached according to the routing tables; a name that is not known is refused; no request ends the network management connection.", "quantifier": "all node databases, connections and routing tables, all addresses and names, all kinds of node", "why_tests_cant": "all states and requests", "anchors": ["pydecnet/decnet/node.py: Node.nice_read", "pydecnet/decnet/nsp.py: NSP.nice_read, NSP.read_node", "pydecnet/decnet/routing.py: BaseRouter.read_node, BaseRouter.nice_read", "pydecnet/decnet/modules/nml.py: Application.dispatch"]}
{"id": "C103", "title": "Areas and circuits shown by network management", "statement": "A request for areas shows, in a level 2 router, every area that can be reached with the circuit, next hop and distance of the area routing table, and one for a single area what the table has for it; a request for circuits shows every circuit once, in order of name, with its state and the neighbours that are up, and one for a single circuit the same records; a neighbour as qualifier selects; counters can be zeroed; none of these requests ends the connection.", "quantifier": "all area routing tables and circuits with all sets of neighbours, all requests", "why_tests_cant": "all states and requests", "anchors": ["pydecnet/decnet/routing.py: L2Router.nice_read, BaseRouter.nice_read", "pydecnet/decnet/route_ptp.py: nice_read", "pydecnet/decnet/route_eth.py: nice_read", "pydecnet/decnet/nicepackets.py: NiceZeroCtrHdr"]}
{"id": "C104", "title": "Abbreviated keywords", "statement": "In a table of keywords no two of which begin with the same three letters, a word finds the entry of a keyword if and only if it is the keyword, in any mixture of cases, or begins it and has at least three letters; entering and removing keywords in any order leaves the entries that were entered last and not removed; two keywords that share three letters do not disturb each other.", "quantifier": "all keyword tables of any size, all histories of entries and removals, all words", "why_tests_cant": "any table, any history", "anchors": ["pydecnet/decnet/i3dict.py: i3dict, i3str, i3eq"]}
{"id": "C105", "title": "What network control commands send", "statement": "Every SHOW, LIST and LOOP command that is a phrase of the command language (entity, qualifiers and kind of information, with keywords abbreviated, in any order and number the language allows) is sent as exactly one request, which the network management listener reads back as that entity, that kind of information and the last value given for each qualifier or parameter; everything else is refused without sending; no command has two meanings; and whatever the user gives in a command is sent.", "quantifier": "all token sequences of any length, all names, addresses, numbers and qualifiers", "why_tests_cant": "any command line", "anchors": ["pydecnet/applications/ncp: parseargs, getent, makeparsetree, doshow, doloop", "pydecnet/decnet/i3dict.py: i3dict", "pydecnet/decnet/nicepackets.py: NiceReadNode, NiceReadCircuit, NiceReadModule, NiceReadArea, NiceLoopNode, NiceLoopLine, NiceLoopCircuit", "pydecnet/decnet/modules/nml.py: Application.dispatch"]}
{"id": "C106", "title": "Network control sessions", "statement": "In a session of the network control program, every request goes to the node that is the executor at that time (the one of the last SET EXECUTOR NODE that was accepted, the local node after CLEAR EXECUTOR NODE, or for one command the one of TELL, after which the executor is as it was), what is displayed after a request is the answer to that request, in order and as a whole, and the prompt names the executor; a node that refuses, answers with errors or takes the connection down leaves the program usable; only EXIT or end of input ends it.", "quantifier": "all sequences of input lines, all behaviours of the nodes and of the local listener over time", "why_tests_cant": "any session length, any peer behaviour", "anchors": ["pydecnet/applications/ncp: main, docmd, dotell, doset, doclear, doconnect, reqresp, doshow, doloop", "pydecnet/decnet/connectors.py: Connection, SimpleConnector"]}
{"id": "C107", "title": "Retransmission timeouts", "statement": "The time after which a logical link sends a message again adapts to the path: for each remote node it is the configured factor times an average, with the configured weight, of the round trip times measured to that node and no other; before the first measurement a fixed time is used; the estimate stays within fixed bounds, approaches a constant round trip time from any start, after which nothing is sent again before its acknowledgment can have come; a message whose acknowledgment the receiver may delay is not measured; with every configuration accepted the timer can be started.", "quantifier": "all sequences of transmissions, retransmissions, acknowledgments and closings at any times, to any number of nodes, all weights and factors", "why_tests_cant": "any history, real times", "anchors": ["pydecnet/decnet/nsp.py: txqentry.send, txqentry.ack, Connection.update_delay, Connection.acktimeout", "pydecnet/decnet/config.py: --nsp-weight, --nsp-delay", "pydecnet/decnet/timers.py: TimerWheel.start"]}
{"id": "C108", "title": "Event messages", "statement": "An event arrives at the listener of its sink node as it was made: class, number, time to the millisecond, node, entity, data and the sinks asked for, also if class or number are not known there; each event received is given once and in order to each sink asked for that there is, and written to a file it can be read back, record by record; a message that is not understood is passed over and does no harm to those after it.", "quantifier": "all events of all classes and numbers, all entities and data items, all sequences of messages, well formed or not, all sets of local sinks", "why_tests_cant": "all messages and sequences", "anchors": ["pydecnet/decnet/events.py: Event, EventEntityBase", "pydecnet/decnet/common.py: NiceNode", "pydecnet/decnet/modules/evl.py: Application.dispatch", "pydecnet/decnet/event_logger.py: LocalFile.writeevent, logremoteevent", "pydecnet/decnet/packet.py: Indexed.findclassb, Packet.encode, Packet.decode_data"]}
{"id": "C109", "title": "Which frames a port of an Ethernet gets", "statement": "A frame is handed to a user of an Ethernet exactly if that user's port was the first to ask for its protocol type (or 802.2 service access point), its source is an individual address, and its destination is the address last set for the port (else the hardware address; in single address mode the one last set by any port), a group address that was added and not removed since, or the port was last set promiscuous; the payload is what the frame says. A type belongs to one port only; a request that cannot be met is refused and changes nothing. A type can be given back. The line counter is the number of frames that passed, each counted once.", "quantifier": "all histories of creating ports, setting and removing types, addresses and modes, start of the line, and frames; all frames", "why_tests_cant": "any history, any frame", "anchors": ["pydecnet/decnet/datalink.py: BcDatalink, BcPort, BcCounters.combine", "pydecnet/decnet/ethernet.py: EthPort, _Ethernet.receive"]}
{"id": "C110", "title": "The packet filter hides nothing", "statement": "At any time the packet filter that was given to the packet capture library lets through every frame that a port is to get, whatever the history of changes to ports before and after the device was opened; and it lets through nothing but frames with a type (or access point byte) some port asked for and, unless a port is promiscuous, an address that port listens to.", "quantifier": "all histories of calls, all frames", "why_tests_cant": "any history, any frame", "anchors": ["pydecnet/decnet/datalink.py: BcDatalink.filter, BcDatalink.portfilter, BcDatalink.newfilter", "pydecnet/decnet/ethernet.py: _PcapEth.update_filter, _PcapEth.open"]}
{"id": "C111", "title": "Reception from an Ethernet bridge over UDP", "statement": "Every frame that the peer sends over UDP is handled as if it had come from a device, in order, and datagrams of other senders have no effect.", "quantifier": "all sequences of datagrams from the peer and from others", "why_tests_cant": "any sequence", "anchors": ["pydecnet/decnet/ethernet.py: _BridgeEth.run, _Ethernet.receive"]}
{"id": "C112", "title": "A scan of the network reaches every node", "statement": "In a full scan the mapper polls its own node, every node of its map and every node that is reported as a neighbour during the scan; it polls no node twice in a scan, has at most twenty polls going on at a time, and never stops for good, whatever the nodes answer and whichever of them do not.", "quantifier": "all maps, all answers of all nodes, all orders of events, connection outcomes, timeouts and network events", "why_tests_cant": "any order of answers from any number of nodes", "anchors": ["pydecnet/decnet/mapper.py: Mapper.polling, Mapper.nextnode, Mapper.finish_poll, Mapper.checkmapscan, NodePoller"]}
{"id": "C113", "title": "The map after a full scan", "statement": "When a full scan ends, the map shows as up exactly those nodes that answered or were reported reachable in that scan, and exactly those circuits of each node that were reported up in it; and later reports are not lost.", "quantifier": "all maps, all histories, all clocks that go forward", "why_tests_cant": "any history before and during the scan", "anchors": ["pydecnet/decnet/mapper.py: MapItem.update, MapItem.testdown, Mapper.finish_poll, NodePoller.procexec, NodePoller.procknocirc, NodePoller.procp2line, NodePoller.procactnode, Mapper.handleEvent"]}
{"id": "C114", "title": "Times of an item of the map", "statement": "An item of the map is shown as up if and only if the latest report says so; its time of going up is that of the first of the latest run of reports that it is up, and its time of going down that of the first report to the contrary after that.", "quantifier": "all histories of reports", "why_tests_cant": "histories of any length", "anchors": ["pydecnet/decnet/mapper.py: MapItem.update, MapItem.health, MapItem.testdown"]}
{"id": "C115", "title": "The dialogue of the mapper with a node", "statement": "A node counts as reached if it accepts the connection or refuses it for a reason of its own; what it answers is recorded only when the answer is complete; and the circuits of a node in the map are those it reports. A poll is reported once.", "quantifier": "all sequences of messages, connection outcomes and prior map contents", "why_tests_cant": "arbitrary messages in arbitrary order", "anchors": ["pydecnet/decnet/mapper.py: NodePoller.connecting, NodePoller.polling, NodePoller.procknocirc, NodePoller.finished"]}
{"id": "C116", "title": "Updates from the node database", "statement": "A record of the node database sets the attributes of that node in the map, and leaves alone what has been observed of it, and all other nodes.", "quantifier": "all maps and records", "why_tests_cant": "any map", "anchors": ["pydecnet/decnet/mapper.py: Mapdata.addnode, Mapper.dbupdate"]}
{"id": "C117", "title": "The map on disk", "statement": "Loading the map that was saved gives the same nodes with the same attributes; and at whatever point a save is interrupted, the map that was there or the new one is loaded afterwards.", "quantifier": "all maps, all crash points", "why_tests_cant": "every crash point", "anchors": ["pydecnet/decnet/mapper.py: Mapdata.save, Mapdata.load, Mapdata.encode_json, Mapdata.decode_json"]}
{"id": "C118", "title": "The reply of the node database", "statement": "Every entry that the server sends, unless its location is 'scrapped', becomes a node of the map with exactly the attributes that were sent for it.", "quantifier": "all sequences of entries with any fields missing", "why_tests_cant": "any reply", "anchors": ["pydecnet/decnet/mapper.py: Mapper.dbupdate"]}
{"id": "C119", "title": "Identification and counters on request", "statement": "A request for identification from any station is answered, to that station alone and with its number, by a message from which it reads the address, the functions that are offered and who has the console; the same goes out to all at intervals. A request for counters is answered with their values, or the largest that fit. No message, whatever its contents, stops the node.", "quantifier": "all byte strings, all states of the console and counters, all clocks", "why_tests_cant": "all inputs", "anchors": ["pydecnet/decnet/mop.py: SysId, C, SysIdHandler.dispatch, SysIdHandler.send_id, SysIdHandler.send_ctrs, MopCircuit.dispatch", "pydecnet/decnet/packet.py: TLV", "pydecnet/decnet/common.py: Timestamp"]}
{"id": "C120", "title": "The list of stations heard", "statement": "After any traffic the list of the API has exactly one entry for every station from which an identification was received, and it shows what that station said last.", "quantifier": "all histories of messages of any contents", "why_tests_cant": "histories of any length with arbitrary contents", "anchors": ["pydecnet/decnet/mop.py: SysIdHandler.dispatch, SysIdHandler.api, SysId.services, TIME.decode"]}
{"id": "C121", "title": "Console connections of applications", "statement": "A request of an application to connect to the console of a station leads to a connection or a refusal, and does no harm to others.", "quantifier": "all histories of requests, answers and timeouts", "why_tests_cant": "any history", "anchors": ["pydecnet/decnet/mop.py: CarrierClientConnection.start, CarrierClientConnection.sendmsg, CarrierClientConnection.s0, MopCircuit.request", "pydecnet/decnet/node.py: Node.api, Node.mainloop"]}
{"id": "C122", "title": "Files of the monitor", "statement": "Whatever a browser asks for, the monitor sends only files from its directory of resources, never one outside, and it sends each file of that directory under its own name.", "quantifier": "all requests, all file systems with any symbolic links, any current directory", "why_tests_cant": "paths are unbounded and their effect depends on the file system of the host", "anchors": ["pydecnet/decnet/http.py: DECnetMonitorRequest.findnode, DECnetMonitorRequest.do_GET"]}
{"id": "C123", "title": "Answers of the monitor", "statement": "A request is answered by the page of the system that it names, in upper or lower case; a system that does not exist or is not named is answered by an error that says so; the first page is the list of the systems, or the page of the only one; the map and its data are under /map; an address with protocol, host, parameters or fragment is refused; an error page is about the request that it answers.", "quantifier": "all requests, all lists of systems, all interleavings of the threads that answer", "why_tests_cant": "any request; any schedule of threads", "anchors": ["pydecnet/decnet/http.py: DECnetMonitorRequest.findnode, DECnetMonitorRequest.do_GET, DECnetMonitorRequest.handle_exception"]}
{"id": "C124", "title": "The topology server", "statement": "A client that asks gets the names of the adjacent nodes and of those given in the configuration, in upper case, each once, as far as they fit, encoded as the protocol description says.", "quantifier": "all configurations, all sets of adjacencies, all requests", "why_tests_cant": "any set of names", "anchors": ["pydecnet/decnet/modules/topol.py: Application.__init__, Application.dispatch, TopoResp, NodeEntry"]}
{"id": "C125", "title": "Pages of the monitor are well formed", "statement": "Every page is well nested, and its elements are those of its layout: what other nodes send (software, identification, location) is shown as text.", "quantifier": "all contents of pages, all nestings of elements, all texts received", "why_tests_cant": "arbitrary texts and nesting depths", "anchors": ["pydecnet/decnet/html.py: wraphtml, cell, detailrow, section, makelink, doc", "pydecnet/decnet/mop.py: SysIdHandler.html"]}
{"id": "C126", "title": "Reading the configuration", "statement": "Included files are read as if their text stood in place of the line that includes them, with the component of that line before each of their lines; the program starts if and only if all lines are valid entries, no two are in conflict, and exactly one of node, bridge and access is described; otherwise the lines at fault are reported.", "quantifier": "all file contents and nestings of includes", "why_tests_cant": "any set of files of any depth", "anchors": ["pydecnet/decnet/config.py: Config.scanconfig, Config.__init__"]}
{"id": "C127", "title": "Entries given more than once", "statement": "A circuit, node or object may be given more than once if whatever an earlier entry gives is given again by the later one; the later one can add what was omitted.", "quantifier": "all sequences of entries", "why_tests_cant": "sequences of any length", "anchors": ["pydecnet/decnet/config.py: checkdict.__setitem__, Circuits.add, Loggers.add"]}
{"id": "C128", "title": "The memory of the log", "statement": "When something interesting is logged, the log shows it and the history that led up to it: the last records, as many as there is room for, in order, each once.", "quantifier": "all histories of records, flushes and threads", "why_tests_cant": "any history and schedule", "anchors": ["pydecnet/decnet/logging.py: DnMemoryHandler, flush, bypass"]}
{"id": "C129", "title": "Texts in the log", "statement": "The dump of a packet shows all its bytes in order and at their offsets; the text of an event is written as it is.", "quantifier": "all packets, all texts", "why_tests_cant": "arbitrary lengths and contents", "anchors": ["pydecnet/decnet/logging.py: dump_packet, DecnetLogRecord.getMessage", "pydecnet/decnet/event_logger.py: LocalConsole.writeevent"]}
{"id": "C130", "title": "SHOW MODULE CONFIGURATOR lists the stations heard", "statement": "A network management request for a summary or the status of module CONFIGURATOR, for one circuit, for all known circuits or without circuit, is answered with the circuits asked for, each with the state of surveillance and the time since it was started in its first reply; for a status there is one reply for each station heard on the circuit, in the order of the addresses, with the address, the time of the last report and all that the station last said of itself (version, functions, console user, timers and sizes, hardware address, device, processor, data link, software). A circuit that there is not, and a module of another name, get the answer that there is no such component. No answer is broken off.", "quantifier": "all circuits, all histories of messages received on them, all requests, all times", "why_tests_cant": "The table has any number of stations with any subset of attributes, of any value that can be received; the answer is coded by a table of parameters that code elsewhere must match by name; whether it can be sent depends on the clock.", "anchors": ["pydecnet/decnet/mop.py: Mop.nice_read", "pydecnet/decnet/nicepackets.py: ModuleReply", "pydecnet/decnet/modules/nml.py: Connection read handling", "pydecnet/decnet/nice_coding.py: NICE.encode"]}
{"id": "C131", "title": "Which configuration files make which parts of the program", "statement": "Each configuration file with a routing or bridge entry is one system, in the order of the command line; the others give at most one monitor and one API. The program starts exactly if there is a system and neither of the two is defined twice, whatever the order of the files.", "quantifier": "all lists of configuration files", "why_tests_cant": "any number of files in any order and combination", "anchors": ["pydecnet/decnet/main.py: main"]}
{"id": "C132", "title": "However the program ends, what was started is stopped", "statement": "Whatever ends the program (signal, exception, exit of the monitor) and whenever it comes, every element of every system that was started is stopped, once, in the reverse of the order in which it was started, after the API; and afterwards the program can be started again with the same configuration.", "quantifier": "all systems with any elements, all points at which signals and exceptions can come, all histories of runs", "why_tests_cant": "A signal can come between any two steps of start and end, any number of times; whether a new run works depends on what all earlier ones left.", "anchors": ["pydecnet/decnet/main.py: main, sighandler", "pydecnet/decnet/node.py: Node.start, Node.stop", "pydecnet/decnet/apiserver.py: ApiServer, rmsock"]}
{"id": "C133", "title": "Lines shown by network management", "statement": "A request for one line, by its name in upper or lower case, is answered by one message about that line; one for several lines by one message for each, in the order of names; one for no line that exists by a code that says so. The message says that the line is on; or its protocol and hardware address; or its counters, those of a LAN being the sum over everything that uses it, each counter stopping at its greatest value. No request raises an exception.", "quantifier": "all configurations of lines, all histories of ports and their traffic, all names and kinds of request", "why_tests_cant": "Counters have any value, ports come in any order with any set of protocol types, requests ask for anything.", "anchors": ["pydecnet/decnet/datalink.py: DatalinkLayer.nice_read, Datalink.nice_read_line, BcCounters.combine, BcPort.add_proto, BcPort.add_sap", "pydecnet/decnet/ethernet.py: _Ethernet.nice_read_line", "pydecnet/decnet/ddcmp.py: DdcmpCounters", "pydecnet/decnet/nicepackets.py: LineReply", "pydecnet/decnet/modules/nml.py: Connection read handling"]}
{"id": "C134", "title": "Lines in requests of Phase II", "statement": "Every line has an identification of its own: device, controller and unit of its name if it has that form, else one made up from its place. A request with the identification is answered with the counters of that line; a request for all lines with those of every line, each with its identification; one for a line that does not exist with an error code. A client of this package reads the counters that were sent; the text of an identification stands for it.", "quantifier": "all lists of circuit names, all lines and counters, all identifications", "why_tests_cant": "Identifications depend on all names together and on their order; any byte string may be asked for.", "anchors": ["pydecnet/decnet/nicepackets.py: P2LineEntity, P2CTR2, P2NICE, P2NiceReadLineCountersReply", "pydecnet/decnet/datalink.py: DatalinkLayer.__init__, DatalinkLayer.nice_read, Datalink.nice_read_line", "pydecnet/decnet/modules/nml.py: Connection read handling"]}
{"id": "C135", "title": "Characteristics and counters of nodes shown by network management", "statement": "A request for the characteristics or counters of several nodes is always answered, with exactly the nodes of the node database that it selects, the executor first, the rest in order of address, each once; a request for one node with one record. A record of counters has those of its node, zero for a node never heard of, and nothing else. The executor's characteristics are those of all layers; a loop node has its circuit, by whatever request; other nodes have none.", "quantifier": "all node databases and connections, all requests for characteristics or counters with or without qualifier", "why_tests_cant": "Which nodes and which attributes are in the answer depends on the database, the connections and the request together.", "anchors": ["pydecnet/decnet/node.py: Node.nice_read", "pydecnet/decnet/nsp.py: NSP.nice_read, NSP.read_node", "pydecnet/decnet/routing.py: BaseRouter.nice_read, BaseRouter.read_node", "pydecnet/decnet/nicepackets.py: NodeReplyDict, KPdict"]}
{"id": "C136", "title": "Status of the executor and of lines for Phase II", "statement": "A request of a Phase II client for the status of the executor is answered with the name, number (255 if it is greater), versions and identification of the node; one for the status of all lines with a record for each, in the order of their names, each with the identification of its own line and the name of its neighbour; one for a line with its record alone.", "quantifier": "all node identifications and numbers, all lists of lines with any neighbours, all requests", "why_tests_cant": "The identification is any configured text, and the identifications of lines depend on all names configured before.", "anchors": ["pydecnet/decnet/nicepackets.py: P2NiceReadExecStatusReply, P2NiceReadLineStatusReply, P2LineEntity", "pydecnet/decnet/node.py: Node.nice_read", "pydecnet/decnet/nsp.py: NSP.nice_read", "pydecnet/decnet/routing.py: BaseRouter.nice_read", "pydecnet/decnet/route_eth.py: LanCircuit.nice_read", "pydecnet/decnet/route_ptp.py: PtpCircuit.nice_read", "pydecnet/decnet/modules/nml.py"]}
{"id": "C137", "title": "Objects that are programs: mirror and talk", "statement": "The three programs that implement the loopback object, and the module, give the same replies to the same messages: an accept, and for each message its echo or a failure.  The talk server accepts exactly the connections whose data names a terminal it can open, and writes each message to that terminal as one line with the node and terminal of the sender.", "quantifier": "all connect data, all sequences of messages on the connection, nodes with and without name", "why_tests_cant": "The replies depend on every message and type received so far, and on any connect data a remote node sends.", "anchors": ["pydecnet/decnet/applications/mirror.py", "pydecnet/decnet/applications/mirror2.py", "pydecnet/decnet/applications/mirror3.py", "pydecnet/decnet/applications/lsn.py", "pydecnet/decnet/connectors.py: Connection", "pydecnet/decnet/async_connectors.py: AsyncConnection, AsyncPipeConnector"]}
{"id": "C138", "title": "Statistics of work and timers", "statement": "The statistics shown for work items and timers are those of the samples taken: least, greatest, number, mean and median; there is one row for each owner and kind of work item, of their own samples.", "quantifier": "all sequences of samples, all sequences of work items", "why_tests_cant": "The statistics depend on every sample, in any order and number.", "anchors": ["pydecnet/decnet/common.py: Histogram", "pydecnet/decnet/node.py: WorkStats", "pydecnet/decnet/timers.py: TimerWheel.html"]}
{"id": "C139", "title": "Sending in a Phase II node", "statement": "A Phase II node sends a packet for a neighbour on a circuit that is up to it, a packet for any other node on a circuit whose neighbour offers to pass packets on, a packet for a loop node on its circuit if that leads back to this node, and hands a packet for itself to itself; a packet that cannot be sent is returned if that was asked for.", "quantifier": "all histories of circuits coming up and going down, all destinations", "why_tests_cant": "Where a packet goes depends on every circuit that came up or went down before, in any order.", "anchors": ["pydecnet/decnet/routing.py: Phase2Routing.send, BaseRouter.adj_up, BaseRouter.adj_down, SelfAdj", "pydecnet/decnet/route_ptp.py: PtpCircuit.up, PtpCircuit.down"]}
{"id": "C140", "title": "Colours and lists of the map", "statement": "The marker of a place and the arc of a path are green if something there is up and nothing down, yellow if something is down and more is up, red if something is down and no more is up, gray otherwise; on a path every pair of nodes counts once, at the best that any circuit between them shows at either end, whatever the order; a path is left out exactly if all of it is gone. Popups list all nodes of a place once, those up first, then those down, then the others.", "quantifier": "all places with any nodes, all paths with any sequence of connections found", "why_tests_cant": "The colour depends on all nodes and circuits, seen from both ends in any order.", "anchors": ["pydecnet/decnet/mapper.py: MapLocation.color, MapLocation.actnodes, MapLocation.marker, MapPath.add, MapPath.color, MapPath.draw"]}
{"id": "C141", "title": "Error counters by cause", "statement": "After any sequence of bad headers, messages with bad data, REP and NAK messages and frames of a framer, every DDCMP error counter is the number of the errors it is for, each cause has its own number, these add up to the counter, and the bit of a cause is set exactly if it came up; NAKs with other reasons count nowhere, and nothing fails. The page shows the counter and the causes that came up; a listing of qualifiers names the bits set.", "quantifier": "all sequences of events, all reasons of NAK, all sets of bits", "why_tests_cant": "The numbers depend on the whole history of the circuit.", "anchors": ["pydecnet/decnet/nice_coding.py: Map.__iadd__, Map.format_qual", "pydecnet/decnet/ddcmp.py: DdcmpCounters, nak_map, _FramerDDCMP.receive_frame", "pydecnet/decnet/routing.py: html_ccounters"]}
{"id": "C142", "title": "Device of a framer", "statement": "A framer device is accepted exactly if it is DEVICE:MODE or DEVICE:MODE:SPEED, the interface is a framer or it is * and there is exactly one framer, the mode is, in any case, the start of the name of one mode and of no other, and the speed is a number; what is then used is that interface, that mode and that speed, with 1000000 for loopback without speed. Everything else is refused.", "quantifier": "all texts, all sets of framers found", "why_tests_cant": "Abbreviations, framers and forms combine without bound.", "anchors": ["pydecnet/decnet/ddcmp.py: _FramerDDCMP.__init__, FRAMER_MODES"]}
{"id": "C143", "title": "Console verification", "statement": "A console verification that is accepted is eight bytes: for a text of at most eight characters the text followed by zeros, for a hexadecimal number that number; longer texts and greater numbers are refused with ValueError, and different texts are different verifications.", "quantifier": "all texts, from the configuration or the API", "why_tests_cant": "All texts of any characters and length.", "anchors": ["pydecnet/decnet/common.py: scan_ver"]}
{"id": "C144", "title": "Frames of a framer", "statement": "Whatever frames come from a DDCMP framer, data go to the station only from frames for this interface that the framer says are good, and are exactly the data in the frame; bad data, bad headers, lost carrier and frames that are too long are reported as such; no frame ends the receive thread.", "quantifier": "all sequences of frames, all contents", "why_tests_cant": "The interface gets any frame that someone puts on it.", "anchors": ["pydecnet/decnet/ddcmp.py: _FramerDDCMP.receive_frame, _FramerDDCMP.receive_loop, handle_pkt, BaseDataMsg.decode"]}
