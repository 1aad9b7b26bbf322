# Formal model of pydecnet in Lean 4

Source modelled: `/repo/pydecnet` (read as text, never run).  All paths below are relative to
`/repo/pydecnet/decnet` unless they start with `crc.py`.

## Layout

* `lean/Verif/<Area>/Model.lean` — executable definitions, one per function of the code, each citing
  file and lines.  Exceptions are values (`Except`, `Option`).  `Framing` has one model file per
  datalink (`Eth`, `Gre`, `Multinet`).
* `lean/Verif/<Area>/Spec.lean` — where a specification is long enough, a separate file; otherwise it
  is at the top of `Props.lean`.
* `lean/Verif/<Area>/Props.lean` — the property theorems and the non-vacuity `example`s.
* the other files of an area — helper lemmas and invariants.
* `properties.jsonl` lists the properties, `MANIFEST.json` maps each to its theorems, `AXIOMS.md`
  gives the axioms of each theorem, `seeded/LOG.jsonl` records the mutation experiments.

## Trusted base

* The Lean 4.33.0 kernel.  The only axioms are `propext`, `Classical.choice` and `Quot.sound`
  (`AXIOMS.md` lists them by theorem).  No `sorry`, no own axioms, no `native_decide` or `bv_decide`.
* The reading of the Python text.  Integers are unbounded (`Nat`, `Int`); byte strings are
  `List UInt8`; `str` is a list of code points; `dict` is an association list in insertion order or a
  function; an exception is a value, and one which leaves `Node.mainloop` stops the node
  (`WorkQ.exception_stops_node`).
* Concurrency is modelled at the granularity of lock sections and work items: a list of actions of the
  model is one interleaving, and theorems range over all lists.
* Everything under "left out" below is outside the theorems.

## What is modelled, what is left out

| area | properties | modelled | left out or simplified |
|------|------------|----------|------------------------|
| Modulo | C01, C02 | `modulo.py` | the text representation |
| Timers | C03, C04, C58 | `timers.py` wheel, timer thread, queued timeouts | time is counted in ticks (no floating point); slots are lists (the linked list itself is in Cque) |
| Cque | C67 | `timers.py` `Cque`: the circular doubly linked list | — |
| Fields | C05–C09, C60 | `packet.py` field classes, `Packet.encode`, `decode` driven by a layout table | `LIST`, nested packets, the metaclass that compiles layouts |
| Crc | C10, C11 | `crc.py` | — |
| Addr | C12 | `common.py` `Nodeid`, `Macaddr` | `NiceNode`, printing with node names |
| RoutPkt | C13, C60 | layouts of `routing_packets.py` | — |
| RoutMsg | C14, C15 | checksum, routing segments, both phases | big-endian hosts |
| Route | C16 | `routing.py` `L1Router`, `L2Router`, `doroute`, adjacency and routing message handling | events, counters |
| Conv | C17 | a network of `doroute`s for one destination | fixed topology; FIFO links with loss; each entry decided at least once at the start |
| Forward | C18–C20 | `forward`, `send`, end node `send` and `dispatch` | chains do not follow Phase III links |
| RUpdate | C21 | `routing.py` `Update` | wall clock other than milliseconds passed in |
| Lan | C22–C24 | `route_eth.py` `RoutingLanCircuit`, `adjacency.py` | `int(timer*3.1)` is exact |
| LanEnd | C75–C78 | `route_eth.py` `EndnodeLanCircuit`, `NiCacheEntry`, `common_dispatch`; `EndnodeRouting.send`, `dispatch` | counters, logged events; times in milliseconds, `int(timer*3.1)` exact |
| Ptp | C25, C26, C61 | `route_ptp.py` state machine | contents of data packets; intercept is a separate area |
| Ddcmp | C27, C28, C59, C62 | `ddcmp.py` `_DDCMP` state machine, two stations, channels | maintenance mode, local restart; FIFO channels |
| DdcmpFrame | C29, C30 | header and data frames, Telnet escaping, `recvall` | hardware framers |
| Nsp | C32–C36, C39–C42 | `nsp.py` `Connection`, `Subchannel` | round trip time estimation (a timeout may occur at any moment); RSTS option |
| NspMap | C37, C38 | `nsp.py` `NSP`, connection tables | counters, reports |
| NspPkt | C31 | `nsp_packets.py` | — |
| Sess | C48, C49 | `session.py` connect message, access control | PAM and password file contents (an arbitrary authenticator) |
| SessConn | C66 | `session.py` connection bookkeeping | connections are opened once; API listeners |
| Bridge | C43, C44 | `bridge.py` | circuits are numbers, `extra` argument |
| Framing | C45–C47 | `ethernet.py`, `gre.py`, `multinet.py` frame formats | sockets, pcap |
| Dlink | C53, C64, C65 | `datalink.py` `PtpDatalink`, `multinet.py` threads | other subclasses; sockets |
| Backoff | C52 | `common.py` `Backoff` | floating point limits |
| EvQueue | C50 | `event_logger.py` `EventQueue`, `writeevent`, `send_events` | re-entry from `send_data` |
| EvLog | C79–C82 | `event_logger.py` (event lists, sinks, remote sink connection), event 3.0 of `nsp.py` | digits other than ASCII; monitor registration by the mapper; log levels; outcome of `connect` and `send_data` is the environment's |
| Nml | C83–C87 | `modules/nml.py`, `modules/mirror.py`, requests of `nicepackets.py` | what the layers answer (see NiceRead), outcome of `connect` and of the circuit loop handler are the environment's; an entity record is a number; message texts of replies |
| NiceRead | C101–C103, C135 | `Node.nice_read` and the parts of NSP, Routing and the circuits that answer it, for nodes, areas and circuits; `NodeReplyDict` | coding of records; sets of counters and most characteristics are one flag; Phase II requests, lines, logging, modules; what a request that raised left in the node database |
| AppApi | C88–C90 | `session.py` `DictConnector`, `ApiConnector`, `ApiListener`, `BaseConnector.dispatch`, object lookup of `Session.dispatch` | outcome of calls into NSP and of the access check are the environment's; object names are ASCII; data and log messages left out; a handle (`id`) is not reused while in use |
| Fal | C91–C94 | `applications/fal.py`, `dap.py` `DapSession`, block splitting of `DapBase.decode` | names only, symbolic links are not followed; contents of description messages apart from name and size; coding of DAP fields; files that vanish after having been found |
| Dap | C99 | `dap_packets.py`, the row encoder of `packet.py`, the header attributes of `DapSession.send` | values have the Python type of their field; printing; `Date.fmtdate`, `setdate`, `Prot.rstsprot`; texts of status codes are arbitrary tables |
| Nft | C100 | `/repo/pydecnet/applications/nft` `files`, `filedata`, `dodir`, `docopy`; `applications/fal.py` again, message by message, for this client | one session with one node; `type`, parsing of commands, dates, failures of `open`; automatic flushes of full blocks |
| NspDelay | C107 | `nsp.py` `txqentry.send`, `ack`, `Connection.update_delay`, `acktimeout`; `TimerWheel.start` | times are exact rationals, not floating point; the clock is never zero; which packets are sent is in `Nsp` |
| EvMsg | C108 | `events.py` (header, entities, classes, time), `NiceNode`, `modules/evl.py`, local sinks of `event_logger.py` | data items are a list (one attribute per number in the code); conversion of a node or area where a name is due, and the reverse; text of events; handler of the monitor |
| EthPort | C109–C111 | `BcDatalink` and `BcPort` of `datalink.py`; `EthPort.__init__`, `_Ethernet.open`, `receive`, `_PcapEth` filter handling, `_BridgeEth.run` of `ethernet.py` | text of the filter (its structure and libpcap's meaning of it are modelled); counters of bytes of multicasts; poll errors; conversions of addresses from text |
| Mapper | C112–C118 | `mapper.py`: `MapItem`, `MapNode`, `Mapdata`, `NodePoller`, the scans of `Mapper`, `dbupdate`, saving and loading | decoding of NICE replies (an arbitrary function to records), drawing of maps and pages, locations, JSON text, conversion of names, exceptions of NSP while connecting; the clock is any function of the history |
| MopId | C70, C119–C121 | `mop.py` `C`, `TIME`, `SysId`, `Counters`, requests, `MopCircuit.dispatch` and `deliver`, `SysIdHandler`, `CarrierClientConnection` up to its first answer; `TLV` with its table | pages for a browser; names of codes in the list; `nice_read`; the console server (in `Mop`); the clock is the environment's |
| Http | C122, C123 | `http.py` `findnode`, `do_GET`, `handle_exception`; `realpath` and `parse_qs` of the Python library | taking the address apart (`urlparse`), decoding of `%`, start of the server, headers, the pages themselves |
| Topol | C124 | `modules/topol.py`: the names, the reply and its encoding | `str.upper` (any function), the order of a set (any permutation), requests (never looked at by the code) |
| Html | C125 | `html.py`: elements, cells, rows, tables, sections, links, `doc`; `mop.py` `SysIdHandler.html` for details | the texts of the page of stations are given; `page_title`, `mapdoc`; what the reader calls a tag (quotation marks are not looked at) |
| ConfFile | C126, C127 | `config.py` `scanconfig`, `Config.__init__`, `checkdict` | what `shlex` and `argparse` make of a line; white space is any set of characters with the blank, without `@` and `#`; `os.path` as of Posix; the stack as a number |
| Log | C128, C129 | `logging.py` `DnMemoryHandler`, `dump_packet`, `DecnetLogRecord.getMessage` without arguments; `event_logger.py` `LocalConsole` | set-up, rotation, system log; exceptions of the target of a handler |
| Configr | C130 | `mop.py` `Mop.nice_read`; `nicepackets.py` `ModuleReply`; the messages of the answer in `modules/nml.py`; on top of `MopId` and `Nice` | decoding of the request; header of the replies; the API of the monitor; `time.localtime` is given |
| Boot | C131, C132 | `main.py` `main` (configuration files, start, end); `Node.start`, `stop`; `ApiServer.__init__`, `start`, `stop`, `cleanup`, `rmsock` | log but for its end, profiling, daemon, change of root and user; what elements do; a node stopped by its own thread after an exception |
| Lines | C133, C134, C136 | `datalink.py` `DatalinkLayer.nice_read`, `nice_read_line`, `combine`, ports of `BcPort`; `ethernet.py` `nice_read_line`; `LineReply`; Phase II: `P2LineEntity`, counters of lines, the table of identifications, status of executor and lines | decoding of requests; header of replies; names other than ASCII; `str.upper` is given |
| Apps | C137 | `applications/mirror.py`, `mirror2.py`, `mirror3.py`, `lsn.py`; `Connection.recv`, `accept` of both connectors | JSON; logging; end of input; other connections; what the operating system does with a terminal |
| Hist | C138 | `common.py` `Histogram`; `WorkStats.add`, `stats` | rounding; floating point; text; changes of a table while it is read |
| P2Send | C139 | `Phase2Routing.send`, `adj_up`, `adj_down`, `isolated`; when a circuit has a `loopadj` | what the circuit does with the packet (see Intercept); tracing |
| MapDraw | C140 | `mapper.py` `MapLocation.color`, `actnodes`, `marker`; `MapPath.add`, `color`, `actconns`, `draw` | coordinates, names, text; how `update_map` collects nodes and connections |
| MapCtr | C141 | `nice_coding.py` `Map` (`__iadd__`, `format_qual`); `ddcmp.py` `DdcmpCounters`, `nak_map` and the places that count; `routing.py` `html_ccounters` for one counter | text of the page; how the receiver comes to its findings |
| FramerDev | C142 | `ddcmp.py` `_FramerDDCMP.__init__` (device, mode, speed), `FRAMER_MODES` | `findFramers`, `int`, letters other than A to Z in `lower` |
| ScanVer | C143 | `common.py` `scan_ver` | `int (s, 16)` |
| FramerRx | C144 | `ddcmp.py` `_FramerDDCMP.receive_frame`, `receive_loop`; `handle_pkt`; the payload in `BaseDataMsg.decode` | decoding of headers and status messages (parameters); several frames in one `dispatch` |
| Ncp | C104–C106 | `i3dict.py`; `/repo/pydecnet/applications/ncp` parsing, requests, executor node, replies, main loop; `connectors.py` `Connection`, `SimpleConnector` as seen by it | case and white space beyond ASCII; Phase II requests; entities of RSX, RSTS and VMS; a chain of nodes to connect through is one step; text of what is displayed; `readline` history; end of input |
| Conn | C95, C96 | `async_connectors.py` `AsyncConnection`, `AsyncConnector`; `connectors.py` `Connection`, `SimpleConnector.parse` | JSON coding of lines; sending and closing the transport; a line read between a cancellation and the next run of the cancelled task; handles are numbers and not 0 |
| Pmr | C97 | `connectors.py` `_pmr_re`, `checkpmr`, `parsepmrresponse`; `applications/pmr.py` `route` up to the answer | Unicode tables beyond ASCII are arbitrary; forwarding of data after the answer |
| ApiSock | C98 | `apiserver.py` `ApiHandler`, `node.py` `Node.api` | JSON coding; order of entries of a dictionary; what a subsystem answers is the environment's; failures of `send` and of `end_api`; stopping the server |
| WorkQ | C54 | `node.py` work queue, main loop | — |
| Config | C55 | `config.py` node entries, `node.py` tables | parsing of arguments (files: `ConfFile`) |
| Host | C57, C63 | `host.py` `HostAddress` | lookup intervals, IPv6 scope |
| Intercept | C56 | `intercept.py` | loop node names |
| Mop | C68–C74 | `mop.py` receipt numbers, loop handler, loop client, console carrier server, connected state of the console client | connecting states of the console client beyond those in `MopId`; reply times are numbers; stations are addresses |
| Nice | C51 | `nice_coding.py` encode and decode | formatting; label tables |

Not modelled at all: the pages of the HTTP monitor except what `Html` says, the other management back ends (`modules/` apart from what is named above),
drawing of maps in `mapper.py`, set-up in `logging.py`, the command line and daemon mode of `main.py`.

Timing assumptions of the end-to-end theorems.  C34 (`Nsp.end_to_end`) assumes that
a packet's number is within half the modulus of the receiver's next expected one when it arrives;
stale acknowledgment fields in retransmitted packets are excluded by the same guard.  Packets of an
earlier connection with the same link addresses are not modelled.

## How the properties are proved

| property | method |
|----|------------------|
| C01, C02 | case analysis on residues, any modulus; `Int.emod` congruences |
| C03, C04, C58 | invariant: a timer due in k ticks sits in slot pos+k; every interleaving of the threads |
| C05–C09, C60 | round trip and rejection theorems for each field, then induction over layouts |
| C10, C11 | remainder in `(ZMod 2)[X]`; burst detection by divisibility |
| C12–C15 | arithmetic and list induction |
| C16 | invariant of the decision process against offers read off the history |
| C17 | monotone bounds and fixed point, asynchronous schedules |
| C18–C20 | measure on visit count along chains |
| C21 | loop invariant; history invariant over flags |
| C22–C24 | invariant over event histories |
| C25, C26, C61 | invariant with the emitted log against a specification automaton |
| C27, C28, C59, C62 | ghost unbounded indices, window invariant, progress by explicit schedules |
| C29, C30 | codec lemmas and C11 |
| C31 | codec lemmas |
| C32–C36, C39–C42 | invariants over all event sequences; simulation for end to end delivery |
| C37, C38 | invariant: pool and open addresses are distinct residues |
| C43, C44 | composition with the timer wheel, specification read off the history |
| C45–C47 | list lemmas |
| C48, C49 | decision logic, codec |
| C50, C52, C54 | invariants and refinement |
| C51 | iff characterisation of each decoder by the encoder |
| C53, C64, C65 | invariant over all interleavings of four actors |
| C55, C57, C63 | invariant over histories |
| C56 | decision logic; table against history |
| C66 | invariant over histories |
| C68, C69 | induction along the way of a packet; exact characterisation |
| C70, C71 | invariant against a view built from events and outputs only; measure for progress |
| C72 | refinement to a holder read off the events |
| C73, C74 | ghost unbounded indices over an alternating bit |
| C75–C78 | invariant against what the history says of each node and router |
| C79 | the matcher characterised by a grammar given as an inductive relation |
| C80 | invariant of the sinks against the configuration read so far |
| C81 | refinement to C50; connection invariant against views of the history |
| C82 | characterisation of the encoder (C51) |
| C83, C84, C86, C87 | decision logic over all byte strings against a client that reads the replies |
| C85 | induction over histories; invariant of listener, mirror and the connection between them |
| C88–C90 | invariant of the tables of all applications against views of the history |
| C91–C94 | path normalisation against the walk it stands for; round trip of blocks; induction over files and dialogues |
| C95, C96 | invariant of tables and queues against views of the history |
| C97 | completeness and soundness of a backtracking matcher against a grammar; induction over routes |
| C99 | generated layouts checked row by row (finite table), induction over rows relating the flags read so far to the sender's; composition with the blocks of C92; filler bytes for truncation |
| C100 | two deterministic machines with queues: one run to rest and a diamond lemma give every schedule; induction over files and commands |
| C101 | every layer is a list of actions on the record of one address; the record at the end is their fold, read off by invariants |
| C102, C103 | decision logic over the tables, loops by induction |
| C98 | framing against the lines of the whole stream; decision logic over looked-up entries; induction over requests |
| C104 | what a table finds as a function of its history, by induction; the iff for tables without clashes |
| C105 | soundness and completeness of the parser against an inductive grammar; round trip through the grammar of the listener (`Nml`) |
| C106 | every line from a state in which nothing is left over is a step of an abstract session, by induction over lines; invariants of the states from which nothing works any more |
| C107 | the estimate as a function of the history by induction; bounds and geometric convergence of the average over the rationals |
| C108 | round trip composed of those of the parts; what is read determined by a prefix; listener by induction over the messages |
| C109–C111 | refinement of the tables to functions of the history of calls; invariant that the filter in effect is that of the current tables; induction over datagrams |
| C112–C118 | invariants of the scan by induction over the history of events, with a ghost record of what was asked; the map at the end of a scan as a function of the answers; item histories by induction over reports; crash points enumerated as prefixes of the operations on the disk |
| C119–C121 | round trip field by field through the item loop; table as a function of the history by induction; invariant that all connections wait with a running timer |
| C122, C123 | invariant over the walk along the path, for any links; decision logic; interleavings |
| C124 | decision logic; round trip through a client written from `doc/protocols/topol.txt` |
| C125 | induction over the layout, with a reader of tags as specification |
| C128, C129 | invariant over histories and schedules; round trip through a reader of dumps |
| C130 | decoding of the answer related to the table of stations; reachability of the hypotheses by induction over histories |
| C131, C132 | decision logic against a specification by filters; trace of start and stop under exceptions at any point; invariant over histories of runs |
| C133, C134 | decoding of the answer against a table written by hand; invariant of the table of ports over histories; grammar of the names; reverse induction over the configuration |
| C135 | the answer compared with a predicate on node, connections and request, for all databases |
| C136 | round trip of the records through the reader of the client; induction over the lines; table of C134 |
| C137 | induction over the messages of a connection, against a relation between message and echo |
| C138 | the table expanded to a list of samples, sorted; invariant over the history of work items |
| C139 | invariant of the table of adjacencies over the history of circuits, against the state of each circuit read from the history |
| C140 | decision logic against a rule by counts; invariant of the table of connections; independence of the order by permutation |
| C141 | invariant by induction over the history, against counts of causes; invariant over all schedules of two threads |
| C142 | decision logic stated outright; round trip of splitting at colons |
| C143 | decision logic; injectivity of padding; round trip of big-endian bytes |
| C144 | decision logic for one frame; induction over the frames |
| C126, C127 | equivalence with an inductive description of files put together; induction over entries |

A property that the code does not have is claimed `partial`: the manifest names the negation with its
witness and the part that holds (suffix `_partial` where the statement is weaker than the claim).

## Findings

Every item marked * is a theorem of the development.

Events from the network that stop the node (an exception leaves `Node.mainloop`):

* *routing message with a stray word: IndexError (`RoutMsg`).
* *NSP segment or acknowledgment number exactly 2048 away: TypeError (`Nsp`, C42).
* *deferred disconnect with a reserved reason: RangeError (`Nsp`, C42).
* *empty NSP packet (`NspPkt`).
* *connect message without connect data (`Sess.empty_connect_raises`).
* *LAN end node with an address above `maxnodes`; routing message from a LAN end node (`Route`).
* *neighbour announcing a block size below 16 (`RUpdate`).
* *router hello with our priority wrong: NameError; priority 128 or more; hello time of 1162 s or more (`Lan`, `LanEnd`).
* *Phase II verification without configured password; outbound password above 8 bytes to a Phase II
  neighbour; Multinet duplicate init (`Ptp`).
* *packet returned to the sender towards a Phase II neighbour; bad route header with empty payload or
  connect acknowledgment; connect from a node not in the database (`Intercept`).
* *application errors after close, after exit, or while starting (`SessConn`).
* *MOP loop packet cut short at its skip count; console command after a failed terminal start (`Mop`, C69, C72).
* *NSP packet of more than 63 bytes that cannot be decoded, if event 3.0 is logged to a file or connected remote
  sink (`EvLog`, C82).
* *NICE message with one or two stray bytes (AttributeError) or a nested multiple (TypeError) instead
  of DecodeError (`Nice`).

Other departures:

* *`Nodeid` accepts integers out of range; `Macaddr` never accepts area.node text (`Addr`).
* *encoding a negative `EX` never ends; every packet class accepts an empty buffer; unknown TLV items
  are dropped on re-encoding (`Fields`).
* *negative timeouts (`Timers.negative_timeout_accepted`).
* *truncated routing segment accepted (`RoutMsg`).
* *an empty NSP message vanishes; a bogus ack releases segments never sent; connecting to an unknown node
  leaks a link address; an answer from a wrong node poisons the mapping; NoRes, NoLink and DiscComp are
  never recognised on receipt (`Nsp`, `NspMap`, `NspPkt`).
* *a route within the hop limit is hidden by a cheaper one beyond it; area limits are ignored; an end
  node's second circuit is lost; own entry advertised as infinite until the first decision (`Route`).
* *an initialising LAN router that falls silent is never dropped and keeps winning the election; the stale
  timer of a deleted adjacency removes its successor (`Lan`, C24).
* *an end node on a LAN both sends a Connect Initiate for a recently heard node and returns it to NSP as
  undeliverable, so the connect fails as unreachable; asking it to forget where a node was heard leaves a
  timer that forgets the next hearing early; NSP never asks (nsp.py:1368-1374) (`LanEnd`, C75, C76).
* *Phase II passwords are compared in the first 8 bytes only; the Phase II address from the name table is not
  checked; an end node accepts Phase III node number 0; a stopped circuit reopens on a leftover
  timer (`Ptp`, C26).
* *Ethernet frames below 16 bytes end the receive thread; an 802.3 payload may include up to 3 bytes of
  padding; GRE accepts a length up to 2 too large; a 5 byte GRE datagram ends its thread; a short send on
  Multinet garbles the stream (`Framing`, C46, C47).
* *events sent to another node are marked for all its sinks whatever the configuration; without `logging` lines
  nothing is logged; received events go to the sinks of the last node of the process; events logged before
  the start of a remote sink wait for another event; a failed logging connection is left open (there is no
  `close`) and its late disconnect drops its successor; the retry time is not kept when events are logged;
  the report of a bad packet of 32 to 63 bytes cannot be read (`EvLog`, C80–C82).
* *a management request with one or two stray bytes, or of a Phase II manager for an unknown line, ends the
  connection; a second loop request disturbs the test in progress even if refused; loop length 65535 never
  works; an empty message from the mirror ends the connection (`Nml`, C83, C85).
* *one bad request (a stale handle, arguments that do not fit, the documented disconnect of a binding) of an
  application with a connection or binding aborts all its connections, and its later exit stops the node,
  because the first failure leaves its dictionary as it is; a name in lower case can be bound although it is
  held, and two such bindings stop the node (`AppApi`, C88, C90).
* *event queue limit 0 raises IndexError (`EvQueue`).
* *default-area collision of node entries; a loop node name hides a node (`Config`, C55).
* *addresses of earlier lookups stay valid for ever; an IPv4-mapped answer is never accepted (`Host`, C57).
* *a start command is lost while the thread is ending; a stopped datalink restarts itself after a send
  error (`Dlink`).
* *a disconnect of another link makes intercept forget an open one; an unnamed source is announced as the
  router (`Intercept`).
* *parameter number bits 12–14 are lost; multiples above 31 fields are sent but cannot be read (`Nice`).
* *MOP requests without an explicit receipt number always raise, so the counters and console APIs never
  work; a client that leaves after the first outcome does not stop its loop test; a failed terminal start
  leaves the console reserved for ever; repeated console responses are shown twice (`Mop`).
* *with a root directory set, the file listener lists the directory above it when asked for `/..;*`; blocks of DAP
  messages can be two bytes larger than the peer's buffer, and peers without limit can be sent nothing; the
  status for a file that is not found is not flushed, so client and listener wait for each other; a client
  that asks for blocks other than 512 bytes ends the listener, as does a text file with a character beyond
  Latin-1 (`Fal`, C91–C94).
* *a message for a connection which the application has just closed raises in the receiver task of the asynchronous
  connector and ends it, so that no one is answered any more; so does, from Python 3.8, an answer to a
  cancelled request; before 3.8 a cancelled connect leaves a connection open that nobody knows (`Conn`, C95, C96).
* *a relay of poor man's routing never accepts, because the accept is not awaited; a quote after a task is kept in
  its name; a route without user leads to the task `None`; a success answer without colon raises; the hop count is
  never checked (`Pmr`, C97).
* *at the API socket the JSON text `"bad"` is answered by the reply to the request before it (as first request it
  ends the connection); other JSON that is no dictionary, a system that is a number or list, and an interface that
  is a list end the connection; an empty line does too; the error for a line that is not JSON has no tag
  (`ApiSock`, C98).
* *the spool option of a file and the spool characteristic of its device share an attribute, so one overwrites the
  other; a block whose messages have other header flags than a length is taken as one message; showing a status
  with an unknown major code raises; a directory name beyond 200 characters or Latin-1 cannot be sent and ends the
  listener (`Dap`, C99).
* *the file transfer program writes the padding of the last block into the copy, so that copies of files whose size
  is not a multiple of 512 are too long; with the listener of this package it waits for ever when a file is copied by
  its full name (no name message comes) or does not exist (the status is not flushed); after a directory
  command that failed every further one shows the answer to the one before; an empty line at the prompt raises, and the
  listener then refuses the next command; when the connection is lost in a transfer it loops for ever; it writes to
  whatever path the listener names (`Nft`, C100).
* *network management: a request for node a.0, for a node beyond the maximum of a router, for one node of a Phase II
  node, for circuits with a neighbour as qualifier (if one is point to point), and every request to zero counters raise
  an exception, which ends the connection without a reply; the last area is missing from the list of areas; loop
  nodes share one record, and one asked for by name is shown as unreachable without its circuit, also in its
  characteristics, and with counters of zero (`NiceRead`,
  C101–C103).
* *network control program: an error inside a list of replies leaves the end of the list unread, so that every later
  answer is displayed one request late, and nothing is displayed ever again once the local node has been asked; after
  the executor node takes the connection down nothing works but TELL, and if it happens during a TELL the old executor
  is lost; an unknown first word or a line of spaces ends the program; access control of LOOP NODE is never sent; keywords
  that share three letters replace each other, `setdefault` of the keyword dictionary raises, `E` exits (`Ncp`, C104–C106).
* *retransmission: the delay factor is not checked (from 3601 on every transmission raises once there is a measurement);
  retransmitted packets are measured from the first transmission and closed connections count as measurements; the
  estimate is cut at five seconds, so on slower paths every packet is sent again (`NspDelay`, C107).
* *events: routing events above 4.19 and data link events above 5.18 are read without entity and data (and cannot be
  displayed); one or two bytes too many, a multiple value within another, or, if there is a file sink, an entity in an
  event that should have none end the event listener's connection (`EvMsg`, C108).
- `remove_proto` and `remove_sap` use an attribute that does not exist (`self.parents`): a protocol type can never be
  given back, and after the attempt the port cannot ask for it again although it still gets the frames (`EthPort`, C109).
- A UDP datagram of at most four bytes, from any host, ends the receive thread of an Ethernet bridge link: the length is
  checked before the sender, and the method called then does not exist. Frames of the peer below 16 bytes end it too
  (`EthPort`, C111).
- Network mapper (`Mapper`, C112–C118): events are ignored during a full scan and do not lead to another poll of a node
  that an incremental scan has done with; a node that goes down in the second in which it came up stays up in the map; an error reply together
  with a disconnect ends two polls' worth of bookkeeping; a record of the node database wipes the history and the
  circuits of its node; a crash between the two renames of a save loses the map; attributes of a scrapped record carry
  over to the next; a record without location stops every update.
- MOP: the first request of an application for a console connection stops the node a fifth of a second later; a request
  for counters stops it if the clock was set back; one station's identification without functions, or with an
  impossible time, takes the list of stations away; an identification counts as the reply to a loop test if it has the
  number (`MopId`, C119–C121, C70).
- The monitor looks the path of a request up in the file system of its host, from the root: a symbolic link
  there that has the name of a request hides the resources or gives them other names, and a path without
  leading slash, which was to be refused, is taken from the current directory.  With several systems a query without
  `system` raises, even for style sheets.  The text of error pages is shared by all threads (`Http`, C122, C123).
- The topology server never sets the count of nodes in its reply: a client that follows the protocol description reads
  no names.  One name above six characters or outside latin-1 aborts the connection of every client; names above the
  fiftieth are cut (`Topol`, C124).
- No page of the monitor escapes what it shows: the software text of a MOP station becomes markup of the page, and can
  break its tables; every page leaves `<div class="flex-page">` open (`Html`, C125).
- Files that include each other end the program by an exception instead of a report; a component that may not be
  repeated is replaced without a word; `@my file` is no include although `node @my file` is; an entry of a collection
  cannot add a switch that was omitted before if the switch has a default (cost, priority, object number …), although
  the description lets it (`ConfFile`, C126, C127).
- The text of an event on the console is taken as a format: with a single brace (a circuit name of another node, say)
  the event is not written.  The history kept in memory is thrown away when the program ends by an exception; threads
  that flush together write in the wrong order (`Log`, C128, C129).
- SHOW MODULE CONFIGURATOR never says what software a station has: mop.py:452-457 sets `software`, the
  attribute of parameter 1200 is `software_identification`.  If the clock was set back behind the start of a
  circuit, or 65536 hours after it, the answer breaks off and the connection is aborted (`Configr`, C130).
- A signal while the systems are started, a second one while they are stopped, or an API whose socket could not
  be made, leaves systems running as they are until the process ends.  `rmsock` uses a name that it does not have, so
  that the socket of the API is left behind unless closing it ends `accept`; the program refuses to start then.
  A monitor without port is an error only after one with a port (`Boot`, C131, C132).
- Lines.  The counters of a LAN leave out ports with a SAP only (there are none at present).  In Phase II requests a circuit `DTE-0` takes the identification
  made up for another circuit; the records of known lines all carry the identification of the request; an unknown line raises
  AttributeError (`req.mult` does not exist there) and aborts the connection; local reply timeouts and selection errors have the
  same number; devices 4 and 16 the same name (`Lines`, C133, C134).
- Status for Phase II: an identification of more than 40 characters, a point-to-point neighbour without number (accepted by a
  Phase III end node) or an unknown line ends the connection (`Lines`, C136).
- The third mirror program ends with an exception when it closes (`asyncq` for `asyncio`), and before accepting if the node
  that connects has no name; the three mirrors treat interrupts in three ways (`Apps`, C137).
- The median shown for an odd number of samples, three or more, is the sample before it; the page of timers fails before the
  first tick (`Hist`, C138).
- A Phase II node that sends to itself gets an AttributeError: the circuit of its pseudo adjacency has no data link.  It never
  returns a packet for a node number it cannot reach, so a connect request to such a node is not refused but left to time out.
  With two circuits to one neighbour, the neighbour is unreachable when one of them goes down (`P2Send`, C139).
- The legend of the map is not what is drawn: faded nodes do not count for green and red, half down is red, a path vanishes
  after 60 days (the legend says 180), and a place without nodes would end with ValueError (`MapDraw`, C140).
- The inbound error counter of DDCMP is changed by two threads without a lock: a bad header that comes while a REP is counted
  may be missing from the total and from the bits, though not from the numbers by cause (`MapCtr`, C141).
- Characters outside of Latin-1 are dropped from a console verification, so that a password of such characters only is eight
  zeros; a hexadecimal one of more than eight bytes ends with OverflowError, which is not caught (`ScanVer`, C143).
- A frame of a framer that is said to be good but is too short for its count is passed on as an empty message; one without
  payload, or with bad data and no header, ends the receive thread (`FramerRx`, C144).

Seen while reading, not part of the model: SHOW with words too many raises `NameError` (a comma for a dot); a list of known nodes makes an entry in the node database for every address
up to the maximum; a read of loop nodes makes an entry for address zero, the name of which is shown later for other loop
nodes; a node number without area is not taken as one of the own area; `Prot.rstsprot` uses an undefined name; a message cut short of its
length ends the file listener; `AsyncPipeConnector.close` and `rmsock` use undefined names; `AsyncConnector.recv`
calls its queue;
a request without `api` is an error although documented to list the systems;
an overriding object leaves the old name or number entry; `_UdpMultinet.connect` does not catch OSError from
`bind`; an `EthPort` with SAPs only cannot be created; `remove_proto` has a typo (`self.parents`);
`Backoff(1)` is refused; the update delta after a triggered update counts from the last full one, and
continuous triggered updates starve full ones; router hello ids are not compared with the Ethernet source;
`LinkSvcMsg` does not run `AckHdr.check`; a peer segment size of 0 raises ValueError; interrupt credit above
127 is not enforced; a cross-subchannel ack does not call `send_blocked`; retransmitted NSP packets carry
stale acks; the mapper's poller catches no exception of NSP but one (the connection limit ends the node) and uses an
unbound name in that branch; a node that sends records for ever holds up the scan; the map's `update_map` may use an unbound
`n2`; `dbupdate` uses an unbound `upd` if the server sends no time.
