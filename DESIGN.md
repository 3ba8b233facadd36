# Formal model of ns-3-leo: design

Source: `/repo` (dadada/ns-3-leo, C++). Model: Lean 4.33.0 + Mathlib, `/verif/lean`.
Properties: `/verif/properties.jsonl` (C01..). Status per property: `/verif/MANIFEST.json`.

## 1. Trusted base

* Lean's kernel. The axioms used by the theorems are at most `propext`,
  `Classical.choice`, `Quot.sound`. No axiom is added; no `sorry`, `admit`,
  `native_decide`, `bv_decide`, `implemented_by`, `unsafe`.
* The correspondence between the Lean definitions under `Verif/Model` and the C++ text.
  Each definition cites file and lines and states its simplifications.
* The behaviour of ns-3 core and libstdc++ used by the code and *assumed* by the model. None of it
  is in /repo and neither sources nor documentation were at hand, so it is written from memory and was
  not checked against any version of ns-3; this includes the parts of ns-3 named in section 2 and in the comments of the model:
  * `Simulator::Schedule*`: events run in order of (time stamp, insertion number); an event
    scheduled with delay d at time t runs when the clock reads t+d; delays are >= 0.
  * `DropTailQueue<Packet>`: FIFO, `Enqueue` fails iff the number of packets has reached
    `MaxSize` (packet mode), `Dequeue` on empty returns null.
  * `Packet`: a byte string; `Copy` yields an equal independent packet; headers/trailers are
    added/removed at the ends. Tags, uids and metadata are not modelled.
  * `LlcSnapHeader` = AA AA 03 00 00 00 + 16-bit big endian type; `EthernetHeader(false)` =
    destination(6) source(6) length/type(2, big endian); `EthernetTrailer` = 4 byte FCS,
    computed only if enabled (else 0), checked only if enabled. The FCS function is a parameter.
  * `Mac48Address::IsBroadcast` (all ones), `IsGroup` (lowest bit of first byte),
    `ConvertFrom` asserts on an address that is not a 6 byte MAC; `Allocate` counts up from 1.
  * `std::map<Address,..>` keeps keys unique and iterates in ascending lexicographic order.
  * `PropagationLossModel::CalcRxPower` without chained model = `DoCalcRxPower`.
  * `ObjectFactory::Set` overwrites previous values; `Create` applies them to a new object.
  * libstdc++ formatted input (`>>` for double, unsigned short, char): leading white space is skipped, the
    longest prefix that can be continued is accumulated, and an accumulated text that is no number sets the fail bit
    (`Model/Parse` gives the automaton). Values are read as exact rationals there; `Model/ParseDouble` (C104) converts
    them to binary64, to nearest, ties to even; overflow sets the fail bit, underflow does not. `operator<<` for `double` is `%g` with six significant digits, rounding to nearest,
    ties to even, on the exact value.
  * Trace helpers: `GetFilenameFromDevice` is prefix-node-interface (no names are registered), an empty prefix aborts; every `CreateFile`
    opens a file of its own, truncating it; `DropTailQueue` fires `Enqueue`, `Dequeue` and, when full, `Drop`;
    `Config::Connect` with the path of a device and of its queue connects exactly these.
  * `NetDeviceQueue` (flow control): Enqueue stops the queue if it cannot hold another packet, Dequeue wakes it if it can,
    a drop before enqueueing stops it; the reports come after the content has changed. `Object::Initialize` initializes once.
  * ns-3 `Waypoint` text (`operator>>`) is abstracted: a waypoint file is a list of records. `WaypointMobilityModel` is not part of /repo;
    `Model/Track` follows its `Update` (current and next waypoint, queue, velocity) with exact rationals. The notifications it
    schedules at the times of the waypoints only call `Update`, which the theorems allow at any time; that scheduling a notification
    for an indeterminate negative time aborts is not modelled.
  * `LeoCircularOrbitMobilityModel` calls `abs`, `sin`, `cos` and friends unqualified; they are taken to be the
    real functions (the overloads for `double` of `<cmath>`).
* Numbers: `double` is idealised. Powers (dB) are exact rationals, geometry is over the reals,
  simulator time is a natural number (of nanoseconds). Overflow to infinity and NaN are
  outside the model, except the one NaN path that decides an API result (coincident satellites in
  `GetLos`), which is modelled explicitly. Rounding is the subject of `Model/Rounded` and `Model/RoundedLink` only (C94, C95, C101): there every operation on `double`
  is rounded and the library functions are approximations, with the error bounds of `Spec.Accurate` as the only assumption;
  correctly rounded arithmetic with 53 bits meets them (`C94_binary53`, without limits of the exponent). Fused operations and
  excess precision are not covered. That the network model computes powers as fractions changes a decision only within 1e-9 dB of a threshold (`C101_network`). Fixed-width integers whose wrap-around is observable
  (`uint16_t` length field, `uint32_t` node counts, allocator counters) are modelled with wrap-around.

Failure outcomes are distinct values (`Outcome.fail` with a `Fault` naming the assertion, the abort or the
undefined behaviour; `Fault.isUb` tells them apart), never totalised away.

## 2. What is modelled

| C++ | Lean module |
|---|---|
| `GetNDevices`, `GetDevice`, `IsLinkUp`, `GetBroadcast`, `GetMulticast`, `SupportsSendFrom`, `IsBroadcast`, `IsMulticast` | `Model/Query` |
| `MockNetDevice::AddHeader`, decoding part of `Receive` | `Model/Frame` |
| `MockNetDevice` (Send, TransmitStart, TransmitComplete, Receive, Attach, setters), `LeoMockNetDevice`, `MockChannel`, `LeoMockChannel`, `IslMockChannel`, event list | `Model/Net` |
| `LeoCircularOrbitMobilityModel` geometry | `Model/Orbit` |
| its update scheduling and setters | `Model/OrbitSched` |
| `LeoPropagationLossModel`, `IslPropagationLossModel` | `Model/Propagation` |
| position allocators, `GetEarthPosition`, grid install | `Model/Placement` |
| `operator<<`, `operator>>` of `LeoOrbit`, `LeoLatLong`; file installs | `Model/Parse` |
| the same with numbers as binary64 | `Model/ParseDouble` (zero has no sign) |
| `LeoWaypointInputFileStreamContainer`, `LeoSatNodeHelper` | `Model/Waypoint` |
| ns-3 `WaypointMobilityModel` (lazy `Update`, `DoGetPosition`) of the imported satellites, without notifications | `Model/Track` |
| `Update` as two halves around its sinks, and calls of the setters from inside the sinks (call stack) | `Model/Course` |
| `ConstantSpeedPropagationDelayModel` and both loss models on the positions of nodes, as environment of `Model/Net` | `Model/Sky` |
| `Send`, `TransmitStart`, `TransmitComplete`, `Receive`, `Attach`, `Detach` with calls of `Send`, setters, `Attach` and `Detach` made by trace sinks and callbacks | `Model/Reentrant` |
| packet objects and pointers in `Send`, `TransmitStart`, `TransmitComplete` | `Model/Share` |
| `LeoChannelHelper`, `IslHelper`, `LeoHelper`, ARP/ND cache helpers, presets | `Model/Helper` |
| `EnablePcapInternal`, `EnableAsciiInternal` of these helpers, `EnablePcapAll`, `EnableAsciiAll`, what the connected sinks write | `Model/TraceFile` |
| `DoInitialize`, `NotifyNewAggregate`, connection of the `NetDeviceQueueInterface` in `LeoChannelHelper::Install` | `Model/Flow` |
| `MockNetDevice::DoDispose` | `Model/Dispose` |
| lifetimes of mobility models and devices: who has a `Ptr`, events with bare pointers, `Simulator::Destroy` | `Model/Lifetime` |
| examples/leo-circular-orbit-tracing-example.cc (`main`, `CourseChange`); many satellites on one event list | `Model/Fleet` |
| examples/leo-delay-tracing-example.cc and examples/leo-bulk-send-example.cc, `main` up to the applications | `Model/Example` |
| examples/leo-delay-tracing-example.cc: number of packets, `EchoRx`, ns-3 `UdpClient` (the stack in between is a parameter) | `Model/Delay` |
| examples/leo-delay-tracing-example.cc: `TracePacket`, `countBytes` and the options `traceDrops` and `traceTxRx` (serialized sizes are a parameter) | `Model/PacketTrace` |
| frequency, distance, mask and free-space loss of the tables of link constants (the first two are used by no code) | `Model/LinkTable` |
| the trace files of the bulk-send program (examples/leo-bulk-send-example.cc:163-171; loopback devices left out) | `Model/BulkTrace` |
| examples/leo-delay-tracing-example.cc: `TraceIpForward`, `TraceIpDrop` and the option `traceFwd`, down to the characters of the lines (what the IPv4 layers report is a parameter; the texts of `Time`, `Ipv4Address` and of the context are ns-3's) | `Model/IpTrace` |
| the output of the bulk-send program: `EchoTxRx`, its connections and the last line (what happens to TCP sockets is a parameter; that helpers make no sockets before the simulation is ns-3's) | `Model/SocketTrace` |
| the file of examples/leo-circular-orbit-tracing-example.cc: heading and lines as characters (the numbers computed for a line are a parameter) | `Model/TrackText` |
| helper/leo-helper.cc:60-63: the addresses of `LeoHelper::Install`, with the parts of ns-3's `Ipv4AddressHelper` and `Ipv4AddressGenerator` used (written from memory: neither source nor documentation of ns-3 was available; the result of the undefined shift is a parameter; networks are numbers of devices) | `Model/Legacy` |
| network and satellites of these programs on one event list, channels asking the mobility models for positions | `Model/World` |
| `Send` called from the receive callback `m_rxCallback` in `Receive` (forwarding, the decision is a parameter) | `Model/Relay` |
| Any number of `Send` calls from the receive callback, decided by the whole history (flooding, AODV, epidemic routing; the decision is a parameter) | `Model/Flood` |
| `SetQueue`, `GetQueue` and the attribute TxQueue at any time: queues as objects that are replaced, shared and accessed from outside | `Model/Queues` |
| `SetBase`, `Assign` and `GetAddress (1, 0)` of the example programs | `Model/AddressPlan` |
| positions, velocities, both loss models, delay, position allocators and `GetEarthPosition` with rounding of every operation | `Model/Rounded` |
| `DoCalcRxPower` of both devices and the comparisons of received power in `Deliver` and `Receive` with rounding | `Model/RoundedLink` |

Not modelled: logging, the byte format of trace files (a record is a time, a letter and a packet), MPI (`DoMpiReceive` is `Receive`), disposal of
channels and helpers (disposal of devices and destruction of devices and mobility models are modelled), the error model class behind `ReceiveErrorModel` (any decision per reception is allowed),
byte limits and wake callbacks of `NetDeviceQueueInterface`, the animation trace beyond its
arguments, internet stack installation, the applications of the examples other than `UdpClient`, `EchoRx`, `TracePacket`, `TraceIpForward`, `TraceIpDrop` and `EchoTxRx`, python bindings. In `Model/Net` trace
sinks and callbacks make no calls; `Model/Reentrant` lets them call `Send`, setters, `Attach` and `Detach` to any depth, also from the Enqueue, Dequeue and
Drop traces of the queue, from link change callbacks and from the trace source of the channel, where the loops that deliver a frame read the
containers of the channel again in every round (not `SetQueue`, `SetReceiveCallback` or `Simulator::Run`). The increment of an
iterator whose element was erased is reported at the erasure; the loop over `m_link` is given up after 2^32 devices were attached from inside it. A program that forwards from the
receive callback does what some program of `Model/Net` does (`C70_forwarding_is_plain`).

Simplifications of the helpers: queue attributes are numbers; names of attributes or types that ns-3 does not know end
the program there and are not modelled, except attributes one of the two device classes lacks; data rates are
given in bit/s instead of as strings; the internet stack and the IPv4/IPv6 assignment are ns-3's, their results are
parameters (except in C116 and C128, where the assignment of the example programs and of `LeoHelper` is modelled).

In C91 the internet stack, the routing protocols and the applications of the example programs are arbitrary traffic on the devices (loopback
devices are left out). Positions are a function of time (`Spec.SkyOf`): at the instant of an update the model takes one of the two
positions the satellite reports at that instant, the old or the new one. `Model/World` has no such choice: updates and traffic share the
clock, of events at the same time any may be next, and C109 shows how far both views are the same. One propagation speed is used for
both networks. A pause of an application in `Model/World` that would pass a pending update does not happen (as in `Model/Net` with
pending events): it has to be given in parts.

`Verif/Tests` repeats the repository's unit tests on the model.

## 3. Plan per property

Net model (C01-C30). A system state holds devices, channels, the pending event list (sorted by
time, stable), the clock and the log of observable effects (trace sources, callbacks, return
values). Operations are the API calls and `run` (dispatch of the next event); a history is a list of
operations; `exec` folds them and stops at the first failure outcome. Invariants are proved by
induction over histories.

* C01 invariant: READY/BUSY, current packet and the number of pending completions agree; hence the
  three assertions are unreachable in every history.
* C02 invariant relating the log (accepted frames, begun frames) and the queue.
* C03, C04 invariant relating log, current packet and the pending completion event (with its time).
* C05 invariant "queue non-empty -> busy"; progress: one completion removes one frame; drain theorem by
  induction on the number of queued frames.
* C06, C07, C08 decision logic of `Send`. C07 is expected false on overflow (header already added):
  negation with witness, partial for the link-down path.
* C09 expected false (completion reuses the previous destination): negation; partial: true when all
  queued frames share the destination, and harmless on the ground/space channel (C17).
* C10-C13 codec: encode/decode equations for all lengths. C11 false for 1493..1500: negation; partial
  for MTU <= 1492.
* C14 decision logic of `Receive` against an independent specification.
* C15-C24 channel: list equations for the scheduled receptions against an independent specification
  of the recipient set; histories for detach. C20, C21, C23, C24 expected (partly) false.
* C25 expected false when both nodes have mobility: negation; partial: law C26.
* C26, C27 decision logic of `Deliver`.
* C28 invariant over histories: pending receptions and queued frames are encodings of accepted sends.
* C29 counting receptions per transmission under "attached once".
* C30 invariant on pending receptions sorted consistently with transmission order.

Geometry over the reals (C31-C36, C43-C49): trigonometric identities, discriminant algebra.
C35, C36, C43, C47 expected false: negation and partial. C42 expected false.

* C37-C39 state machine of the mobility model with an event list of updates. C39 expected false.
* C40, C41, C53 closed form of the n-th call by induction, bijectivity by arithmetic.
* C50-C52 a model of formatted stream input as a deterministic parser on character lists.
* C54-C56 reader as a state machine on a list of records; C55 expected false.
* C57-C60 install loops as folds; C58, C60 expected false in general, partial under stated conditions.
* C61 progress: an invariant `Fit` (wiring, indices, equipment, decodable frames) under which no operation
  that keeps the rules of proper use (`Spec/Proper`) fails, and which such operations keep.
* C62 every step of the installers commutes with earlier `Attach` calls, so a built network is the result of `Attach`
  calls on devices and channels as constructed.
* C63 with an empty event list, one `Send` leaves only receptions of one frame and one completion; what will be passed up
  by the pending receptions plus what was passed up is constant while events run.
* C64 every operation appends one of ten kinds of blocks to the log; list equalities by induction over blocks.
* C65 a simulation relation between the whole system and what one network sees of it; steps of other networks become `wait`.
* C66 a second model in which queues hold pointers to packet objects (`Model/Share`); it refines the value model for
  every history that leaves held objects alone, which justifies treating packets as values everywhere else.
* C67-C69 the orbit and loss models as environment of the network (`Model/Sky`); chord geometry of one plane, and for any two satellites the half-angle form of the squared distance (`Spec/Separation`); C30, C44, C63
  instantiated.
* C70 call trees; the invariant of C01 with a list of calls suspended in `TransmitStart` or in `Enqueue` and a list of
  devices that must not be touched, by induction over call trees.
* C71-C73 the blocks of C64 paired with the reports of the queue; a relation between two states of a program that
  tells how open files grew, closed under composition.
* C74, C75 and the law of C09: an invariant that relates the times of `Send` and `onAir` events of a device with the
  recursion of a FIFO server; the end of the current transmission is the pending `TransmitComplete`.
* C76, C77 the index of a ground/space channel relates addresses at attachment time to devices; what a device whose
  entries are stale or displaced sends and gets, for all later histories.
* C78, C79 an invariant relating link flag, slots and channel of a device with the attach and detach records of the log.
* C81 the reports of the queues (C71) fold into the flag; the queue length before and after each report is known from the
  reports, so the flag equals "full" after every operation, whatever the number of connections.
* C80 byte equations; C63 instantiated with group addresses, C21 for inter-satellite channels.
* C82-C84 vector geometry over `Model/Sky` (`Spec/Reach`): the foot of the perpendicular on the line of sight, the latitude of
  a satellite, the plane of an orbit meeting a station; positions at the update instants of `Model/OrbitSched`.
* C85 C74 and C75 composed with C26, and with C82 for the propagation part.
* C86 the way along the orbit plus the drift of the plane, composed with C38; C87 the distance law of C69 composed with the
  obstruction criterion of C48, and C63 for packets.
* C88 every operation commutes with removing what `DoDispose` removes of devices nothing refers to; where something still
  refers to them, the pending completion or the next delivery fails.
* C89 the rounds of events of the tracing program by induction; C90 a simulation of one fleet projects to one satellite.
* C91 composition: C53, C59 and C62 for the network, C90 for the positions, C68 and C63 with C48 for the packets, C83 and C84 for the
  service.
* C92 induction over the hops: between two arrivals only events pass that nobody above notices; the last event of a hop starts the next.
  Forwarding from the callback equals sending after the event. For the example network the hops come from C48, C68 and C91.
* C93 the queueing bound of C85 and the deliveries of C68 and C26 place the reception event among the pending ones; a pending reception
  runs before a later clock is reached. Routes by induction over the stages.
* C94 error propagation through `GetCutoffDistance` and `GetLos`; C95 through `CalcPosition`, then C94 at the computed positions and
  continuity of slant range and obstruction.
* C96 the invariant of C70, in which devices that must not send may still be reconfigured; setters as functions on devices that commute
  with the statements of the transmit path.
* C97 one induction over call trees, parametrised by the faults excluded and by what calls from inside a loop may do to the channels;
  the loops of C18 and C20 interrupted in one round; monotony of indexes and links for code that only attaches.
* C98 a potential: every pending reception and completion and every queued frame is weighed with the number of events the hops left in it
  allow; each event run lowers the sum by at least one.  Endless routes: the hops of C92 without the end of the route.
* C102 two sets of balances kept by every operation: one without assumptions (`Books`), one for inter-satellite links with one peer per
  device (`Direct`), where a frame put on air is handed to one device that owns its destination address, or dropped.
* C103 a device hands a frame over only when the transmission before is over (`SpacedInv`), so that the time between two hand-overs bounds
  from below what the signal gains; distances change by no more than the speeds (C86) times that time and the age of the positions.
  The conversion of seconds to `Time` is any monotone one that is exact on whole nanoseconds (`Granular`).  The counterexample: the station is
  put on the surface at two given distances of the satellite before and after the update, so that both delays are known exactly.
* C104 the conversion rounds the number divided by its last place to an integer; no `double` lies nearer because above the leading bit
  all of them are multiples of that place, and below they are farther.  Printing rounds to the six digit number `printed`, and what is
  printed depends on that only (`sci_of_near`); the error of the conversion is too small to change six digits.
* C105 the transmissions of a device are those of a single server (C74), so that any set of them in a span of time fits into it but for
  the last; hand-overs to one receiver are some of them, with their times (`handedT_exec`), and receptions are hand-overs shifted
  by the delay (C26).
* C106 every pending update has a model that exists (`Owned`) as long as nothing is dropped with an update pending; a model with positive
  precision always has an update pending within its precision (`Ticking`), and an event of a destroyed model stays at its place until it
  is run (`Doomed`).  Devices: `m_link` never shrinks, and a device starts to transmit only when it is in it (`Linked`).
* C107 geometry over `Model/Sky` (`Spec/Coverage`): some longitude carries the plane through the station up to `δ`, the nearest plane is at
  most `π / planes` of longitude away from it, which changes the sine of the angle to the plane by at most `|sin i| π / planes`; in
  the plane the nearest satellite is at most `π / sats` from the foot of the perpendicular. C53 and C86 carry this to installed and
  reported positions, C91 to packets.
* C108 distances of neighbours of the grid of planes and slots (`Spec/Mesh`, `Lemmas/Mesh`): a fixed chord in the plane, between
  `2 r |cos i| sin(π/planes)` and `2 r sin(π/planes)` across planes; positions reported are off by at most one update interval of
  movement each. A way along the grid between the satellites C107 gives for both stations is a list of legs for the forwarding of
  C92/C93 (`Lemmas/Mesh2`); the time bound leaves room for the movement while the packet is under way.
* C109 a step of the network reads positions only at its own time (`step_at`), so skies that agree then give the same step; the fleet is a
  run of `Model/Fleet` without calls (`Flown`), whose positions C91 describes. Forward: updates become pauses, the positions seen make
  the sky. Backward: before every operation all updates up to its time are run (`world_drain`, the measure is the distance of the pending
  updates to that time).
* C110 invariant of the lazy update: current and next waypoint and the queue describe the same way ahead as the waypoints did
  (`WMob.Good`, `place_shift`), which gives the piecewise linear way of `Spec/Track` for any times of asking; C103 gives the order of frames.
* C111 is proved by commuting the second half of `Update` (schedule) with the first halves of the calls nested in it (`half_arm`, `half_prec`):
  a node with `n` calls waiting for their sinks is a satellite on its own with the first halves of `n` operations applied (`Held`), and a
  return completes the oldest. The claims about satellites alone (C31–C39) carry over.
* C112 induction on the history: a reception goes back to one `Send` before it (C28) and one hand-over with the delay of C26, and the
  sender either is the source or received the packet before (`CarriedFrom`). A way that passes a node twice is shortened by waiting there
  (`way_once`); distances add up by the triangle inequality, with a clock that runs as fast as the reported positions move
  (`reportClock`). C108 was strengthened on the way: it now says that the forwarding it builds passes packets on within a node (`PassesOn`).
* C113 is C107 and C108 with the numbers of the first orbit of data/orbits/starlink.csv; the text of the file is in `Spec/Shipped`, reading it
  is computed for one stack and carried over to all by C52.
* C114 the payload of a packet is its identity: headers are read back (`unBe_beBytes`), so a payload tells number and time, and C112 with the
  payload as the property gives the way. The quotient of duration and interval is rounded to nearest (C104), whole numbers are `double`s.
* C115 changes names, clock and nodes by a record of functions applied to states, calls and effects; devices and channels are renamed bijectively, nodes by any function. The environment is arbitrary, so (a) says that the code uses identifiers and times for nothing but equality, differences and the calls of the models. (e) needs the shift to be a multiple of the update interval, as positions are those of the last update.
* C116 models `Ipv4AddressHelper` and the list of interfaces of a node as ns-3 has them; the generator of all addresses is the list of those given, where ns-3 keeps ranges, and the end of the program (assertion or fatal error) is `none`.
* C117 as C113 for data/orbits/telesat.csv. All planes have the same phase (C69), so the height of the satellites of the polar orbit above the equator is the same in all planes, and half a slot before and after their northernmost point all are too far from the pole at once; the other orbit never gets there. The numbers are bounded by Taylor polynomials.
* C118 an invariant of the flooding (`Spreading`): no queue holds anything, a node that does not have the packet has idle ports, and for every node that has it and every lasting link from its ports the packet was passed up at the other end or its reception is pending, in time. The potential of C98 with the ports of the nodes that do not have the packet bounds the events. What the nodes do with the packet (`floodOnce`) is a parameter of the model given in the specification, not code of the repository; the links of `PathBy` have to last until the latest time the packet can be sent over them.
* C119 instances of C118: the legs of C108 (`example_legs`) are lasting links, those between neighbours for ever, those to the ground for as long as the flood takes; the ports are all devices the programs install (`examplePorts`). What the nodes do with the packet is the flooding of C118, not the routing protocols of ns-3 the programs can select.
* C120 induction over the conversation with C119: a flood that has ended is plain traffic (`flooding_plain`, from C98), so the next packet starts from a state C119 speaks of. Only one packet is under way at a time.
* C121 the calls of the sink are the entries of the log that the connections select, each selected once (`traceCalls_entries`); the counter is a sum modulo 2^64, of which the sizes (32 bits) are the differences. What the lines account for comes from C102.
* C122 the history of overlapping floods is an inductive relation (`FloodRuns`, Spec/Floods.lean) of which every call but `Send` and every event may be a step; the invariant `Flooded` (Lemmas/Floods.lean) says that the calls made so far are, as a multiset, those of `onceEach`. It rests on C28 (what is passed up was sent), which excludes packets nobody brought up, and on C102 for transmissions and drops.
* C123 logarithms are bounded by comparing powers of rationals (`loss_bounds`); the range comes from C44/C45 and bounds of the sines of the masks, the distances from the monotony of the loss.
* C124 the traces are set up by the calls of C71-C73, one after the other; who handed a captured frame to the channel or sent the frame that arrived is traced back to a call of `Send` (C09, C26, C64), and by C65 that was a ground/space device.
* C125 the meaning of a line is a relation (`Spec/IpTrace`); the lines are shown to satisfy it, and it is shown to relate a line to one report, cutting it at characters that the part before cannot contain. With C116 the address that is looked for belongs to the second user alone.
* C126 by induction over histories: the connections are those of sockets listed at a call of `Config::Connect`; the program makes its calls before any socket exists.
* C127 C89 for the values; the printed number is within half a unit of the sixth digit (`printed` of C104), and coordinates are below 10^7 m. Decimal numbers contain no colon, and a text is the numeral of one number (`scanFloat_iff`).
* C128 All bits of the first address are set whatever the other operand of the bitwise or (`or_ones`); the counter then wraps to 0. With the top bit from the shift the addresses are consecutive (induction over the devices with the addresses given so far below the next or equal to the first). `C128_once_any_helper` holds for every initial state of the address helper and so does not rest on the assumed values.
* C101 the errors of the budget (C94, C95) and of the two operations in the device add up to less than 1e-9 dB; the counterexample at the
  threshold (0.3 - 0.1 < 0.2) is computed with the 53 bit arithmetic.
* C99, C100 what one operation does to a transmitter (nothing, queue, start, finish, finish and start) without any assumption on the
  queues; the flow through a queue object, the invariant of C01 and the correspondence with `Model/Net` all follow from this list.

For each property the theorem is stated against small specification functions in `Verif/Spec`,
not against the model's helpers; beside each theorem an `example` shows that its hypotheses are met by
a concrete non-trivial case.

## 4. Disagreements between intended properties and the code

Each is proved as a negation with a concrete reachable witness; beside it stands the exact law the code
obeys or a `_partial` theorem with the conditions under which the property holds.

| Id | What the code does instead |
|---|---|
| C07 | `Send` on a full queue returns false, but the caller's packet already carries the headers. |
| C09 | `TransmitComplete` starts the next frame with the destination of the previous one. |
| C11 | With the default MTU 1500, payloads of 1493-1500 bytes get an LLC frame longer than 1500, whose length field decodes as an EtherType. |
| C20 | On the ISL channel a device that owns the broadcast address captures all broadcasts. |
| C21 | On the ISL channel a multicast destination reaches nobody. |
| C23 | A detached ISL device still receives. |
| C24 | `Detach` of a slot the ground/space channel does not have dereferences a null pointer. |
| C25 | Between nodes with positions the reception is scheduled after the propagation delay only: the frame can be received before its last bit was sent. |
| C29 | A device attached twice to a channel receives two copies (the property is proved for single attachment). |
| C30 | A shrinking delay reorders frames (the property is proved for constant delay). |
| C35 | For inclinations above 90 degrees the velocity is opposite to the motion. |
| C36 | The progress is `v*t/R_earth` instead of `v*t/r`. |
| C38 | Construction alone starts no update chain: without a later setter call a position with precision > 0 is never refreshed (the property is about a running chain). |
| C39 | Every setter call adds a further update chain that never ends. |
| C41 | With `LatNum` = 2^32-1 the `uint32_t` arithmetic of the grid allocator wraps. |
| C42 | The grid has rows at the poles, whose nodes coincide, and its last longitudes stay empty. |
| C43 | Latitudes are scaled by pi/90: a ground station of latitude x is placed at latitude 90-2x (or its mirror image). |
| C47 | The elevation mask is applied to the angle at the satellite instead of the one at the ground node. |
| C50 | Printing keeps six significant digits: a value that needs seven does not survive. |
| C52 | A ground-station file with three columns yields a single node; a negative count in an orbit file wraps to a large one. |
| C54 | If no sample of a non-empty file is later than the last time, one stale sample is returned before end of data. |
| C55 | The reader's last time is carried from one satellite's file to the next: a second file over the same time range gives a single waypoint. |
| C56 | As C54, after a rewind beyond the end of the file; the attribute `LastTime` does not rewind at all. |
| C58 | The neighbour caches look up the IP address of a device at its interface index on its node instead of its position in the container: wrong entries, or a read past the container (always with one satellite and one terminal in `LeoHelper`). |
| C60 | `LeoHelper::SetQueue` does not reach the inter-satellite devices; the ground/space installation overwrites both propagation models of its channel, so channel attributes are lost there; `SetDeviceAttribute` aborts for the attributes only `LeoMockNetDevice` has. |
| C64 | `Receive` fires `PromiscSniffer` but never `Sniffer`: the non-promiscuous sniffer shows no received frame. |
| C66 | `Send` adds its header to the caller's packet object and queues the pointer: sending an object that still waits in a queue changes the waiting frame. |
| C69 | All planes start with the same phase: in polar constellations satellites of different planes coincide at the poles (and then have no line of sight), already at installation; with even numbers of planes and of satellites per plane satellites of opposite planes meet again and again at any inclination. |
| C70 | The transmitter is already READY while PhyTxEnd, the Dequeue trace of the queue and the sniffers fire: a `Send` on the device from such a sink ends in an assertion failure, at once or at the next completion. |
| C71 | The argument `promiscuous` of the pcap functions is ignored: files asked for without promiscuous mode contain frames for other hosts. |
| C72 | `LeoHelper` hands `EnableAscii` to all three member helpers: on a shared stream every record of a ground or space device appears three times (files are opened three times with equal content). |
| C76 | `SetAddress` does not tell the channel: on a ground/space channel the frames of a renamed device are dropped, and `Detach` leaves it in the index, so that it receives for ever. |
| C77 | A device attached to a ground/space channel with an address already used there displaces the other device; if the two are on different sides, every transmission of either fails an assertion. |
| C78 | `Detach` of an old slot takes the link of the device down even if the device is attached to another channel and uses that one. |
| C80 | `GetMulticast` ignores the group and returns the same address for all. |
| C81 | `IslHelper` installs no `NetDeviceQueueInterface`: the layer above is never told that the queue is full. `LeoChannelHelper` connects the queue and `DoInitialize` connects it again: every packet is reported twice (bytes count double). |
| C88 | `DoDispose` neither detaches the device nor cancels its completion event: a disposed device that is still indexed (or was ever attached to an inter-satellite channel) makes the next transmission to it dereference a null pointer, and a device disposed of while transmitting fails the assertion of `TransmitComplete`. |
| C93 | As C09: on an inter-satellite channel a packet that waited behind one for another satellite is transmitted to that one, so that its receiver never gets it though it was in reach all the time. |
| C97 | Detaching, from the trace source of a ground/space channel, the device the frame is being handed to erases the map element under the iterator of the loop (undefined behaviour); attaching a device at every delivery of an inter-satellite broadcast makes the loop over `m_link` endless. |
| C100 | `SetQueue` does not start a READY transmitter whose new queue has frames in it, nor does anyone tell the device that a packet was added to the queue from outside: the frames wait for the next `Send`, which transmits the oldest to the destination of the new packet. If the queue is full, no `Send` is accepted any more and the device is stuck for ever. Devices sharing a queue transmit each other's frames, with each other's source address in the header. |
| C102 | The drop traces the documentation offers do not show every loss. A frame heard by devices it is not addressed to is ignored without any trace (model/mock-net-device.cc:501-531); between ground and space PhyTxDrop is fired only if *nobody* hears the frame, so that a frame to a satellite out of reach vanishes silently as soon as another satellite is in reach. |
| C103 | The position of a satellite is recomputed at multiples of the precision (model/leo-circular-orbit-mobility-model.cc:158-169) and stands still between: at an update it jumps by up to 9.7 km per second of precision, and the propagation delay by up to 32 µs at once. Of two short frames sent around an update the second may arrive first, which cannot happen between real nodes. |
| C105 | The rate belongs to the sending device; the channel has none and keeps no record of who is transmitting (model/leo-mock-channel.cc:55-107). Any number of stations can transmit to the same satellite at the same time and all frames are received: the uplink as a whole has no limit and there are no collisions. |
| C106 | `Update` schedules itself with a bare `this` (model/leo-circular-orbit-mobility-model.cc:165) and nothing cancels the event when the mobility model is destroyed. test/leo-orbit-test-suite.cc:50-53, 71-75 create models, set their attributes (which schedules updates 1 s later) and let them go out of scope; the next test case runs the simulator for 101 s, and at 1 s `Update` is called on destroyed objects: undefined behaviour, which goes unnoticed if the memory still looks right. |
| C110 | As C55: with several files over the same time range — the use the helper is made for — only the first satellite moves. Every other stands at the last position of its file; depending on an uninitialised `double` all later ones may have no waypoints at all and are at the centre of the Earth. A record at time 0 is never used. All records of data/test/waypoints.txt are 4300 km from the centre, that is inside the Earth, where `GetLos` grants no link to a satellite outside (C110_inside_earth). |
| C111 | Each setter calls `Update`, which schedules a further chain of updates (C39). A sink of CourseChange that calls a setter when notified by an update adds one chain per chain and interval: the number of events doubles every interval. A sink that calls a setter at every notification recurses without end (model/leo-circular-orbit-mobility-model.cc:158-215). |
| C112 | The delay is computed from both positions at the beginning of the transmission (model/mock-channel.cc:115-129), not from where the receiver is when the signal arrives: a packet to a satellite ahead of the sender outruns light by 10 m over 737 km (C112_outruns), and the update of a reported position moves a node by up to 9.7 km per second of precision at once. |
| C114 | The option `interval` of the delay tracing program: MaxPackets is the rounded quotient of two `double`s with the fraction cut off. `--duration=0.3 --interval=0.1` gives 2 packets; an interval of 0 is undefined behaviour (conversion of infinity), an interval below about 2.3e-8 of the default duration stops the program. Besides, `--traceTxRx` connects to a trace source `PhyRx` that `MockNetDevice` does not have (examples/leo-delay-tracing-example.cc:234, model/mock-net-device.cc:96-180), which is fatal in ns-3 versions whose `Config::Connect` insists on a match. |
| doc | doc/leo.rst:75 gives the arguments of `LeoOrbit` as height, inclination, satellites per plane, number of planes; the constructor (model/leo-orbit.h:64) takes the number of planes before the satellites per plane. |
| doc | doc/leo.rst:153 says that source and destination are pairs of longitude and latitude; `LeoLatLong` reads latitude first. |
| C121 | `--traceTxRx` of the delay tracing program connects to a trace source `PhyRx` that `MockNetDevice` does not have: fatal, or no lines for the physical layer. README.rst offers the trace of drops to log dropped transmissions; a frame whose addressee is out of reach has no line (see C102), and a packet that is turned away by a full queue counts twice if both options are on (MacTx and MacTxDrop). |
| C124 | `--pcap` ("Enable packet capture") of the bulk-send program captures at ground/space devices only: what goes over inter-satellite links is in no capture and not in the trace file, as the traces are enabled with the ground/space helper alone. |
| C125 | `TraceIpForward` is connected to `MulticastForward` as well, but prints packets for the second user only: this connection never prints a line. The lines separate their fields with colons, and the context between them has two more (`$ns3::Ipv4L3Protocol`). |
| C126 | The bulk-send program connects `EchoTxRx` to `/NodeList/*/$ns3::TcpL4Protocol/SocketList/*/Tx` and `Rx` before the simulation; the applications make their sockets when they start, so the paths match nothing: fatal in newer versions of ns-3, no line for any segment in older ones. |
| C127 | The tracing programs call their trace a CSV file and write the heading `Time,Satellite,x,y,z,Speed`; the lines separate their fields with colons. Coordinates are printed with six digits, that is to 10 m. |
| C128 | `LeoHelper::Install` lets an `Ipv4AddressHelper` assign addresses without `SetBase`. With the assumed initial values of such a helper (all members 0xffffffff, see `Model/Legacy`; not checked against ns-3's source): the first inter-satellite device gets the broadcast address, the others depend on an undefined shift by 2^32 - 1 bits, and a second installation ends in the fatal error for an address given twice. |
