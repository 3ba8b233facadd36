{"id": "C01", "title": "Transmitter never violates its own state assertions", "statement": "Whatever sequence of Send, Attach, Detach, address changes and simulator events occurs, a device never starts a transmission while another one is in progress, never completes a transmission that was not started, and never completes with no packet in flight; i.e. none of the READY/BUSY/current-packet assertions of the net device can abort the simulation.", "quantifier": "every finite history of API calls (Send, Attach, Detach, SetAddress, SetDeviceType, data-rate/gap/power changes) on any number of devices and channels, interleaved arbitrarily with simulator event dispatch, every queue size, every propagation model", "why_tests_cant": "The assertions guard against interleavings of Send with pending completion events; a test exercises a handful of schedules, the claim is about all of them.", "anchors": ["model/mock-net-device.cc:TransmitStart", "model/mock-net-device.cc:TransmitComplete", "model/mock-net-device.cc:Send"]}
{"id": "C02", "title": "Accepted packets are put on the air exactly once and in order", "statement": "For every device, the sequence of frames for which PhyTxBegin fires, followed by the frames still in the device queue, is exactly the sequence of frames of the Send calls that returned true, in call order: no accepted packet is lost, duplicated or reordered by the sending device.", "quantifier": "every history of Send calls and simulator events, for every device, queue capacity and data rate", "why_tests_cant": "Conservation over unbounded histories with arbitrary interleaving of sends and completions is an inductive invariant; finite tests see only prefixes.", "anchors": ["model/mock-net-device.cc:Send", "model/mock-net-device.cc:TransmitStart", "model/mock-net-device.cc:TransmitComplete"]}
{"id": "C03", "title": "PhyTxBegin and PhyTxEnd alternate for the same frame", "statement": "On each device the PhyTxBegin and PhyTxEnd traces strictly alternate starting with a begin; every end carries the frame of the immediately preceding begin, so at most one frame is being serialised at any time.", "quantifier": "every history of API calls and events", "why_tests_cant": "Requires ruling out every schedule that would produce two begins in a row or an unmatched end.", "anchors": ["model/mock-net-device.cc:TransmitStart", "model/mock-net-device.cc:TransmitComplete"]}
{"id": "C04", "title": "A busy period ends exactly after serialisation time plus interframe gap", "statement": "If PhyTxBegin fires for a frame of n bytes at time t, the matching PhyTxEnd fires at exactly t + (transmission time of n bytes at the data rate in force at t) + (interframe gap in force at t), and no other frame starts on that device before that instant.", "quantifier": "every history, data rate, gap and frame size", "why_tests_cant": "Timing of completion depends on all pending events; a test checks single packets only.", "anchors": ["model/mock-net-device.cc:TransmitStart", "model/mock-net-device.cc:SetDataRate", "model/mock-net-device.cc:SetInterframeGap"]}
{"id": "C05", "title": "A device with a waiting packet is always transmitting, and its queue drains", "statement": "In every reachable state a non-empty device queue implies a transmission in progress with a completion event pending (so no packet is stranded), and running the simulator without further sends eventually empties the queue: each completion event of a device with k queued frames leaves k-1 queued frames.", "quantifier": "every reachable state of every device and every history", "why_tests_cant": "A liveness property: no finite run refutes or establishes it.", "anchors": ["model/mock-net-device.cc:Send", "model/mock-net-device.cc:TransmitComplete"]}
{"id": "C06", "title": "Send is accepted exactly when the link is up and the queue has room", "statement": "Send returns true iff the link is up and the number of packets waiting in the device queue is below its capacity; the queue never exceeds its capacity; a rejected Send does not change queue, transmitter state or pending events.", "quantifier": "every reachable device state, packet, destination and capacity", "why_tests_cant": "Decision logic over all states including capacity 0 and busy/ready combinations.", "anchors": ["model/mock-net-device.cc:Send"]}
{"id": "C07", "title": "A rejected Send leaves the caller's packet unchanged", "statement": "When Send returns false the caller still holds the packet it passed in, byte for byte (so it may be retried).", "quantifier": "every device state and packet", "why_tests_cant": "Depends on the failure path taken; overflow happens only under load.", "anchors": ["model/mock-net-device.cc:Send", "model/mock-net-device.cc:AddHeader"]}
{"id": "C08", "title": "Sending on a down link has no effect but the drop trace", "statement": "While the link is down (never attached, or detached) Send returns false, fires MacTxDrop exactly once with the unmodified packet and produces no MacTx, no PhyTxBegin and no event; SendFrom always returns false with no effect at all.", "quantifier": "every device state with link down, every packet, source, destination and protocol", "why_tests_cant": "Absence of effects for all states.", "anchors": ["model/mock-net-device.cc:Send", "model/mock-net-device.cc:SendFrom", "model/mock-net-device.cc:NotifyLinkDown"]}
{"id": "C09", "title": "Every queued packet is transmitted to the destination of its own Send", "statement": "The destination handed to the channel for a frame is the destination given in the Send call for that frame.", "quantifier": "every history of Send calls with arbitrary destinations while the device is busy", "why_tests_cant": "Manifests only when packets to different destinations overlap in the queue.", "anchors": ["model/mock-net-device.cc:TransmitComplete", "model/mock-net-device.cc:Send", "model/isl-mock-channel.cc:TransmitStart"]}
{"id": "C10", "title": "Link-layer framing round-trips payload, protocol and addresses", "statement": "A payload of at most 1492 bytes sent with protocol number q from address s to address d is decoded by any receiver to exactly that payload, q, s and d, irrespective of padding, with checksums on or off and for any frame check sequence function.", "quantifier": "all byte strings of length 0..1492, all 16-bit protocols, all 48-bit addresses, any FCS function, checksum flag", "why_tests_cant": "Unbounded data domain with boundary cases in padding (38 bytes) and length field.", "anchors": ["model/mock-net-device.cc:AddHeader", "model/mock-net-device.cc:Receive"]}
{"id": "C11", "title": "Packets up to the advertised MTU are delivered intact", "statement": "A payload of up to GetMtu() bytes (default 1500) is delivered to the receiver's protocol stack with its protocol number and payload unchanged.", "quantifier": "all payload sizes from 0 to the MTU, all MTU values accepted by SetMtu", "why_tests_cant": "Fails only in a narrow size window (1493..1500 with the default MTU) that tests with small packets miss.", "anchors": ["model/mock-net-device.cc:AddHeader", "model/mock-net-device.cc:Receive", "model/mock-net-device.cc:SetMtu"]}
{"id": "C12", "title": "Decoding outcome for every payload size", "statement": "For every payload length the decoded result is one of exactly four cases: up to 1492 bytes intact; 1493..65527 bytes delivered with the protocol replaced by length+8 and the LLC header left in front; lengths whose 16-bit length field wraps to at most 1500 abort the simulation by assertion; other wrapped lengths are delivered with the wrapped length as protocol. No length leads to a silently truncated payload under the right protocol number.", "quantifier": "all payload lengths (natural numbers), protocols, addresses", "why_tests_cant": "Case split over an unbounded domain with 16-bit wrap-around.", "anchors": ["model/mock-net-device.cc:AddHeader", "model/mock-net-device.cc:Receive"]}
{"id": "C13", "title": "Frames respect the Ethernet minimum and have exact overhead", "statement": "Every frame handed to the queue is at least 64 bytes long; its size is payload + 26 bytes when the payload has at least 38 bytes and 64 bytes otherwise; transmission time is computed on that size.", "quantifier": "all payloads", "why_tests_cant": "Arithmetic over all sizes.", "anchors": ["model/mock-net-device.cc:AddHeader", "model/mock-net-device.cc:TransmitStart"]}
{"id": "C14", "title": "Receive filter", "statement": "A frame reaching a device is passed to the receive callback iff it was not sent by the device itself, its received power after receiver gain and loss is not below the threshold, the error model does not corrupt it, the FCS matches and its destination is broadcast, the device's current address or a group address; in that case the callback fires exactly once with the decoded packet. The promiscuous callback (if set) fires for every frame passing the physical checks, with the right packet type. Otherwise exactly one drop trace fires (MacRxDrop for own frames, PhyRxDrop for physical failures) or nothing (unicast to others).", "quantifier": "all frames, receivers, powers, thresholds, error-model decisions", "why_tests_cant": "Combination of six independent conditions over infinite domains.", "anchors": ["model/mock-net-device.cc:Receive", "model/leo-mock-net-device.cc:DoCalcRxPower"]}
{"id": "C15", "title": "Ground/space channel never connects two devices of the same side", "statement": "A transmission of a ground device on the LEO channel is scheduled for reception only at devices that were satellites when they attached, and vice versa; in particular never at the sender itself and never at a device of the sender's own side (provided no device changed type or took over another's address while attached).", "quantifier": "every history of attach, detach, send and events", "why_tests_cant": "Universal over topologies and histories.", "anchors": ["model/leo-mock-channel.cc:TransmitStart", "model/leo-mock-channel.cc:Attach"]}
{"id": "C16", "title": "Ground/space channel reaches exactly the reachable opposite side", "statement": "A transmission on the LEO channel by an indexed device schedules exactly one reception at each indexed device of the opposite side for which the loss model (if both nodes have a position) yields at least -900 dBm, in ascending address order, and none elsewhere; it reports success iff at least one reception was scheduled. An unknown source yields failure and no receptions.", "quantifier": "all channel contents, loss functions, positions, source ids", "why_tests_cant": "Set equality over arbitrary populations.", "anchors": ["model/leo-mock-channel.cc:TransmitStart", "model/mock-channel.cc:Deliver"]}
{"id": "C17", "title": "Destination address does not influence the ground/space channel", "statement": "On the LEO channel the set of receptions scheduled for a frame does not depend on the destination address argument.", "quantifier": "all pairs of destination addresses (including malformed) and all channel states", "why_tests_cant": "Non-interference (two-run) property.", "anchors": ["model/leo-mock-channel.cc:TransmitStart"]}
{"id": "C18", "title": "Inter-satellite unicast reaches only the addressed device", "statement": "A unicast frame to an address owned by an attached device is scheduled for reception at the first attached device with that address and nowhere else, iff it is reachable; a frame to an unknown non-broadcast address is scheduled nowhere and reported as failure.", "quantifier": "all channel contents, addresses and loss functions", "why_tests_cant": "Universal over populations and address assignments.", "anchors": ["model/isl-mock-channel.cc:TransmitStart", "model/mock-channel.cc:GetDevice"]}
{"id": "C19", "title": "Inter-satellite broadcast reaches every other reachable device", "statement": "A broadcast frame (when no attached device owns the broadcast address) is scheduled for reception exactly once at every attached slot other than the sender's whose device is reachable, and at no other; the channel reports success regardless.", "quantifier": "all channel contents and loss functions", "why_tests_cant": "Set equality over arbitrary populations.", "anchors": ["model/isl-mock-channel.cc:TransmitStart"]}
{"id": "C20", "title": "Broadcast is not captured by a device with the default address", "statement": "A broadcast frame on the ISL channel reaches all other reachable devices even if some attached device still has its default address ff:ff:ff:ff:ff:ff.", "quantifier": "all channel contents", "why_tests_cant": "Depends on the order of attach and SetAddress.", "anchors": ["model/isl-mock-channel.cc:TransmitStart", "model/mock-net-device.cc:GetTypeId"]}
{"id": "C21", "title": "Multicast frames are delivered on inter-satellite links", "statement": "A frame to a group address (as returned by GetMulticast) is received by the other reachable devices on the ISL channel, as IsMulticast() announces.", "quantifier": "all group addresses and channel contents", "why_tests_cant": "Requires showing that no population makes it work.", "anchors": ["model/isl-mock-channel.cc:TransmitStart", "model/mock-net-device.cc:IsMulticast", "model/mock-net-device.cc:GetMulticast"]}
{"id": "C22", "title": "A detached ground/space device neither sends nor receives", "statement": "After LeoMockChannel::Detach(id) of a valid id, and until it attaches again, no later transmission is scheduled for reception at that device and none of its new Sends is accepted; Detach returns true iff its link was up.", "quantifier": "every history after the detach, without address reuse", "why_tests_cant": "Quantifies over all continuations.", "anchors": ["model/leo-mock-channel.cc:Detach", "model/mock-channel.cc:Detach"]}
{"id": "C23", "title": "A detached inter-satellite device no longer receives", "statement": "After Detach on the ISL channel no later transmission is scheduled for reception at the detached device.", "quantifier": "every history after the detach", "why_tests_cant": "Quantifies over all continuations.", "anchors": ["model/mock-channel.cc:Detach", "model/isl-mock-channel.cc:TransmitStart"]}
{"id": "C24", "title": "Invalid device ids are handled without undefined behaviour", "statement": "Detach and TransmitStart with an id that was never assigned return false and change nothing.", "quantifier": "all 32-bit ids and channel contents, both channel kinds", "why_tests_cant": "Out-of-range accesses may appear to work in a test.", "anchors": ["model/leo-mock-channel.cc:Detach", "model/mock-channel.cc:GetDevice", "model/mock-channel.cc:Detach"]}
{"id": "C25", "title": "A reception never precedes the end of serialisation plus propagation", "statement": "The reception of a frame is scheduled no earlier than the transmission time plus the propagation delay after PhyTxBegin.", "quantifier": "all frames, rates, positions and delay models", "why_tests_cant": "Timing law over all configurations.", "anchors": ["model/mock-channel.cc:Deliver", "model/mock-channel.cc:GetPropagationDelay"]}
{"id": "C26", "title": "Reception time law", "statement": "A reception is scheduled after exactly: the propagation delay if both nodes have mobility models and a delay model is set; zero if both have mobility but there is no delay model; the transmission time if one of them lacks a mobility model.", "quantifier": "all configurations", "why_tests_cant": "Case analysis over all configurations.", "anchors": ["model/mock-channel.cc:Deliver", "model/mock-channel.cc:GetPropagationDelay"]}
{"id": "C27", "title": "Unreachable destinations are the only silent channel losses", "statement": "The channel refuses a (source,destination) pair iff both nodes have mobility models, a loss model is set and the computed power is below -900 dBm; otherwise the frame is handed over unmodified with the computed power (or the transmit power when there is no loss model or position).", "quantifier": "all powers, positions, loss functions", "why_tests_cant": "Decision logic over all configurations.", "anchors": ["model/mock-channel.cc:Deliver"]}
{"id": "C28", "title": "No received packet out of thin air", "statement": "Every packet passed to a receive callback has the payload and protocol of some earlier Send call (with payload at most 1492 bytes) accepted by another device, with that device's address at that time as source and a destination that is broadcast, a group or the receiver's own address at reception time.", "quantifier": "every history over any number of devices and channels, every loss/delay/error model", "why_tests_cant": "End-to-end provenance over unbounded executions.", "anchors": ["model/mock-net-device.cc:Send", "model/mock-net-device.cc:Receive", "model/mock-channel.cc:Deliver"]}
{"id": "C29", "title": "At most one copy per transmission and receiver", "statement": "Each put-on-air event causes at most one reception at any given device, as long as each device is attached once to the channel.", "quantifier": "every history", "why_tests_cant": "No-duplication over all executions.", "anchors": ["model/leo-mock-channel.cc:TransmitStart", "model/isl-mock-channel.cc:TransmitStart"]}
{"id": "C30", "title": "In-order delivery between two devices with constant delay", "statement": "If the delay between two nodes does not change over time, frames put on the air by one device are received by the other in the order of the transmissions.", "quantifier": "every history with time-independent pairwise delay", "why_tests_cant": "Order over all executions, including equal timestamps.", "anchors": ["model/mock-channel.cc:Deliver", "model/mock-net-device.cc:TransmitStart"]}
{"id": "C31", "title": "A satellite always stays on its sphere", "statement": "The reported position of a circular-orbit satellite is at distance altitude + Earth radius from the Earth's centre at all times, for all inclinations, initial positions and precisions.", "quantifier": "all times, inclinations, longitudes, offsets, altitudes above minus Earth radius, all setter histories", "why_tests_cant": "Identity over the reals at all times.", "anchors": ["model/leo-circular-orbit-mobility-model.cc:CalcPosition", "model/leo-circular-orbit-mobility-model.cc:RotatePlane"]}
{"id": "C32", "title": "A satellite stays in the orbital plane of its inclination", "statement": "At every instant the position lies in the plane through the Earth's centre tilted by the inclination: its angle to the equator never exceeds the inclination and is attained; the plane normal makes the angle 'inclination' with the Earth's axis.", "quantifier": "all times and parameters", "why_tests_cant": "Real-analysis identity.", "anchors": ["model/leo-circular-orbit-mobility-model.cc:PlaneNorm", "model/leo-circular-orbit-mobility-model.cc:RotatePlane"]}
{"id": "C33", "title": "Progress along the orbit is a rotation", "statement": "Advancing along the orbit by a then by b equals advancing by a+b, a full turn is the identity, and distances between satellites of one plane depend only on their offset difference (constant over time).", "quantifier": "all angles, times, offsets", "why_tests_cant": "Group law over the reals.", "anchors": ["model/leo-circular-orbit-mobility-model.cc:RotatePlane"]}
{"id": "C34", "title": "Velocity is tangential with the circular-orbit speed", "statement": "With precision 0 the reported velocity is orthogonal to the position and its magnitude is sqrt(GM/r).", "quantifier": "all times and parameters", "why_tests_cant": "Real-analysis identity.", "anchors": ["model/leo-circular-orbit-mobility-model.cc:DoGetVelocity", "model/leo-circular-orbit-mobility-model.cc:GetSpeed"]}
{"id": "C35", "title": "Velocity points in the direction of motion", "statement": "In the orbital plane the reported velocity is a positive multiple of the derivative of the position with respect to progress, for prograde and retrograde orbits.", "quantifier": "all inclinations in (0,180] degrees and all times", "why_tests_cant": "Sign errors show only for some inclinations.", "anchors": ["model/leo-circular-orbit-mobility-model.cc:DoGetVelocity", "model/leo-circular-orbit-mobility-model.cc:GetProgress"]}
{"id": "C36", "title": "Orbital angular rate matches the speed on the orbit", "statement": "In the (rotating) orbital plane a satellite with speed v on an orbit of radius r advances by the angle v*t/r in time t.", "quantifier": "all altitudes and times", "why_tests_cant": "Quantitative law for all altitudes.", "anchors": ["model/leo-circular-orbit-mobility-model.cc:GetProgress"]}
{"id": "C37", "title": "Altitude and inclination setters round-trip and positions reflect them", "statement": "GetAltitude after SetAltitude(h) returns h, GetInclination after SetInclination(i) returns i, neither disturbs the other, and the position returned right after a setter call is the one of the new parameters at the current time.", "quantifier": "all values, all call orders", "why_tests_cant": "All values and orders.", "anchors": ["model/leo-circular-orbit-mobility-model.cc:SetAltitude", "model/leo-circular-orbit-mobility-model.cc:SetInclination"]}
{"id": "C38", "title": "A cached satellite position is never older than the precision", "statement": "Once a position update chain is running with precision p > 0, the position reported at any time t is the exact position at some instant in (t - p, t]; with p = 0 it is the exact position at t.", "quantifier": "all precisions, event schedules and query times", "why_tests_cant": "Staleness bound over all schedules.", "anchors": ["model/leo-circular-orbit-mobility-model.cc:Update", "model/leo-circular-orbit-mobility-model.cc:DoGetPosition"]}
{"id": "C39", "title": "One course-change notification per precision interval", "statement": "With precision p > 0 the model notifies course changes at a rate of one per p, regardless of how many times position, altitude or inclination were set.", "quantifier": "all sequences of setter calls and times", "why_tests_cant": "Event chains accumulate only over long histories.", "anchors": ["model/leo-circular-orbit-mobility-model.cc:Update", "model/leo-circular-orbit-mobility-model.cc:SetAltitude"]}
{"id": "C40", "title": "Orbit slots are enumerated completely and without collision", "statement": "The allocator with O orbits and S satellites per orbit returns, over any O*S consecutive calls, each slot (orbit o, satellite k) as (2*pi*o/O, 2*pi*k/S) exactly once, satellites of one orbit consecutively, and then repeats.", "quantifier": "all O, S >= 1 and every call number", "why_tests_cant": "Periodicity and bijectivity over unbounded call sequences.", "anchors": ["model/leo-circular-orbit-position-allocator.cc:GetNext"]}
{"id": "C41", "title": "Polar grid places every node on the Earth's surface", "statement": "Every position returned by the polar allocator lies on the sphere of radius 6371 km, and call n uses latitude row n mod (LatNum+1) and longitude column (n div (LatNum+1)) mod LonNum.", "quantifier": "all LatNum >= 1, LonNum >= 1 and every call number", "why_tests_cant": "Unbounded call sequences.", "anchors": ["model/leo-polar-position-allocator.cc:GetNext"]}
{"id": "C42", "title": "Grid installation covers the requested latitude by longitude grid", "statement": "Installing latNodes x lonNodes ground nodes uses each of the lonNodes longitudes and places the nodes at pairwise distinct positions.", "quantifier": "all latNodes, lonNodes >= 1", "why_tests_cant": "Depends on all grid sizes.", "anchors": ["helper/ground-node-helper.cc:Install", "model/leo-polar-position-allocator.cc:GetNext"]}
{"id": "C43", "title": "Ground positions are on the surface and distinguish locations", "statement": "A latitude/longitude pair is mapped to a point on the Earth's surface with the equator (latitude 0) in the equatorial plane and different locations mapped to different points.", "quantifier": "all latitudes in [-90,90] and longitudes in (-180,180]", "why_tests_cant": "Real-valued domain.", "anchors": ["helper/ground-node-helper.cc:GetEarthPosition"]}
{"id": "C44", "title": "Space/ground link budget", "statement": "Whenever two nodes are within the cut-off distance the received power is exactly transmit power minus atmospheric loss minus free-space path loss minus link margin, otherwise -1000 dBm; the result does not depend on the order of the two nodes.", "quantifier": "all positions, powers and losses", "why_tests_cant": "Real-valued domain.", "anchors": ["model/leo-propagation-loss-model.cc:DoCalcRxPower"]}
{"id": "C45", "title": "Cut-off distance is the slant range of the elevation mask", "statement": "For a satellite at radius hs above the Earth radius R and mask angle alpha in (-90,90) degrees the cut-off distance is the unique non-negative d with d^2 + 2*hs*d*|sin alpha| = hs^2 - R^2; it decreases with |alpha| and increases with hs.", "quantifier": "all radii and angles", "why_tests_cant": "Real-valued domain.", "anchors": ["model/leo-propagation-loss-model.cc:GetCutoffDistance"]}
{"id": "C46", "title": "A link is accepted only above the elevation mask", "statement": "If a satellite at radius hs >= R and a ground node at radius at most R are in range of each other, the satellite's elevation above the ground node's horizon is at least the configured elevation angle.", "quantifier": "all positions with ground radius in (0,R], all mask angles in [0,90)", "why_tests_cant": "Geometric statement over all positions.", "anchors": ["model/leo-propagation-loss-model.cc:GetCutoffDistance", "model/leo-propagation-loss-model.cc:DoCalcRxPower"]}
{"id": "C47", "title": "A link above the elevation mask is accepted", "statement": "If the satellite's elevation above the horizon of a ground node on the sphere of radius R is at least the configured angle, the link is accepted.", "quantifier": "all positions with ground radius R, all mask angles in [0,90)", "why_tests_cant": "Geometric statement over all positions.", "anchors": ["model/leo-propagation-loss-model.cc:GetCutoffDistance"]}
{"id": "C48", "title": "Inter-satellite line of sight is exactly freedom from Earth obstruction", "statement": "For two distinct satellites, at least one of them outside or on the Earth sphere, line of sight is reported iff the straight segment between them does not meet the closed Earth ball; the received power is then the transmit power, else -1000 dBm.", "quantifier": "all pairs of positions", "why_tests_cant": "Geometric equivalence over all positions.", "anchors": ["model/isl-propagation-loss-model.cc:GetLos", "model/isl-propagation-loss-model.cc:DoCalcRxPower"]}
{"id": "C49", "title": "Inter-satellite line of sight is symmetric", "statement": "Line of sight from a to b equals line of sight from b to a.", "quantifier": "all pairs of positions", "why_tests_cant": "Real-valued domain.", "anchors": ["model/isl-propagation-loss-model.cc:GetLos"]}
{"id": "C50", "title": "Orbit and location records round-trip through their text form", "statement": "Reading back what was printed for an orbit or a latitude/longitude yields the same record, and a file of printed records separated by white space is read back as exactly that list.", "quantifier": "all records whose numbers print exactly, all lists of records", "why_tests_cant": "Unbounded input domain.", "anchors": ["model/leo-orbit.cc:operator>>", "model/leo-orbit.cc:operator<<", "model/leo-lat-long.cc:operator>>", "model/leo-lat-long.cc:operator<<"]}
{"id": "C51", "title": "Malformed records are rejected whatever the stack holds", "statement": "Reading a record whose separators are missing or wrong fails the stream, and success or failure (and the values read on success) do not depend on the uninitialised separator variables.", "quantifier": "all input texts and all initial memory contents", "why_tests_cant": "Uninitialised memory is invisible to a test that happens to see a benign value.", "anchors": ["model/leo-orbit.cc:operator>>", "model/leo-lat-long.cc:operator>>"]}
{"id": "C52", "title": "File installation creates one node per leading well-formed record", "statement": "Installing from a file creates nodes exactly for the longest prefix of well-formed records: one node per location, planes*sats nodes per orbit, in file order; the first malformed record silently ends the file and a missing file yields no node.", "quantifier": "all file contents", "why_tests_cant": "Unbounded input domain.", "anchors": ["helper/ground-node-helper.cc:Install", "helper/leo-orbit-node-helper.cc:Install"]}
{"id": "C53", "title": "Orbit installation places each satellite on its own slot", "statement": "Installing an orbit with P planes of S satellites creates P*S nodes whose positions are those of the P*S slots, each exactly once; for a list of orbits the nodes are the concatenation and their number the sum.", "quantifier": "all P, S with P*S representable, all orbit lists", "why_tests_cant": "Unbounded domain; depends on allocator state shared across calls.", "anchors": ["helper/leo-orbit-node-helper.cc:Install", "model/leo-circular-orbit-position-allocator.cc:GetNext"]}
{"id": "C54", "title": "Waypoint samples come out in strictly increasing time", "statement": "For a file with strictly increasing times the reader returns exactly the samples later than the last time, in file order, and then reports end of data; for arbitrary files every returned sample but possibly the last is strictly later than the previous one.", "quantifier": "all files and all last times", "why_tests_cant": "Unbounded input sequences.", "anchors": ["helper/leo-input-fstream-container.cc:GetNextSample"]}
{"id": "C55", "title": "Every satellite gets all waypoints of its own file", "statement": "Installing satellites from a list of waypoint files gives satellite i exactly the waypoints of file i.", "quantifier": "all lists of files with increasing times", "why_tests_cant": "Shared reader state across files matters only for two or more files.", "anchors": ["helper/satellite-node-helper.cc:Install", "helper/leo-input-fstream-container.cc:SetFile"]}
{"id": "C56", "title": "Rewinding the waypoint reader", "statement": "After SetLastTime(t) on a reader with an open file, the samples returned from then on are those of the whole file later than t, independent of what was read before.", "quantifier": "all files, read positions and times", "why_tests_cant": "All histories.", "anchors": ["helper/leo-input-fstream-container.cc:SetLastTime", "helper/leo-input-fstream-container.cc:GetNextSample"]}
{"id": "C57", "title": "Installed devices have unique addresses and are attached in order", "statement": "Installing a LEO channel on satellites and stations gives each node one device with a fresh unique address and the right type, satellites first, channel slot = position in the returned container, link up, all indexed on the right side of the channel; ISL installation likewise.", "quantifier": "all node lists and all previous allocations (fewer than 2^48)", "why_tests_cant": "Universal over node sets and call histories.", "anchors": ["helper/leo-channel-helper.cc:Install", "helper/isl-helper.cc:Install"]}
{"id": "C58", "title": "Pre-filled neighbour caches map each peer's IP to its MAC", "statement": "After ArpCacheHelper/NdCacheHelper Install, each device's cache maps the IP address of every other (opposite-type) device of the container to that device's MAC address.", "quantifier": "all device containers, interface containers and interface indices", "why_tests_cant": "Correct by accident when interface indices coincide with container positions.", "anchors": ["helper/arp-cache-helper.cc:Install", "helper/nd-cache-helper.cc:Install"]}
{"id": "C59", "title": "Constellation presets give working links", "statement": "Each of the four named presets configures EIRP, elevation angle, losses, rate and receiver gain of the matching constants, and with them every in-range frame is above both the channel's reachability limit and the receiver threshold; any other name is rejected.", "quantifier": "all preset names (strings) and all in-range positions", "why_tests_cant": "Combination of table and link budget over all geometries.", "anchors": ["helper/leo-channel-helper.cc:SetConstellation", "helper/leo-channel-helper.cc:SetConstellationAttributes"]}
{"id": "C60", "title": "Helper settings reach the objects they name", "statement": "A queue, device or channel setting made on LeoHelper before Install takes effect on every device/channel of the kind it names: queue settings on all devices, channel attributes on the ground/space channel.", "quantifier": "all sequences of settings before Install", "why_tests_cant": "Depends on factory override order.", "anchors": ["helper/leo-helper.cc:SetQueue", "helper/leo-helper.cc:SetChannelAttribute", "helper/leo-channel-helper.cc:Install"]}
{"id": "C61", "title": "Properly used networks never fail", "statement": "A program that keeps a few rules (equipped devices, distinct addresses per channel, MAC destinations, at most 65527 bytes per packet, existing slots, LEO devices on LEO channels) never hits an assertion, abort or undefined behaviour, and its events run to the end; each of the rules is needed.", "quantifier": "all programs (histories of API calls and events) and all environments (positions, losses, delays, error models, checksums)", "why_tests_cant": "Absence of failure over all call sequences and interleavings; tests see single runs.", "anchors": ["model/mock-net-device.cc:Send", "model/mock-net-device.cc:TransmitStart", "model/mock-net-device.cc:TransmitComplete", "model/mock-net-device.cc:Receive", "model/leo-mock-channel.cc:TransmitStart", "model/isl-mock-channel.cc:TransmitStart", "model/leo-mock-channel.cc:Attach"]}
{"id": "C62", "title": "Networks built by the helpers are ordinary networks", "statement": "Whatever sequence of Install calls with whatever settings, the helpers leave a network that plain Attach calls produce from fresh devices and channels, keeping all rules of proper use; so traffic in it never fails, runs to quiescence, and a first packet reaches exactly the audible devices of the other side of its channel.", "quantifier": "all sequences of installations and settings, all programs of traffic, all environments", "why_tests_cant": "Combination of every construction with every program.", "anchors": ["helper/leo-channel-helper.cc:Install", "helper/isl-helper.cc:Install", "helper/leo-helper.cc:Install"]}
{"id": "C63", "title": "A packet is delivered end to end exactly once to exactly the right receivers", "statement": "In a quiet, properly used network a sent packet of at most 1492 bytes leads, after all events have run, to exactly one receive callback (same bytes, protocol, sender address) at every device that is meant and hears the sender, and to none elsewhere: opposite side on a ground/space channel, the owner of the address or all others for a broadcast on an inter-satellite channel.", "quantifier": "all reachable quiet network states, senders, packets, destinations, positions, propagation models", "why_tests_cant": "Composition of sender, channel, event list and receiver over all networks.", "anchors": ["model/mock-net-device.cc:Send", "model/mock-net-device.cc:Receive", "model/leo-mock-channel.cc:TransmitStart", "model/isl-mock-channel.cc:TransmitStart", "model/mock-channel.cc:Deliver"]}
{"id": "C64", "title": "Trace sources report what happened", "statement": "At every moment of every history and for every device: MacTx has reported exactly the packets that Send framed and MacTxDrop those of rejected calls; Sniffer and the channel have seen exactly the frames whose transmission began, in order; PhyRxEnd the frames that arrived from others and MacRxDrop those that came back to their sender; the promiscuous sniffer has shown every transmitted frame and every arrived frame except those reported as PhyRxDrop; MacRx and MacPromiscRx fire once per callback; PhyTxDrop reports a frame exactly if the transmission that put it on the channel could reach none of those it was meant for; and the non-promiscuous sniffer shows the frames passed up.", "quantifier": "all histories, devices, frames, propagation models, error models", "why_tests_cant": "Equality of unbounded event sequences over all histories.", "anchors": ["model/mock-net-device.cc:GetTypeId", "model/mock-net-device.cc:Send", "model/mock-net-device.cc:TransmitStart", "model/mock-net-device.cc:TransmitComplete", "model/mock-net-device.cc:Receive"]}
{"id": "C65", "title": "Networks that share a simulation do not influence each other", "statement": "If the devices of a group are attached only to channels of the group, and all others only to other channels, then whatever the others do, the group's devices, channels, pending events and trace entries with their times are those of a history in which only the group's own calls are made (in the same order); and no frame is received across the border.", "quantifier": "all groups, histories, propagation models, error models that decide by device, time and frame", "why_tests_cant": "Non-interference over all interleavings of two unbounded activities.", "anchors": ["model/mock-channel.cc:Deliver", "model/mock-channel.cc:Attach", "model/leo-mock-channel.cc:TransmitStart", "model/isl-mock-channel.cc:TransmitStart", "model/mock-net-device.cc:TransmitStart"]}
{"id": "C66", "title": "An accepted packet is not changed before it is transmitted", "statement": "Devices hold pointers to packet objects, not copies. Whatever calls are made after Send accepted a packet, the device transmits the frame it accepted; so histories with packet objects do what histories with packet values do.", "quantifier": "all histories of calls with shared packet objects, all devices", "why_tests_cant": "Aliasing over all histories; depends on which calls happen while the packet waits.", "anchors": ["model/mock-net-device.cc:Send", "model/mock-net-device.cc:TransmitStart", "model/mock-net-device.cc:TransmitComplete", "model/mock-channel.cc:Deliver"]}
{"id": "C67", "title": "Links inside an orbital plane are permanent and keep the order of frames", "statement": "Two satellites of one plane see each other either at all times or never; neighbours among S evenly spaced satellites do iff r cos(pi/S) exceeds the Earth's radius, which holds for all shipped orbit files. A packet between two that see each other, sent over a quiet inter-satellite channel, is received exactly once, and frames arrive in the order in which they were sent.", "quantifier": "all altitudes, inclinations, numbers of planes and satellites, times, histories", "why_tests_cant": "Quantifies over real-valued orbit parameters and all times, and combines geometry with all histories of the network.", "anchors": ["model/leo-circular-orbit-mobility-model.cc:CalcPosition", "model/isl-propagation-loss-model.cc:GetLos", "helper/leo-orbit-node-helper.cc:Install", "model/mock-channel.cc:Deliver", "model/isl-mock-channel.cc:TransmitStart", "data/orbits/starlink.csv", "data/orbits/telesat.csv"]}
{"id": "C68", "title": "A ground/space packet reaches exactly the nodes within the slant range", "statement": "In a quiet, properly used ground/space channel with the installed propagation models a packet is received, exactly once, by exactly those attached devices of the other side whose distance x satisfies x^2 + 2 r x |sin e| <= r^2 - R^2 (e the elevation mask, r the radius of the farther node), whose received power suffices and to which it is addressed.", "quantifier": "all positions, masks, link budgets, networks, packets", "why_tests_cant": "End-to-end over real-valued geometry and all networks.", "anchors": ["model/leo-propagation-loss-model.cc:DoCalcRxPower", "model/leo-propagation-loss-model.cc:GetCutoffDistance", "model/leo-mock-channel.cc:TransmitStart", "model/mock-channel.cc:Deliver", "model/mock-net-device.cc:Receive", "helper/leo-channel-helper.cc:Install"]}
{"id": "C69", "title": "Satellites of a constellation never share a position", "statement": "At all times any two different satellites of an installed orbit (planes times satellites per plane) are at different positions.", "quantifier": "all orbits, pairs of satellites, times", "why_tests_cant": "All real-valued parameters and all times.", "anchors": ["helper/leo-orbit-node-helper.cc:Install", "model/leo-circular-orbit-position-allocator.cc:GetNext", "model/leo-circular-orbit-mobility-model.cc:CalcPosition"]}
{"id": "C70", "title": "Send may be called from any trace sink or callback", "statement": "Whatever calls of Send the code connected to trace sources and callbacks makes, to any nesting depth and mixed with setters, Attach and Detach, no assertion of the transmit path fails, every accepted frame is transmitted exactly once, frames leave in the order in which they entered the queue, and starts and ends of transmissions alternate.", "quantifier": "all histories, all trees of nested calls, all devices", "why_tests_cant": "Re-entrancy: quantifies over all call trees at all points where the device hands over control.", "anchors": ["model/mock-net-device.cc:Send", "model/mock-net-device.cc:TransmitStart", "model/mock-net-device.cc:TransmitComplete", "model/mock-net-device.cc:Receive"]}
{"id": "C71", "title": "A pcap file contains exactly the frames that passed its device", "statement": "After a pcap file was enabled for a device, and whatever the program does then, the file contains exactly the frames the device handed to its channel and the frames it received without discarding them, in order and with their times, provided no other call names the same file; a reception is recorded iff it comes from another device, is audible, not corrupted and passes the checksum. Without promiscuous mode only frames from or for the device are recorded.", "quantifier": "all programs, devices, helpers, file names", "why_tests_cant": "All histories, including those that enable further traces while the network runs.", "anchors": ["helper/isl-helper.cc:EnablePcapInternal", "helper/leo-channel-helper.cc:EnablePcapInternal", "helper/leo-helper.cc:EnablePcapInternal", "model/mock-net-device.cc:Send", "model/mock-net-device.cc:TransmitComplete", "model/mock-net-device.cc:Receive"]}
{"id": "C72", "title": "An ascii trace tells what happened to every frame", "statement": "In the ascii trace of a device, in a file or on a shared stream, + records are exactly the frames Send accepted, - records the frames whose transmission began, r records the frames handed up, d records the framed packets Send refused and the frames discarded at reception, each once, in order and with its time; following + and - from the queue at enabling gives the current queue.", "quantifier": "all programs, devices, helpers, files and streams", "why_tests_cant": "All histories; relates three trace sources of the queue with the behaviour of the device.", "anchors": ["helper/isl-helper.cc:EnableAsciiInternal", "helper/leo-channel-helper.cc:EnableAsciiInternal", "helper/leo-helper.cc:EnableAsciiInternal", "model/mock-net-device.cc:Send", "model/mock-net-device.cc:TransmitComplete", "model/mock-net-device.cc:Receive"]}
{"id": "C73", "title": "Enabling traces for all devices gives every device its own trace and changes nothing else", "statement": "Enabling pcap or ascii traces has no influence on the network. EnablePcapAll and EnableAsciiAll on a network built by the helpers succeed; every device the helper handles then has a file of its own name with exactly its records and there are no further files; on a shared stream records of devices are told apart by their context.", "quantifier": "all sequences of installations, helpers, prefixes, device lists, histories", "why_tests_cant": "All networks and histories; name clashes depend on decimal expansions of all node and interface numbers.", "anchors": ["helper/isl-helper.cc:EnablePcapInternal", "helper/leo-channel-helper.cc:EnablePcapInternal", "helper/isl-helper.cc:EnableAsciiInternal", "helper/leo-channel-helper.cc:EnableAsciiInternal", "helper/leo-helper.cc:EnablePcapInternal", "helper/leo-helper.cc:EnableAsciiInternal"]}
{"id": "C74", "title": "Transmissions follow the schedule of a single FIFO server", "statement": "While rate and interframe gap of a device are not changed, its transmissions begin exactly when a single server would begin them that serves the accepted frames in the order of their Send calls, each for its air time plus the gap, and is never idle while a frame waits; so the air time of everything sent between two transmissions fits between them.", "quantifier": "all histories, devices, rates, gaps, frames", "why_tests_cant": "The begin of a transmission depends on the whole history of the device.", "anchors": ["model/mock-net-device.cc:Send", "model/mock-net-device.cc:TransmitStart", "model/mock-net-device.cc:TransmitComplete", "model/mock-net-device.cc:SetDataRate", "model/mock-net-device.cc:SetInterframeGap"]}
{"id": "C75", "title": "No accepted frame waits longer than a full queue takes", "statement": "Under the same condition an accepted frame begins no later than its Send plus the air times of the frames accepted directly before it, of which at most as many count as the queue has places.", "quantifier": "all histories, devices, queue lengths, frames", "why_tests_cant": "A worst-case bound over all arrival patterns.", "anchors": ["model/mock-net-device.cc:Send", "model/mock-net-device.cc:TransmitStart", "model/mock-net-device.cc:TransmitComplete", "model/mock-net-device.cc:SetQueue"]}
{"id": "C76", "title": "A device that changes its address stays connected", "statement": "A device that is given another address while it is attached, one nobody on the channel has, can go on sending to and receiving from the other devices of the channel, and can be detached.", "quantifier": "all histories, channels, devices, addresses", "why_tests_cant": "The channel indexes devices under the address they had when they were attached; what a change does depends on the whole history of both.", "anchors": ["model/mock-net-device.cc:SetAddress", "model/leo-mock-channel.cc:TransmitStart", "model/leo-mock-channel.cc:Attach", "model/leo-mock-channel.cc:Detach", "model/isl-mock-channel.cc:TransmitStart"]}
{"id": "C77", "title": "Attaching a device takes nothing away from the others", "statement": "When a device is attached to a channel, every frame that would have reached another device before still reaches it.", "quantifier": "all histories, channels, devices, addresses", "why_tests_cant": "Depends on which addresses were used on the channel in the whole history.", "anchors": ["model/leo-mock-channel.cc:Attach", "model/mock-channel.cc:Attach", "model/leo-mock-channel.cc:TransmitStart"]}
{"id": "C78", "title": "The link of a device is up while the device is attached, and listeners are told of every change", "statement": "IsLinkUp is true exactly while the device is attached to a channel; link change callbacks are invoked once for each change of that state, when it is in effect.", "quantifier": "all histories, devices, channels", "why_tests_cant": "All interleavings of attachments and detachments on several channels.", "anchors": ["model/mock-net-device.cc:Attach", "model/mock-net-device.cc:NotifyLinkUp", "model/mock-net-device.cc:NotifyLinkDown", "model/mock-net-device.cc:IsLinkUp", "model/mock-channel.cc:Detach", "model/mock-net-device.cc:AddLinkChangeCallback"]}
{"id": "C79", "title": "Device ids of a channel are consecutive and permanent", "statement": "The ids returned by Attach on a channel are 0, 1, 2, ... in the order of the calls; GetNDevices is their number, GetDevice returns for each of them for ever the device it was returned for, and the id with which a device transmits is one of its own.", "quantifier": "all histories, channels, devices", "why_tests_cant": "For ever: whatever is attached and detached afterwards.", "anchors": ["model/mock-channel.cc:Attach", "model/mock-channel.cc:GetNDevices", "model/mock-channel.cc:GetDevice", "model/mock-net-device.cc:Attach"]}
{"id": "C80", "title": "Multicast groups have their standard link-layer addresses and their packets reach everyone", "statement": "GetMulticast maps an IPv4 group as RFC 1112 and an IPv6 address as RFC 2464 prescribe; packets for groups and for the broadcast address are handed up by all devices of the channel that hear the sender.", "quantifier": "all group addresses (2^32, 2^128), histories, channels, devices", "why_tests_cant": "All group addresses and all reachable states.", "anchors": ["model/mock-net-device.cc:GetMulticast", "model/mock-net-device.cc:GetBroadcast", "model/mock-net-device.cc:Receive", "model/isl-mock-channel.cc:TransmitStart", "model/leo-mock-channel.cc:TransmitStart"]}
{"id": "C81", "title": "Installed devices tell the layer above when their queue is full", "statement": "For every device installed by the helpers the transmission queue of its NetDeviceQueueInterface is stopped exactly while the device queue is full and is woken by the next completion, so that a layer above which sends only while the queue is not stopped and the link is up never has a packet refused.", "quantifier": "all histories, devices, queue capacities, numbers of connections", "why_tests_cant": "The flag is set and cleared by queue reports of all sends and completions of a history; the sinks are connected by the helper and once more at initialization.", "anchors": ["model/mock-net-device.cc:DoInitialize", "model/mock-net-device.cc:NotifyNewAggregate", "model/mock-net-device.cc:Send", "model/mock-net-device.cc:TransmitComplete", "helper/leo-channel-helper.cc:Install", "helper/isl-helper.cc:Install"]}
{"id": "C82", "title": "Propagation delays are bounded by the geometry of the links", "statement": "The delay of every hand-over between nodes with positions is the light time of their distance at that moment. It is never less than the difference of their heights takes, over inter-satellite links between nodes outside the Earth never more than the ways of both to the horizon take, over ground/space links never more than the slant range takes; the horizon bound cannot be improved.", "quantifier": "all histories, channels, node positions and motions, elevation masks", "why_tests_cant": "All pairs of positions at all times; a bound over a continuum.", "anchors": ["model/mock-channel.cc:Deliver", "model/mock-channel.cc:GetPropagationDelay", "model/isl-propagation-loss-model.cc:GetLos", "model/leo-propagation-loss-model.cc:GetCutoffDistance", "model/leo-propagation-loss-model.cc:DoCalcRxPower"]}
{"id": "C83", "title": "Stations beyond the latitude band of an orbit are never served", "statement": "A satellite never comes closer to a station at a latitude beyond its inclination than the chord that belongs to the difference; this is attained by some orbit of the same height and inclination. If it exceeds the slant range, no frame is ever handed over between the two in either direction, whatever the program does.", "quantifier": "all orbits, station positions, times, histories", "why_tests_cant": "For ever: all times and all histories.", "anchors": ["model/leo-circular-orbit-mobility-model.cc:CalcPosition", "model/leo-circular-orbit-mobility-model.cc:RotatePlane", "model/leo-propagation-loss-model.cc:DoCalcRxPower", "model/leo-propagation-loss-model.cc:GetCutoffDistance"]}
{"id": "C84", "title": "Stations inside the latitude band are served regularly", "statement": "An installed constellation of P planes with S satellites brings a satellite as near to every station inside the band of its inclination as the chord for half the spacing in a plane, up to the drift of the planes between two position updates, in every P-th of a day. If the slant range is longer, the station has a satellite in range in every such period; for the first orbit of the shipped Starlink file and the default elevation mask that is every 45 minutes for every station between 53 degrees north and south.", "quantifier": "all constellations, station positions, starting times", "why_tests_cant": "A recurrence property over unbounded time and a continuum of stations.", "anchors": ["helper/leo-orbit-node-helper.cc:Install", "model/leo-circular-orbit-mobility-model.cc:CalcPosition", "model/leo-circular-orbit-mobility-model.cc:CalcLatitude", "model/leo-circular-orbit-mobility-model.cc:Update", "model/leo-circular-orbit-position-allocator.cc:GetNext", "model/leo-propagation-loss-model.cc:GetCutoffDistance"]}
{"id": "C85", "title": "Frames arrive within queueing time plus propagation time", "statement": "While rate and interframe gap are not changed, every frame a device receives was accepted by the sender at most the capacity of its queue times the longest occupation of the device by a frame plus the longest propagation delay earlier, and every accepted frame is on the air when that queueing time has passed; over inter-satellite links the propagation part is at most the light time of the two ways to the horizon, over ground/space links the light time of the longest distance at which the satellite stands at the elevation angle.", "quantifier": "all histories, devices, queue lengths, frames, motions", "why_tests_cant": "A worst-case bound over all arrival patterns and all motions.", "anchors": ["model/mock-net-device.cc:Send", "model/mock-net-device.cc:TransmitStart", "model/mock-net-device.cc:TransmitComplete", "model/mock-net-device.cc:Receive", "model/mock-channel.cc:Deliver", "model/mock-channel.cc:GetPropagationDelay"]}
{"id": "C86", "title": "Reported positions are off by no more than the satellite moves in one update interval", "statement": "From a setter call on, while the precision stays positive and at most P, the position a satellite reports differs from the exact one by at most h (v / R + 2 pi / day) P, with h the radius of the orbit, v the speed of GetSpeed and R the radius GetProgress divides by; up to 2000 km altitude and with updates every second by less than 9.7 km.", "quantifier": "all orbits, histories of setter calls and updates, times, precisions", "why_tests_cant": "A bound on a real-valued error over a continuum of orbits and all times.", "anchors": ["model/leo-circular-orbit-mobility-model.cc:DoGetPosition", "model/leo-circular-orbit-mobility-model.cc:Update", "model/leo-circular-orbit-mobility-model.cc:CalcPosition", "model/leo-circular-orbit-mobility-model.cc:GetProgress", "model/leo-circular-orbit-mobility-model.cc:CalcLatitude"]}
{"id": "C87", "title": "Satellites of different planes see each other always, never or in turns, as the constellation determines", "statement": "Whether two satellites of the same height and inclination see each other at a time is determined by their half distances at the nodes and at the tops of their orbits: always if both are within the limit the Earth sets, never if both are beyond it, and alternately for ever if one is within and one beyond. Equal slots of neighbouring planes see each other always in five of the seven shipped orbits and in turns in the two with five planes. A packet sent over a quiet inter-satellite channel arrives accordingly.", "quantifier": "all pairs of satellites of equal height and inclination, times, histories", "why_tests_cant": "For all times, including recurrence for ever.", "anchors": ["model/isl-propagation-loss-model.cc:GetLos", "model/isl-propagation-loss-model.cc:DoCalcRxPower", "model/leo-circular-orbit-mobility-model.cc:CalcPosition", "helper/leo-orbit-node-helper.cc:Install", "model/isl-mock-channel.cc:TransmitStart", "model/mock-channel.cc:Deliver"]}
{"id": "C88", "title": "Disposing of a device leaves the rest of the simulation working", "statement": "After a device that is not used any more has been disposed of, the simulation of all other devices goes on as if it had been kept, without failures.", "quantifier": "all histories with any number of disposals, devices, channels, frames under way", "why_tests_cant": "Depends on every reference to the device that the history has left in channels and pending events.", "anchors": ["model/mock-net-device.cc:DoDispose", "model/mock-net-device.cc:TransmitComplete", "model/mock-channel.cc:Deliver", "model/leo-mock-channel.cc:Detach", "model/mock-channel.cc:Detach"]}
{"id": "C89", "title": "The tracing program prints the exact track of every satellite once per precision interval", "statement": "With a positive precision the program leo-circular-orbit-tracing prints, for every multiple of the precision before the end of the simulation (and for the first one also if it is the end), one line per installed satellite in the order of installation with time, node, the exact position of the satellite on its orbit and the circular orbital speed at that time, and nothing else; it then stops at the given duration. Without a precision it prints nothing.", "quantifier": "all lists of orbits, precisions, durations", "why_tests_cant": "A whole program run of any length over a continuum of orbits; the last sample depends on the order of equal-time events.", "anchors": ["examples/leo-circular-orbit-tracing-example.cc:main", "examples/leo-circular-orbit-tracing-example.cc:CourseChange", "helper/leo-orbit-node-helper.cc:Install", "model/leo-circular-orbit-mobility-model.cc:Update", "model/leo-circular-orbit-mobility-model.cc:DoGetPosition", "model/leo-circular-orbit-mobility-model.cc:DoGetVelocity"]}
{"id": "C90", "title": "Satellites that share a simulation do not influence each other", "statement": "In a simulation with any number of satellites that share one event list, every satellite goes through the states it would go through alone with the same calls: parameters, position, clock, its pending updates and its course-change notifications. A call on one satellite leaves all others as they were.", "quantifier": "all histories, numbers of satellites, setter calls, precisions", "why_tests_cant": "All interleavings of the events of all satellites.", "anchors": ["model/leo-circular-orbit-mobility-model.cc:Update", "model/leo-circular-orbit-mobility-model.cc:DoSetPosition", "model/leo-circular-orbit-mobility-model.cc:SetAltitude", "model/leo-circular-orbit-mobility-model.cc:SetInclination", "helper/leo-orbit-node-helper.cc:Install"]}
{"id": "C91", "title": "The network of the example programs carries packets exactly between nodes in range", "statement": "For every list of orbits that can be installed, every grid, every pair of users and every known link setting the programs leo-delay-tracing and leo-bulk-send build one node and ground/space device per satellite, grid point and user and, if enabled, one inter-satellite device per satellite; an unknown setting stops them. Whatever packets are sent, the simulation does not fail. A packet sent on the ground/space network when nothing is in flight is received exactly once by every node of the other side that is addressed and within the slant range of the setting's elevation mask at the positions the satellites report, and a packet on the inter-satellite network by every addressed satellite the Earth does not hide; by nobody else. Satellites report places on their track at most one precision interval old. Without options both users have a satellite in range every 45 minutes, although none would ever be in range of the place requested for the source.", "quantifier": "all orbit lists, grids, users, link settings, precisions, traffic, times", "why_tests_cant": "A whole program with any number of nodes, any traffic and a continuum of positions.", "anchors": ["examples/leo-delay-tracing-example.cc:main", "examples/leo-bulk-send-example.cc:main", "helper/leo-orbit-node-helper.cc:Install", "helper/ground-node-helper.cc:Install", "helper/leo-channel-helper.cc:SetConstellation", "helper/leo-channel-helper.cc:Install", "helper/isl-helper.cc:Install", "model/leo-mock-channel.cc:TransmitStart", "model/isl-mock-channel.cc:TransmitStart", "model/mock-channel.cc:Deliver"]}
{"id": "C92", "title": "A packet forwarded along a route arrives hop by hop, after the propagation delays of its hops", "statement": "In a network reached by proper use, with nothing in flight, a packet is sent and forwarded by code connected to the receive callbacks along a route of any length. If every hop can be made when its time comes (receiver attached, in reach of the propagation models, power sufficient) and a device that sends several times has finished before, no call fails, the receive callbacks called are exactly those at the ends of the hops, in order, and the packet reaches the end when the delays of all hops have passed. In the network of the example programs a hop can be made between ground and space within the slant range and between satellites the Earth does not hide, and takes the light time. Whatever the decisions, forwarding to MAC addresses never makes the simulation fail, and it does what a program does that sends the same packets from outside.", "quantifier": "all routes, packets, forwarding decisions, histories, motions", "why_tests_cant": "Routes of any length over any network, with events of other frames in between, at positions that change while the packet is on its way.", "anchors": ["model/mock-net-device.cc:Receive", "model/mock-net-device.cc:Send", "model/mock-net-device.cc:TransmitStart", "model/mock-net-device.cc:TransmitComplete", "model/mock-channel.cc:Deliver", "model/leo-mock-channel.cc:TransmitStart", "model/isl-mock-channel.cc:TransmitStart"]}
{"id": "C93", "title": "An accepted packet reaches a device in reach within its queueing and propagation time, whatever the other traffic, hop by hop along routes", "statement": "In a simulation used properly, with any other traffic, a packet accepted by Send arrives at the addressed device no later than the time the full queue needs plus the propagation delay, provided the devices stay in reach for that time. If the receive callbacks forward packets, a packet follows its route and arrives at the end within the sum of these bounds, or some Send on the way returned false within it. A program with forwarding callbacks does what a program does that makes the same calls from outside.", "quantifier": "all histories, traffic, queue lengths, routes, forwarding decisions, motions", "why_tests_cant": "All interleavings of all traffic with queues of any length and moving devices.", "anchors": ["model/mock-net-device.cc:Send", "model/mock-net-device.cc:TransmitStart", "model/mock-net-device.cc:TransmitComplete", "model/mock-net-device.cc:Receive", "model/mock-channel.cc:Deliver", "model/leo-mock-channel.cc:TransmitStart", "model/isl-mock-channel.cc:TransmitStart"]}
{"id": "C94", "title": "Rounding does not change who hears whom at given positions, except within a centimetre of the limit", "statement": "With every operation rounded and library functions a few units in the last place off, as for double, the ground/space model gives the link budget (up to 1e-10 dB) to nodes more than 1 cm inside the slant range and -1000 dBm to nodes more than 1 cm outside it, for elevation masks up to 60 degrees; the inter-satellite model lets satellites at least 1 m apart hear each other if an Earth with 1 cm more radius does not hide them and not if an Earth with 1 cm less does; propagation delays are right to 1e-14 s. This holds for satellites between 100 km and 13600 km. Correct rounding to 53 bits meets the assumptions.", "quantifier": "all arithmetics within the error bounds, positions in the range, masks, link budgets, speeds", "why_tests_cant": "A continuum of positions; rounding errors cannot be enumerated.", "anchors": ["model/leo-propagation-loss-model.cc:GetCutoffDistance", "model/leo-propagation-loss-model.cc:DoCalcRxPower", "model/leo-propagation-loss-model.cc:SetElevationAngle", "model/isl-propagation-loss-model.cc:GetLos", "model/isl-propagation-loss-model.cc:DoCalcRxPower"]}
{"id": "C95", "title": "Positions are computed to two millimetres, so that rounding does not change who hears whom except near the limit", "statement": "With rounding as in double, for 1e15 ns of simulated time every coordinate of the position of an installed satellite is within 2 mm of the exact track and of its velocity within 3e-5 m/s, from altitude, inclination, plane and slot as configured; stations given by coordinates or on a grid are placed to 2 micrometres. The decisions of the loss models at the computed positions are those the exact positions demand unless the exact distance is within 10 cm of the slant range, or the exact line of sight within 2 cm of grazing the Earth; propagation delays are right to 50 ps.", "quantifier": "all arithmetics within the error bounds, orbits from 100 km to 13600 km, satellites, times, stations", "why_tests_cant": "A continuum of orbits, stations and times; rounding errors cannot be enumerated.", "anchors": ["model/leo-circular-orbit-mobility-model.cc:CalcPosition", "model/leo-circular-orbit-mobility-model.cc:RotatePlane", "model/leo-circular-orbit-mobility-model.cc:PlaneNorm", "model/leo-circular-orbit-mobility-model.cc:GetProgress", "model/leo-circular-orbit-mobility-model.cc:CalcLatitude", "model/leo-circular-orbit-mobility-model.cc:DoGetVelocity", "model/leo-circular-orbit-position-allocator.cc:GetNext", "model/leo-polar-position-allocator.cc:GetNext", "helper/ground-node-helper.cc:GetEarthPosition", "model/leo-propagation-loss-model.cc:DoCalcRxPower", "model/isl-propagation-loss-model.cc:DoCalcRxPower"]}
{"id": "C96", "title": "Connected code may reconfigure, attach and detach devices at any moment", "statement": "Whatever setters, Attach and Detach the code connected to trace sources, callbacks and link change callbacks calls, on any device and also in the middle of its own Send, TransmitStart, TransmitComplete or Receive, no assertion of the transmit path fails and no frame is lost, duplicated or overtaken on the transmit path. Send examines the link and reads the source address once: bringing the link down during the call does not stop the frame, bringing it up does not save the packet. Attributes set while a frame is being sent, but for the sender's own address, and attributes set when a frame has arrived apply to that very frame, as if set before.", "quantifier": "all histories, all trees of nested calls, all devices, all settings", "why_tests_cant": "Re-entrancy: quantifies over all reconfigurations at all points where the device hands over control.", "anchors": ["model/mock-net-device.cc:Send", "model/mock-net-device.cc:TransmitStart", "model/mock-net-device.cc:TransmitComplete", "model/mock-net-device.cc:Receive", "model/mock-net-device.cc:Attach", "model/mock-net-device.cc:NotifyLinkUp", "model/mock-net-device.cc:NotifyLinkDown", "model/mock-channel.cc:Detach", "model/leo-mock-channel.cc:Attach", "model/leo-mock-channel.cc:Detach"]}
{"id": "C97", "title": "Code connected to the channel's trace may call the library in the middle of a delivery", "statement": "The channel fires its trace source inside the loops that deliver a frame. Whatever calls code connected there makes, nested to any depth, the address indexes stay in order, the loops end and no loop uses an invalidated iterator. Code that only attaches devices and reconfigures others takes no delivery away from the frame being delivered: everything that would have arrived does, at the same time with the same power. A device attached in the meantime gets the frame too on an inter-satellite broadcast, and on a ground/space channel exactly if its address is greater than that of the device being served.", "quantifier": "all histories, all trees of nested calls, channels, devices", "why_tests_cant": "Re-entrancy: quantifies over all calls made in every round of loops of any length over containers that change meanwhile.", "anchors": ["model/mock-channel.cc:Deliver", "model/leo-mock-channel.cc:TransmitStart", "model/isl-mock-channel.cc:TransmitStart", "model/leo-mock-channel.cc:Attach", "model/leo-mock-channel.cc:Detach", "model/mock-channel.cc:Attach"]}
{"id": "C98", "title": "Forwarding with a hop limit comes to an end; without one a packet may circulate for ever", "statement": "If the code above the receive callbacks answers every packet passed up by at most B calls of Send, each with a packet that has fewer hops left, then in a simulation used properly every packet sent leads to a bounded number of events, whatever the code decides by, whatever the topology, the queues and the traffic: after it nothing is pending and no call has failed. The bound is given by the number of devices attached, B and the hops of the packet. Without a limit there is none: devices that send a packet on in a circle and are done sending when it comes back keep the simulation going for ever, and the callbacks called are exactly those at the ends of the hops, each as late as the delays add up to.", "quantifier": "all histories, topologies, forwarding decisions (depending on the whole history), packets, hop limits", "why_tests_cant": "Quantifies over all programs above the network and unbounded cascades of events; non-termination cannot be observed.", "anchors": ["model/mock-net-device.cc:Receive", "model/mock-net-device.cc:Send", "model/mock-net-device.cc:TransmitStart", "model/mock-net-device.cc:TransmitComplete", "model/leo-mock-channel.cc:TransmitStart", "model/isl-mock-channel.cc:TransmitStart", "examples/leo-delay-tracing-example.cc:main"]}
{"id": "C99", "title": "Replacing, sharing and accessing queue objects never confuses a transmitter or a queue", "statement": "Queues are objects: SetQueue and the attribute TxQueue may replace the queue of a device at any time, also by null, several devices may have the same queue, and whoever calls GetQueue may add and remove packets. Whatever is done, every queue object stays first in first out and loses or duplicates nothing; starts and ends of transmissions alternate on every device; no assertion of the transmit path fails; a null queue is used exactly by a device that has none, when it sends over a link that is up or finishes a frame; frames in a queue that was replaced stay there. As long as no two devices share a queue, each device behaves as with a queue of its own.", "quantifier": "all histories of device operations and queue operations, all assignments of queues to devices", "why_tests_cant": "Quantifies over all interleavings of device events with replacement and use of the queues from outside.", "anchors": ["model/mock-net-device.cc:SetQueue", "model/mock-net-device.cc:GetQueue", "model/mock-net-device.cc:Send", "model/mock-net-device.cc:TransmitComplete", "model/mock-net-device.h:m_queue"]}
{"id": "C100", "title": "A device transmits the frames in its queue, and only frames that were sent on it", "statement": "A device with frames in its queue and its link up is transmitting, so that every frame in the queue goes out without further help; and what a device puts on the air was sent on this device.", "quantifier": "all histories of device operations and queue operations, all assignments of queues to devices", "why_tests_cant": "Quantifies over all interleavings of device events with replacement and use of the queues from outside.", "anchors": ["model/mock-net-device.cc:SetQueue", "model/mock-net-device.cc:GetQueue", "model/mock-net-device.cc:Send", "model/mock-net-device.cc:TransmitComplete"]}
{"id": "C101", "title": "Rounding of powers decides no reception, except at the threshold", "statement": "Transmit powers, losses, gains and thresholds are decimal fractions that are no double, and every sum of them is rounded, in the loss models and in the receiving device. With arithmetic as accurate as double, a frame between a station and a satellite is heard if the exact budget exceeds the limit of the channel and the threshold of the receiver by a billionth of a decibel and the exact positions are 10 cm within range; it is not heard if the budget is a billionth of a decibel short or the positions 10 cm out of range. With the presets every frame in range is heard. Between satellites no rounding of powers takes place: the frame is heard exactly if the transmit power reaches both limits. The margin is needed: a frame exactly at the threshold may be dropped.", "quantifier": "all arithmetics as accurate as double, orbits, stations, times within eleven days, powers, losses, gains and thresholds", "why_tests_cant": "A continuum of attributes, positions and rounding errors.", "anchors": ["model/leo-mock-net-device.cc:DoCalcRxPower", "model/mock-net-device.cc:DoCalcRxPower", "model/mock-net-device.cc:Receive", "model/mock-channel.cc:Deliver", "model/leo-propagation-loss-model.cc:DoCalcRxPower", "model/isl-propagation-loss-model.cc:DoCalcRxPower", "helper/leo-channel-helper.cc:SetConstellationAttributes"]}
{"id": "C102", "title": "The drop traces account for every packet", "statement": "The documentation offers the trace sources MacTxDrop, PhyTxDrop, MacRxDrop and PhyRxDrop to find the transmissions that were dropped. Every packet given to a device was dropped with MacTxDrop, has been put on air or waits in the queue; every copy handed out by a channel arrives once or is on its way; every copy that arrives is a MacRxDrop or heard. When the simulation is over, every packet given to a device has been reported by a drop trace or passed up to some receiver.", "quantifier": "all histories, topologies, traffic", "why_tests_cant": "Counts over all interleavings of sends, transmissions and receptions; a packet that vanishes leaves no event a test could wait for.", "anchors": ["model/mock-net-device.cc:Send", "model/mock-net-device.cc:TransmitStart", "model/mock-net-device.cc:TransmitComplete", "model/mock-net-device.cc:Receive", "model/mock-channel.cc:Deliver", "model/leo-mock-channel.cc:TransmitStart", "model/isl-mock-channel.cc:TransmitStart", "doc/leo.rst:Output", "examples/leo-delay-tracing-example.cc:main"]}
{"id": "C103", "title": "Frames keep their order on links between moving nodes", "statement": "The propagation delay is taken from the positions at the time of the transmission. Frames from one device to another arrive in the order in which they were sent, although the nodes move: if the positions are exact, whenever both nodes together are slower than the signal; if the position of a satellite is the one of its last update, as long as a transmission takes long enough for the signal to outrun the jump of the positions at an update, which is 33 microseconds between a station and a satellite and 65 microseconds between satellites up to 2000 km altitude with updates every second. In the networks of the example programs this holds for all devices. Frames never overtake each other.", "quantifier": "all histories, orbits, positions, update intervals, traffic, data rates", "why_tests_cant": "A continuum of positions and speeds; reordering needs two frames within microseconds around an update.", "anchors": ["model/mock-channel.cc:Deliver", "model/leo-circular-orbit-mobility-model.cc:Update", "model/leo-circular-orbit-mobility-model.cc:DoGetPosition", "model/mock-net-device.cc:TransmitStart", "helper/leo-channel-helper.cc:LeoChannelHelper", "helper/isl-helper.cc:IslHelper", "examples/leo-delay-tracing-example.cc:main"]}
{"id": "C104", "title": "Records survive a round trip through text with binary64 numbers", "statement": "Orbits and locations are read as double, which most decimal fractions are not. A number of a record is converted to the nearest double, ties to even; a record is accepted exactly if it is well-formed and none of its numbers is beyond the range of double, otherwise it ends the file like a malformed one. A record whose numbers are written with six digits is the same after it was printed and read. Any other record of doubles, also of the largest ones, is accepted when read back and differs by a relative error of at most 1e-5, and is printed as the same text again, so nothing more is lost by further trips.", "quantifier": "all texts, all records of doubles, all files", "why_tests_cant": "2^64 values for each number; whether a decimal survives conversion depends on its digits.", "anchors": ["model/leo-orbit.cc:operator<<", "model/leo-orbit.cc:operator>>", "model/leo-lat-long.cc:operator<<", "model/leo-lat-long.cc:operator>>", "helper/ground-node-helper.cc:Install", "helper/leo-orbit-node-helper.cc:Install"]}
{"id": "C105", "title": "No link carries more than the data rate of its sender", "statement": "The air time of all frames a device begins to transmit in a span of time is at most this span and one frame. A receiver gets from a sender, in any span of time, no more than fits into this span, one frame and the amount by which the propagation delay varies; in bits, no more than the data rate times this time, up to the nanosecond each transmission time is rounded by. While frames wait, the device transmits without pause, so the rate is fully used. The limit is one per sender: stations that send to the same satellite on the same channel do not share it.", "quantifier": "all histories with constant rate and interframe gap, topologies, traffic, delays within given bounds, spans of time", "why_tests_cant": "Quantifies over all spans of time of all histories; a test measures the throughput of one run.", "anchors": ["model/mock-net-device.cc:Send", "model/mock-net-device.cc:TransmitStart", "model/mock-net-device.cc:TransmitComplete", "model/mock-channel.cc:Deliver", "model/mock-net-device.cc:Receive", "model/leo-mock-channel.cc:TransmitStart", "helper/leo-channel-helper.cc:Install"]}
{"id": "C106", "title": "Events find the objects they were scheduled for", "statement": "Updates of satellites and completions of transmissions are scheduled with bare pointers, which do not keep the object alive. No such event is run on an object that has been destroyed: a device exists as long as a completion is pending, whatever node and program do with their pointers, so that giving up a pointer never changes a simulation; a mobility model exists as long as an update is pending.", "quantifier": "all histories, all orders of creation, aggregation, release, disposal and Simulator::Destroy", "why_tests_cant": "Use after free shows itself by chance, if at all; the repository's own tests run into it and pass.", "anchors": ["model/leo-circular-orbit-mobility-model.cc:Update", "model/leo-circular-orbit-mobility-model.cc:SetAltitude", "model/leo-circular-orbit-mobility-model.cc:SetInclination", "model/leo-circular-orbit-mobility-model.cc:DoSetPosition", "model/mock-net-device.cc:TransmitStart", "model/mock-net-device.cc:DoDispose", "model/mock-channel.cc:Attach", "model/mock-channel.cc:Detach", "model/mock-channel.cc:Deliver", "test/leo-orbit-test-suite.cc:LeoOrbitTestSuite"]}
{"id": "C107", "title": "A dense enough constellation serves every station of its band at every moment", "statement": "At every moment every station between the turning points of an orbit, or a given angle beyond them, is no further from the nearest satellite than the hypotenuse of the triangle made of the way to the nearest plane, at most sin(inclination) pi / planes, and half the spacing in the plane. If the slant range covers this distance, every station of the band has a satellite in range after every update; if it also leaves room for the way a satellite flies between two updates, at every moment. Half the spacing cannot be improved. With the first orbit of data/orbits/starlink.csv and the default elevation mask no station within 53 degrees is ever without a satellite, and in the example programs without options neither user is: whenever nothing is in flight, a broadcast packet of a user reaches a satellite.", "quantifier": "all orbits, numbers of planes and satellites, stations, elevation masks, update intervals, times", "why_tests_cant": "A continuum of stations and times; a gap in the coverage may last seconds in a day.", "anchors": ["helper/leo-orbit-node-helper.cc:Install", "model/leo-circular-orbit-mobility-model.cc:CalcPosition", "model/leo-circular-orbit-mobility-model.cc:Update", "model/leo-propagation-loss-model.cc:GetCutoffDistance", "helper/leo-channel-helper.cc:SetConstellationAttributes", "examples/leo-delay-tracing-example.cc:main"]}
{"id": "C108", "title": "In a constellation tight enough stations always reach each other over inter-satellite links", "statement": "Satellites of the same plane in neighbouring slots, and those of the same slot in neighbouring planes, see each other at every moment, although positions are those of the last update, if the chords between them are longer than the positions may be off and shorter than twice the way to the horizon. In the network of the example program with inter-satellite links, for two stations of the band that the constellation serves (C107), whenever nothing is in flight there is an assignment of next hops with which a packet from one station is delivered to the other, is passed up by no device twice and by no other station, over fewer than planes + satellites per plane satellites, and within the time light needs for this way at most. With the built-in orbits and no options, the two users always reach each other within 0.52 seconds.", "quantifier": "all orbits, numbers of planes and satellites, stations, elevation masks, update intervals, earlier traffic, packets, times", "why_tests_cant": "A continuum of times and stations; a way that is broken for some seconds in a day shows in no short simulation.", "anchors": ["helper/leo-orbit-node-helper.cc:Install", "model/leo-circular-orbit-mobility-model.cc:CalcPosition", "model/leo-circular-orbit-mobility-model.cc:Update", "model/isl-propagation-loss-model.cc:GetLos", "model/isl-mock-channel.cc:TransmitStart", "model/leo-mock-channel.cc:TransmitStart", "model/leo-propagation-loss-model.cc:GetCutoffDistance", "helper/isl-helper.cc:Install", "examples/leo-delay-tracing-example.cc:main"]}
{"id": "C109", "title": "Network and satellites in one simulation are the network over positions described by time", "statement": "The channels ask the mobility models for positions at the moment of a transmission, while satellites update themselves by events of the same event list. Whatever a program does and in whichever order events of the same time are run, the next operation of the network does what it does over stations that stand still and satellites that are on their orbits where they were at an update less than one interval, or exactly one, ago. A whole history of network and satellites is, up to pauses, a history of the network over such positions given as a function of time, if no update comes between two operations of the same instant that may transmit; this is so if positions are exact or nothing happens at the instants of updates. Conversely there are such positions over which every history of the network happens in one simulation with the satellites. In the example programs without options each of the two users has a satellite in range at every moment of every simulation, and a broadcast packet that a user sends while nothing is in flight reaches a satellite, whichever updates come meanwhile.", "quantifier": "all example networks, options, histories of network and updates, orders of simultaneous events", "why_tests_cant": "All interleavings of updates of all satellites with all traffic.", "anchors": ["model/mock-channel.cc:Deliver", "model/mock-channel.cc:GetPropagationDelay", "model/leo-circular-orbit-mobility-model.cc:Update", "model/leo-circular-orbit-mobility-model.cc:DoGetPosition", "helper/ground-node-helper.cc:Install", "helper/leo-orbit-node-helper.cc:Install", "examples/leo-delay-tracing-example.cc:main", "examples/leo-bulk-send-example.cc:main"]}
{"id": "C110", "title": "Satellites imported from waypoint files fly through the waypoints of their file", "statement": "A satellite that LeoSatNodeHelper imports from a file is, whenever and however often its position is asked for, at each record of its file at the time of the record, on the straight line between two records, at the first record before and at the last one afterwards. So between records at the same altitude it dives by no more than the arc over the chord, and frames between imported satellites keep their order as long as no file asks for half the speed of light.", "quantifier": "all files, numbers of satellites, sequences of times at which positions are asked for, traffic", "why_tests_cant": "The repository's test imports one file and asks for no position; what happens to further satellites depends on the contents of the stack.", "anchors": ["helper/satellite-node-helper.cc:Install", "helper/satellite-node-helper.cc:LeoSatNodeHelper", "helper/leo-input-fstream-container.cc:GetNextSample", "helper/leo-input-fstream-container.cc:SetFile", "model/isl-propagation-loss-model.cc:GetLos", "model/mock-channel.cc:GetPropagationDelay"]}
{"id": "C111", "title": "Code connected to course changes may call the mobility models", "statement": "Code connected to CourseChange is called in the middle of an update, before the next one is scheduled, and may itself set position, altitude, inclination and precision of the satellite it is notified about or of others, or create further satellites; each of these calls notifies in turn. Whatever it does, every satellite reports at every moment, also to this code, an exact position of its current orbit, the one whose notification is being handled its current one; the getters return what was set last; and when the code has returned the satellite is in a state which the same calls made one after the other lead to. So positions stay as recent as the precision asks for, and there are as many notifications per interval as without such calls.", "quantifier": "all histories of calls, events and returns, calls nested to any depth, any number of satellites", "why_tests_cant": "All nestings of calls from inside notifications; the tests connect no code to the trace source.", "anchors": ["model/leo-circular-orbit-mobility-model.cc:Update", "model/leo-circular-orbit-mobility-model.cc:DoSetPosition", "model/leo-circular-orbit-mobility-model.cc:SetAltitude", "model/leo-circular-orbit-mobility-model.cc:SetInclination", "model/leo-circular-orbit-mobility-model.cc:DoGetPosition", "examples/leo-circular-orbit-tracing-example.cc:CourseChange"]}
{"id": "C112", "title": "No packet gets to another node faster than the signal and the nodes carry it", "statement": "Whatever protocols and applications do with packets - forward them hop by hop, flood, copy, change or delay them - a packet that comes from one node and is passed up at another one got there over transmissions made one after the other, each by a node that had received it before. So between being sent and being passed up it has come no further than the signal of the delay model gets in that time, plus the way the nodes themselves move in it and one nanosecond per node passed, which is what rounding the delays costs. In the example programs without options nothing a user sends is passed up at the other user within 28 milliseconds.", "quantifier": "all traffic, forwarding decisions, numbers of hops, motions of bounded speed, precisions; the users of the example programs at every moment", "why_tests_cant": "All forwarding behaviours of all protocols over all histories; tests look at one hop between fixed nodes.", "anchors": ["model/mock-channel.cc:Deliver", "model/mock-channel.cc:GetPropagationDelay", "model/mock-net-device.cc:Receive", "model/leo-circular-orbit-mobility-model.cc:DoGetPosition", "examples/leo-delay-tracing-example.cc:main", "examples/leo-bulk-send-example.cc:main"]}
{"id": "C113", "title": "With the shipped Starlink orbits users always reach each other", "statement": "Run with data/orbits/starlink.csv as orbit file, the example programs read its five constellations with 4425 satellites, whatever the stack holds, and build their network for every grid of stations and every choice of users. With link settings whose elevation mask is at most 40 degrees and positions updated at least once a second, every station between 53 degrees north and south then has a satellite in range at every moment, and with inter-satellite links any two of them, in particular users whose latitudes are given as between 18.5 and 71.5 degrees, can reach each other whenever nothing else is in flight: some forwarding takes a packet from one to the other within half a second over fewer than 82 satellites.", "quantifier": "all moments, stations of the band, grids, users, earlier traffic, precisions up to a second, three of the four link settings", "why_tests_cant": "No test runs the example programs; the claim is about all moments and all places on the band.", "anchors": ["data/orbits/starlink.csv", "model/leo-orbit.cc:operator>>", "helper/leo-orbit-node-helper.cc:Install", "helper/leo-channel-helper.cc:SetConstellation", "examples/leo-delay-tracing-example.cc:main", "examples/leo-bulk-send-example.cc:main"]}
{"id": "C114", "title": "The delay tracing program prints the ages of the packets of its client", "statement": "Whatever the internet stack and the routing protocol do, each line EchoRx prints for the server names a packet the client made: its number is below the number of packets, and the delay is the time of the reception minus number times interval, at which the client made it. The packet was sent by the client's node at or after that time and got to the server over transmissions made one after the other, so that the delay is at least what the signal takes for the distance, up to the speed of the nodes and one nanosecond per node; without options no delay below 28 milliseconds is printed. The client makes as many packets as intervals fit into the duration given, all of them before the end.", "quantifier": "all stacks, routing protocols, traffic, motions of bounded speed; all durations and intervals", "why_tests_cant": "All routing behaviours; quotients of numbers that have no exact binary form.", "anchors": ["examples/leo-delay-tracing-example.cc:EchoRx", "examples/leo-delay-tracing-example.cc:main", "model/mock-channel.cc:Deliver", "model/mock-net-device.cc:Receive"]}
{"id": "C115", "title": "Names, the origin of time and the frame of reference do not matter", "statement": "A simulation does not depend on how its objects are called, on when it starts or on the frame in which positions are given. (a) If all devices and channels get other names (no two the same), all devices are put on other nodes and the clock gets another origin, and the same calls are made for the objects with the new names, then the outcome, faults included, is the one before the change in the environment seen through the change: same frames, same powers, same delays, same return values, every time later by the same amount. (b) For links over moving nodes the environment seen through the change is the one of the positions seen through it. (c) Turning or mirroring all positions around the centre of the Earth, at each time in another way, changes no reachability, no power and no delay; in a network of satellites only, all longitudes may be changed by one angle. (d) Power and delay between two nodes are the same in both directions. (e) Everything that happens to a network of satellites started later happens to one started at once whose satellites are ahead in their planes by the angle they move meanwhile; that the planes turn with the day is immaterial. (f) All planes of an installed constellation are alike: whatever is done with satellites of some planes, the same happens if it is done with the satellites of the next planes.", "quantifier": "all systems in any state, all changes of names and clocks, all histories of calls, all environments, positions, budgets and time-dependent frames, all orbits, all constellations", "why_tests_cant": "Tests compare two runs with two namings; that no comparison of identifiers, order of maps, absolute time or coordinate enters the outcome is a statement about all of them, and the coordinates are compared exactly.", "anchors": ["model/mock-channel.cc:165-216", "model/mock-net-device.cc:316-532", "model/mock-net-device.cc:663-725", "model/leo-mock-channel.cc:55-141", "model/isl-mock-channel.cc:56-98", "model/leo-circular-orbit-mobility-model.cc:107-156", "model/isl-propagation-loss-model.cc:51-111", "model/leo-propagation-loss-model.cc:79-136", "model/leo-circular-orbit-position-allocator.cc:62-76"]}
{"id": "C116", "title": "The traffic of the example programs goes to the second user", "statement": "In both example programs with a network, if there are at most 65534 nodes, every device gets exactly one IPv4 address: the device of node k on the ground/space channel 10.1.0.0 plus k + 1, the device of satellite i on the inter-satellite channel 10.2.0.0 plus i + 1. No two devices have the same address and no device has another one, whether or not inter-satellite links are enabled. The address the programs read as interface 1, address 0 of the second user exists, and the only device that has it is the ground/space device of the second user. With more nodes the programs stop when addresses run out. Without options the second user is 10.1.4.10.", "quantifier": "all options of the programs: all orbits that can be installed, all grid sizes, all link settings, with and without inter-satellite links", "why_tests_cant": "Programs are run with a few constellations of at most some thousand satellites; that no number of planes, satellites and stations makes two devices share an address or sends the traffic elsewhere needs all of them.", "anchors": ["examples/leo-delay-tracing-example.cc:main", "examples/leo-bulk-send-example.cc:main"]}
{"id": "C117", "title": "The shipped Telesat orbits keep the polar satellites linked and leave the pole without service at times", "statement": "Run with data/orbits/telesat.csv as orbit file, the example programs read its two constellations with 117 satellites, whatever the stack holds. With positions updated at least once a second, neighbours of the polar orbit, in the plane and in the next plane, see each other at every moment and are never more than 7390 km apart. Whatever the link settings, a station within 100 km of the north pole, in particular a source whose latitude is given as between -0.4 and 0.4 degrees (which is placed there), has no satellite in range for a whole minute at least every eight minutes; a packet it sends in that minute, when nothing else is in flight, is received by nobody.", "quantifier": "all memory contents, all grids and users, all four link settings, all update intervals up to a second, all times, all earlier traffic", "why_tests_cant": "The gaps depend on the phase of 72 satellites at once and last a minute in eight; a test samples some moments and cannot show that gaps never stop, nor that links between neighbours never break.", "anchors": ["data/orbits/telesat.csv", "examples/leo-delay-tracing-example.cc:main", "examples/leo-bulk-send-example.cc:main", "model/leo-circular-orbit-mobility-model.cc:CalcPosition", "model/leo-propagation-loss-model.cc:GetCutoffDistance", "model/isl-propagation-loss-model.cc:GetLos"]}
{"id": "C118", "title": "Flooding reaches everybody a path leads to, nobody else, and ends", "statement": "In a network reached by proper use, with nothing going on and without transmission errors, a node sends a new packet to the broadcast address on all its ports, and every other node sends it on in the same way once, when its devices pass it up for the first time (flooding with duplicate suppression, as the discovery of routes and epidemic routing of the example program do). Then no call fails and all activity ends, after at most (1 + number of attached devices) events per port. Every device at the end of a path of links that last long enough has got the packet, from the port at the end of the path, no later than the sum of the delays of the path after the start: no copy is held up in a queue, though a satellite gets copies from many sides at once. Nothing else is passed up, and only at devices that can hear a port of a node connected with the first one.", "quantifier": "all networks, channels of both kinds, environments without errors, motions, packets up to 1492 bytes, assignments of ports to nodes, paths of any length", "why_tests_cant": "The copies that arrive at the same node in all possible orders, while the links change, are far too many for tests; a test cannot show that a flood always ends.", "anchors": ["model/mock-net-device.cc:Send", "model/mock-net-device.cc:Receive", "model/mock-net-device.cc:TransmitStart", "model/mock-net-device.cc:TransmitComplete", "model/mock-channel.cc:Deliver", "model/leo-mock-channel.cc:TransmitStart", "model/isl-mock-channel.cc:TransmitStart", "examples/leo-delay-tracing-example.cc:main"]}
{"id": "C119", "title": "In the example networks a flood gets to every station of the band, without routing tables", "statement": "In the network of the example programs with inter-satellite links, after any traffic, when nothing is in flight, a station within the band of a dense constellation sends a new packet to everybody on its device, and every node, station or satellite, sends it on once on all its devices when it gets it first. No call fails and all activity ends. Within the time light takes for two ground legs and for fewer inter-satellite legs than the constellation has planes and satellites per plane, the packet has been passed up at every satellite of the constellation and at every station of the band. With the shipped Starlink orbits this holds for all stations between 53 degrees north and south within half a second; with the programs' own orbits for the two users within 0.52 seconds.", "quantifier": "all dense constellations, all grids of stations, all earlier traffic, all times, all packets up to 1492 bytes, all senders within the band; all link settings under whose mask satellites are visible far enough", "why_tests_cant": "Thousands of copies are in flight at once while all satellites move; a test runs one network from a few moments and cannot show that a flood always ends and always arrives.", "anchors": ["examples/leo-delay-tracing-example.cc:main", "examples/leo-bulk-send-example.cc:main", "data/orbits/starlink.csv", "helper/leo-helper.cc:Install", "helper/isl-helper.cc:Install", "model/leo-mock-channel.cc:TransmitStart", "model/isl-mock-channel.cc:TransmitStart", "model/mock-net-device.cc:Send", "model/mock-net-device.cc:Receive"]}
{"id": "C120", "title": "In the example networks the stations can talk as long as they like, with forwarding code that knows nothing of the sky", "statement": "In the network of the example programs with inter-satellite links, from any quiet moment after any traffic, stations within the band of a dense constellation bring up packets one after the other, any number, in any turn, after pauses of any length, each when the network is quiet again. All nodes run the same code at all times: it sends a packet on to everybody when its node gets it for the first time. Then the whole conversation takes place: no call fails, activity ends after every packet, the outcome is determined, every packet is passed up at every station of the band within the time light takes for the legs after it was sent, and nothing else is passed up. With the shipped Starlink orbits this takes at most half a second for stations between 53 degrees north and south, with the programs' own orbits at most 0.52 seconds for the two users.", "quantifier": "all dense constellations, all grids of stations, all earlier traffic, all finite sequences of distinct packets up to 1492 bytes, all senders within the band, all pauses (months as well as nanoseconds)", "why_tests_cant": "Conversations of unbounded length under motion: a test runs one for some seconds; that no moment ever comes at which a packet gets stuck or lost is a statement about all times.", "anchors": ["examples/leo-delay-tracing-example.cc:main", "examples/leo-bulk-send-example.cc:main", "data/orbits/starlink.csv", "model/leo-circular-orbit-mobility-model.cc:CalcPosition", "model/leo-mock-channel.cc:TransmitStart", "model/isl-mock-channel.cc:TransmitStart", "model/mock-net-device.cc:Send", "model/mock-net-device.cc:TransmitComplete", "model/mock-net-device.cc:Receive"]}
{"id": "C121", "title": "The packet traces of the delay tracing program list and count what was traced", "statement": "With the option traceDrops the delay tracing program prints one line for every packet dropped by a device, in order, with time, place and device, and with the size of all packets dropped so far; the option traceTxRx does so for packets sent and received, at the link layer and at the physical layer. The lines are in the order of their times, the size of every packet can be read off two lines even when the counter has run over, and every packet given to a device that is not passed up has a line.", "quantifier": "all runs, all packets, all sizes, all lengths of the trace including overflow of the counter, both kinds of Config::Connect", "why_tests_cant": "A test prints some lines; overflow needs 2^64 bytes, and that a lost packet has no line shows only if somebody counts the packets.", "anchors": ["examples/leo-delay-tracing-example.cc:TracePacket", "examples/leo-delay-tracing-example.cc:main", "model/mock-net-device.cc:GetTypeId", "model/mock-net-device.cc:Send", "model/mock-net-device.cc:Receive"]}
{"id": "C122", "title": "A flood costs one call per port of the nodes that get it, however many floods overlap", "statement": "The nodes of a network send every packet on once to everybody, on all their ports, when they get it for the first time. Any number of distinct packets is brought up, anywhere and at any time, also while others are under way; frames are lost, queues overflow, satellites move, devices are attached, detached and set up anew. Up to any moment exactly these calls of Send have been made: for every packet, one on each port of each node that has brought it up or got it. So no device is given a packet twice, nothing else is sent, every call has led to one transmission or one traced drop or to a frame that waits, and when activity has ended to one of the first two. In the example networks with inter-satellite links a packet costs at most two calls for each satellite and one for each station: 1666 with the programs' own orbits and default grid, 8850 and the number of stations with the shipped Starlink orbits.", "quantifier": "all networks, environments (errors, motions, delays), interleavings of bringing up packets, events and other calls, numbers of packets, packets up to 1492 bytes, ports", "why_tests_cant": "Overlapping floods with losses have astronomically many interleavings; a test sees one and cannot show that no copy ever triggers a second round.", "anchors": ["model/mock-net-device.cc:Send", "model/mock-net-device.cc:Receive", "model/mock-net-device.cc:TransmitStart", "model/mock-net-device.cc:TransmitComplete", "model/leo-mock-channel.cc:TransmitStart", "model/isl-mock-channel.cc:TransmitStart", "examples/leo-delay-tracing-example.cc:main", "helper/leo-helper.cc:Install", "helper/isl-helper.cc:Install"]}
{"id": "C123", "title": "The fixed free-space loss of a preset is that of its farthest link: no link is modelled better than free space allows", "statement": "The tables of link constants give for each link the free-space loss at their own frequency and distance (Friis), rounded to tenths of a decibel, and the presets use these values. A channel installed with a preset uses this one value for all distances. Still no accepted link gets more power than free space leaves over its actual distance: for all positions of the two nodes with the satellite at most 1325 km high (the highest shipped orbit) the mask of the preset ends the range before the distance of the table. For stations on the ground and satellites of at least 1000 km the power is at most 8 dB too low.", "quantifier": "all presets, all positions of the two nodes (the higher one between the surface and 1325 km), all transmit powers, all networks installed by the helper", "why_tests_cant": "Positions range over a continuum; a test evaluates some distances and does not compare with the physics behind the constants.", "anchors": ["model/leo-starlink-constants.h", "model/leo-telesat-constants.h", "model/leo-oneweb-constants.h", "helper/leo-channel-helper.cc:SetConstellation", "model/leo-propagation-loss-model.cc:DoCalcRxPower", "model/leo-propagation-loss-model.cc:GetCutoffDistance"]}
{"id": "C124", "title": "The captures of the bulk-send program show every ground/space device and no inter-satellite traffic", "statement": "With --pcap the bulk-send program sets up its traces before the simulation; this leaves the network as it is and makes no traffic fail. However the network runs then, the file tcp-bulk-send-<node>-0.pcap of every ground/space device holds exactly the frames which passed the device, with their times; there is no other capture; tcp-bulk-send.tr holds for every ground/space device a faithful trace (accepted, begun, lost, handed up), told by its context, and nothing else. While only inter-satellite devices send, every capture stays empty, so the captures miss transmitted packets in every network with inter-satellite links. Without --pcap there are no captures.", "quantifier": "all parameters of the example network the helpers accept, all orders in which the devices are listed, all environments, all traffic", "why_tests_cant": "A test looks at the files of one run; it cannot tell that no traffic leaves a frame out, adds one or mixes devices up.", "anchors": ["examples/leo-bulk-send-example.cc:166-171", "helper/leo-channel-helper.cc:EnablePcapInternal", "helper/leo-channel-helper.cc:EnableAsciiInternal"]}
{"id": "C125", "title": "The IP lines of the delay tracing program can be read back and follow the packets to the second user", "statement": "With --traceFwd the delay tracing program prints one line for every packet that the IPv4 layer of a node forwards to the second user and one for every packet that an IPv4 layer drops, in order, and no other line; without the option none. A line tells one report only: one reader, the same for all runs, recovers from the lines the time, node, source, packet, interface, both addresses and the reason of the loss. In the networks of the program (at most 65534 nodes) the lines of forwarded packets are those of packets on the way to the device of the second user and of nobody else, and none is about a packet forwarded to a group. The context has two colons of its own, so cut at the colons the id of the packet is the fifth piece of the line.", "quantifier": "all reports of the IPv4 layers in any order and number, all addresses, times and ids, all parameters of the example network the helpers accept", "why_tests_cant": "A test compares some lines; that no two different reports ever give the same line is a statement about all pairs of reports.", "anchors": ["examples/leo-delay-tracing-example.cc:TraceIpForward", "examples/leo-delay-tracing-example.cc:TraceIpDrop", "examples/leo-delay-tracing-example.cc:main"]}
{"id": "C126", "title": "The bulk-send program prints a line for every TCP segment and the bytes received", "statement": "The bulk-send program prints one line for every TCP segment that a socket sends or receives, with its time, and at the end one line with the numbers of the two users and the number of bytes that reached the sink. In any history of sockets, connections and segments exactly those segments have a line whose socket existed when its trace source was connected.", "quantifier": "all simulations: any numbers and orders of sockets, segments and bytes, including overflow of the counter, both kinds of Config::Connect, all histories", "why_tests_cant": "A test would look at the lines there are; that no run of the program can print any is a statement about all runs.", "anchors": ["examples/leo-bulk-send-example.cc:EchoTxRx", "examples/leo-bulk-send-example.cc:158-161", "examples/leo-bulk-send-example.cc:186"]}
{"id": "C127", "title": "The file of the tracing program tells positions to five metres and speeds to five millimetres per second", "statement": "For orbits up to 3600 km the file of the tracing program is its heading and, in the order of the samples, one line per sample and satellite. Every line tells the time and the satellite exactly, the exact position of the satellite to 5 m in each coordinate and its speed to 5 mm/s, plus the error of the computed numbers. A line says one thing only: time, satellite and the four decimal numbers are determined by its characters. Six digits give no more: there are positions 8 m apart with the same lines. The heading is separated by commas and the lines by colons, so the file is no table of comma separated values as soon as it has a line.", "quantifier": "all lists of orbits up to 3600 km that can be installed, all precisions and durations, all samples, all roundings of the computed numbers up to 1 m", "why_tests_cant": "Tests compare printed numbers with tolerances at some samples; the resolution of the text matters for all of them.", "anchors": ["examples/leo-circular-orbit-tracing-example.cc:CourseChange", "examples/leo-circular-orbit-tracing-example.cc:main"]}
{"id": "C128", "title": "LeoHelper gives every device an address of its own that packets can be sent to", "statement": "LeoHelper::Install gives every device of its three networks an IPv4 address that no other device of the program has and that is one of a host: not 0.0.0.0, no group and not the broadcast address. It can do so more than once in a program.", "quantifier": "all settings of the helper, all numbers of satellites, gateways and terminals, all addresses given before, all results of the undefined shift in ns-3's address helper", "why_tests_cant": "A test sees what one compiler makes of an undefined shift; that no result of it gives good addresses is a statement about all of them.", "anchors": ["helper/leo-helper.cc:Install", "helper/leo-helper.cc:60-63"]}
