#!/usr/bin/env python3
"""Writes ../properties.jsonl.  Kept so that the list can be regenerated and extended."""
import json, os
P = []
def p(title, statement, quantifier, why, anchors):
    P.append(dict(id="C%02d" % (len(P)+1), title=title, statement=statement,
                  quantifier=quantifier, why_tests_cant=why, anchors=anchors))

p("PHY feedback formats survive packing",
  "For every valid feedback info of formats 1 to 6, unpacking the packed 12-bit feedback field gives back the same field values (the buffer size as the lower limit of its signalled class), packing touches only the low nibble of the first byte and the second byte, and a channel quality indicator obtained from an MCS maps back to that MCS.",
  "all valid field values of all six formats, all previous contents of the two bytes",
  "the product of the field domains times the prior byte contents is far larger than a sampled test; the in-tree test draws random fields",
  ["lib/src/sections_part4/physical_header_field/feedback_info.cpp: feedback_info_f1_t..f6_t::pack/unpack, mcs_2_cqi, cqi_2_mcs"])
p("Physical layer control field (PLCF) round trip",
  "For every valid PLCF of type 1 header format 0 and type 2 header formats 0 and 1, the packed bytes decode to the same field values, the packed length is exactly 5 or 10 bytes, and the header format and type read from the packed bytes are the ones that were written.",
  "all valid PLCF values of every supported type and format, including the embedded feedback info",
  "the fields span 40 or 80 bits; tests sample random draws",
  ["lib/src/sections_part4/physical_header_field/plcf_base.cpp", "lib/src/sections_part4/physical_header_field/plcf_10.cpp", "lib/src/sections_part4/physical_header_field/plcf_20.cpp", "lib/src/sections_part4/physical_header_field/plcf_21.cpp"])
p("MAC header type and MAC common headers round trip",
  "Every valid MAC header type octet and every valid MAC common header (data, beacon, unicast, RD broadcasting) is recovered unchanged from its packed bytes, and the packed size equals the announced size.",
  "all valid header values",
  "fields are 8 to 80 bits wide, a test samples a few; an encoding that loses bits for part of the domain passes them",
  ["lib/src/sections_part4/mac_pdu/mac_header_type.cpp", "lib/src/sections_part4/mac_pdu/mac_common_header.cpp"])
p("MAC multiplexing header round trip",
  "Every valid multiplexing header (MAC extension, IE type, length) is recovered unchanged from its packed bytes if the receiver supports the IE, and decoding never reads more bytes than the size derived from the first byte.",
  "all valid multiplexing headers and all byte strings",
  "65536 lengths times all IE codes times all following bytes",
  ["lib/src/sections_part4/mac_pdu/mac_multiplexing_header.cpp: pack, unpack_mac_ext_ie_type, unpack_length"])
p("Padding fills a MAC PDU exactly",
  "For every number of remaining bytes, the generated padding IEs occupy exactly that many bytes, no padding IE is longer than 257 bytes, and every padding IE announces exactly the number of bytes it occupies.",
  "all numbers of remaining bytes",
  "transport block sizes go up to many kilobytes and each residue class mod 257 is a separate boundary case",
  ["lib/src/sections_part4/mac_messages_and_ie/mmie_pool_tx.cpp: fill_with_padding_ies", "lib/src/sections_part4/mac_messages_and_ie/padding_ie.cpp"])
p("MAC PDU decoding does not depend on how the bytes arrive",
  "Feeding a transport block to the MAC PDU decoder in any sequence of growing prefixes gives the same decoded messages and the same final state as feeding it in one piece.",
  "all byte strings and all ways of splitting them into arrival steps",
  "the split points are an unbounded schedule that depends on the PHY code block timing",
  ["lib/src/sections_part4/mac_pdu/mac_pdu_decoder.cpp: decode"])
p("MAC PDU decoding terminates without reading unwritten bytes",
  "For every transport block content and every arrival schedule the decoder terminates, never reads a byte beyond those announced as written, and once the whole transport block is announced it is in a final state.",
  "all byte strings, all transport block sizes, all arrival schedules",
  "adversarial bytes off the air choose the control flow; a fuzz run visits a vanishing part",
  ["lib/src/sections_part4/mac_pdu/mac_pdu_decoder.cpp: decode, has_reached_valid_final_state"])
p("A transmitted MAC PDU is decoded to what was sent",
  "For every MAC PDU built from a header type, a common header, supported information elements within the pool limits, and padding, the decoder delivers the same headers and the same information elements in order.",
  "all PDUs that the transmitter can build from receiver-supported IEs",
  "unbounded sequences of IEs with unbounded payload contents",
  ["lib/src/sections_part4/mac_pdu/mac_pdu_decoder.cpp", "lib/src/sections_part4/mac_messages_and_ie/mmie_pool_tx.cpp", "lib/src/sections_part4/psdef_plcf_mac_pdu.cpp"])
p("Cluster beacon message round trip",
  "Every valid cluster beacon message packed for a subcarrier spacing is recovered by a receiver using the same subcarrier spacing, and the size announced before decoding equals the packed size.",
  "all valid cluster beacon messages, all optional field combinations, all subcarrier spacings",
  "the repository's own test cannot see errors here because its equality check is a stub; the value space is 2^80",
  ["lib/src/sections_part4/mac_messages_and_ie/cluster_beacon_message.cpp"])
p("Network beacon message round trip",
  "Every valid network beacon message is recovered unchanged from its packed bytes.",
  "all valid network beacon messages and all optional field combinations",
  "optional fields interact; the failing combination is one a test does not produce",
  ["lib/src/sections_part4/mac_messages_and_ie/network_beacon_message.cpp"])
p("Time announce and power target IEs round trip",
  "Every valid time announce IE and every valid power target IE is recovered unchanged from its packed bytes.",
  "all valid field values, including 63-bit seconds",
  "the value space is 2^80",
  ["lib/src/sections_part4/mac_messages_and_ie/extension/time_announce_ie.cpp", "lib/src/sections_part4/mac_messages_and_ie/extension/power_target_ie.cpp"])
p("Association messages survive packing",
  "Every valid association request is recovered unchanged from its packed bytes, and no received byte string makes the receiver abort.",
  "all valid association requests; all received byte strings",
  "field combinations and adversarial inputs cannot be enumerated",
  ["lib/src/sections_part4/mac_messages_and_ie/association_request_message.cpp"])
p("Datagram queue is a bounded FIFO",
  "For every sequence of writes, reads, drops, level queries and clears, the datagram queue behaves like a FIFO of at most one less than its configured number of slots: datagrams come out unmodified, in order, exactly once, and the reported levels are the sizes of the oldest datagrams.",
  "all operation sequences, all datagram contents, all capacities",
  "ring index wrap-around states depend on unbounded histories",
  ["lib/src/application/queue/queue.cpp", "lib/include/dectnrp/application/queue/queue.hpp"])
p("Bidirectional map stays one-to-one",
  "After every sequence of accepted operations on the unique bidirectional map, looking up the value of a key and then the key of that value returns the key, and vice versa; erase removes both directions.",
  "all sequences of insert, erase and set operations",
  "the two internal maps can drift apart only after particular histories",
  ["lib/include/dectnrp/common/adt/bimap.hpp"])
p("Periodic callbacks fire exactly at their due times",
  "For every set of registered callbacks and every run, the scheduler calls exactly the callbacks that are due, in order of due time, each due time at most once, or aborts because a callback was skipped.",
  "all callback tables and all sequences of run times",
  "interleavings of up to four periods over unbounded time",
  ["lib/include/dectnrp/common/adt/callbacks.hpp"])
p("Job queue delivers jobs FIFO and exactly once with gapless numbering",
  "For every sequence of enqueue, dequeue and permeability changes, jobs are dequeued in the order they were enqueued, each exactly once, and the sequence numbers of delivered jobs increase by exactly one.",
  "all operation sequences and capacities",
  "numbering gaps would deadlock the consumer and only occur after specific histories",
  ["lib/src/phy/pool/job_queue_naive.cpp", "lib/src/phy/pool/job_queue_mc.cpp"])
p("Irregular job requests come out earliest first and none is lost",
  "For every sequence of pushes and pops, pop returns a pending request with the smallest time, the announced next time is the smallest pending time, and every pushed request is popped exactly once.",
  "all operation sequences within the capacity",
  "slot reuse patterns depend on the whole history",
  ["lib/src/phy/pool/irregular_queue.cpp"])
p("The job token is exclusive and follows job order under every schedule",
  "In every interleaving of worker threads that lock the token with their job numbers and unlock it, at most one thread holds the token at any time and, per worker pool, jobs obtain it in increasing job number without gaps.",
  "all interleavings of any number of threads and jobs",
  "schedules cannot be enumerated by running",
  ["lib/src/phy/pool/token.cpp: lock_fifo_to, unlock_fifo, lock, unlock"])
p("The synchronization baton rotates and the start time is agreed upon",
  "In every registration order all synchronization threads start from the same time, the largest registered one; the baton is held by exactly one thread and passed on in round-robin order; a synchronization time is accepted only if it is later than every accepted one by more than the limit.",
  "all registration orders, all interleavings, all sequences of candidate times",
  "thread start order and candidate times are arbitrary",
  ["lib/src/phy/pool/baton.cpp"])
p("HARQ processes are exclusively owned and recycled clean",
  "In every interleaving of requests, retrievals and finalizations by any number of threads, a HARQ process is never handed out twice while in use, a request fails only if all processes are in use, and a process handed out anew starts with redundancy version 0 and without contents of a previous packet; retransmissions use redundancy versions 0,2,3,1 cyclically. Retrievals of a running process are assumed not to overlap with a termination of the same process.",
  "all interleavings over pools of any size",
  "pool exhaustion and reuse patterns depend on unbounded histories",
  ["lib/src/phy/harq/process_pool.cpp", "lib/src/phy/harq/process_tx.cpp", "lib/src/phy/harq/process_rx.cpp", "lib/src/common/thread/lockable_outer_inner.cpp"])
p("TX buffers are never shared and a transmittable packet is never overlooked",
  "In every interleaving of producers and the transmitting thread, a TX buffer has at most one owner, a buffer found by its order number holds exactly the packet submitted with that number, and wake-ups are not lost: whenever the transmitting thread sleeps although the packet it waits for is ready, some producer is still about to announce a packet and thereby to wake it; after its first search, this is the producer of that very packet.",
  "all interleavings of any number of producers with the transmitting thread",
  "lost wake-ups occur only in rare schedules",
  ["lib/src/radio/buffer_tx_pool.cpp", "lib/src/radio/buffer_tx.cpp"])
p("RX ring buffer holds the latest samples at their time index",
  "For every sequence of hardware blocks without time jumps, after a time T has been published the ring contains, for each of the last samples, the sample of time t at index t modulo the ring length, and no write leaves the allocated memory.",
  "all block size sequences and all sample values",
  "the wrap-around position depends on all previous block sizes",
  ["lib/src/radio/buffer_rx.cpp: get_ant_streams_next"])
p("RX pacer delivers contiguous samples without overrunning its buffer",
  "For every start time and every sequence of requested amounts, the samples delivered by the receive pacer are the consecutive samples from the start time, and the local buffer is never written beyond its end if the requested amount is within the announced maximum.",
  "all start times, unit lengths, and request sequences",
  "depends on the alignment between start time, unit length, and ring length",
  ["lib/src/phy/rx/rx_pacer.cpp: filter_until_nto, filter_single_unit, get_initialized_localbuffer"])
p("Transport block size agrees with code block segmentation",
  "For every packet configuration with a nonzero transport block size, segmenting the transport block succeeds, uses the number of code blocks that the size computation assumed, and needs no filler bits (except for the smallest size, which is rejected).",
  "all numbers of spatial streams, subcarriers, code rates, and both maximum code block sizes",
  "the parameter space is unbounded; a mismatch aborts the encoder",
  ["lib/src/sections_part3/transport_block_size.cpp", "lib/src/sections_part3/fix/cbsegm.cpp"])
p("Transport block size never decreases when the packet grows",
  "A packet with at least as many coded bits (more subcarriers, streams or bits per symbol at the same code rate) never carries fewer transport block bits.",
  "all pairs of configurations",
  "quantisation steps make monotonicity non-obvious and pairs cannot be enumerated",
  ["lib/src/sections_part3/transport_block_size.cpp"])
p("Maximum packet sizes bound every packet of the radio device class",
  "Every packet allowed by a radio device class has at most as many coded bits, transport block bits, code blocks and samples as the maximum packet sizes computed for that class.",
  "all packet configurations within a radio device class",
  "buffers are allocated from the maximum only; a single violating configuration overruns them",
  ["lib/src/sections_part3/derivative/packet_sizes.cpp: get_maximum_packet_sizes, get_packet_sizes"])
p("Encoder and decoder agree on the bits of every code block",
  "For every number of coded bits, modulation order and number of code blocks, the encoder's code block windows are consecutive, start at 0 and end at the number of coded bits, and the decoder reads for each code block the same window that the encoder wrote.",
  "all numbers of coded bits, modulation orders, and code blocks",
  "a mismatch shows only when the number of symbols is not a multiple of the number of code blocks",
  ["lib/src/phy/fec/pdc_enc.cpp: pdc_encode_codeblocks, pdc_decode_codeblocks"])
p("Encoding in pieces equals encoding at once",
  "For every increasing sequence of requested bit counts, the code blocks produced by incremental encoding are, in order, those produced by one call for the whole transport block; the decoder likewise processes each code block exactly once.",
  "all request sequences",
  "the request sequence is a schedule that depends on OFDM symbol timing",
  ["lib/src/phy/fec/pdc_enc.cpp"])
p("HARQ combining keeps correctly decoded code blocks",
  "Over every sequence of retransmissions, a transport block is reported correct only if all its code blocks passed their check and the transport block check passed; a code block that passed is delivered unchanged by later attempts until the overall check fails, after which all code blocks are decoded anew.",
  "all retransmission histories",
  "depends on unbounded histories of partially successful decodings",
  ["lib/src/phy/fec/pdc_enc.cpp: pdc_decode_codeblocks"])
p("DRS, PCC and PDC cells never collide",
  "For every numerology, bandwidth, packet length and number of transmit streams, the DRS, PCC and PDC cells of a packet are pairwise disjoint, lie on occupied subcarriers and data symbols, PCC has exactly 98 cells, PDC has exactly the announced number of cells, and DRS of different streams do not overlap.",
  "all supported numerologies, bandwidths, packet lengths, and stream counts",
  "the tables are generated for one maximal frame and truncated; each (length, streams) pair is a separate case",
  ["lib/src/sections_part3/drs.cpp", "lib/src/sections_part3/pcc.cpp", "lib/src/sections_part3/pdc.cpp", "lib/src/sections_part3/physical_resources.cpp"])
p("Durations convert without overflow or rounding",
  "Every duration that can be constructed is an exact number of samples and fits 31 bits; converting a sample count to nanoseconds gives the rounded down exact value without overflow whenever that value can be represented; the last and next full second enclose the given time, which is not before zero, by less than a second; the length of the TX buffers suffices for every packet.",
  "all sample rates, multiples, and sample times",
  "64-bit overflow limits cannot be reached by running",
  ["lib/src/sections_part3/derivative/duration.cpp", "lib/src/sections_part3/derivative/duration_lut.cpp"])
p("Allocated resources never overlap",
  "After every sequence of accepted resource additions, the resources of one direction are pairwise disjoint sample intervals inside the beacon period, and an addition that would overlap or leave the period is rejected.",
  "all sequences of additions",
  "pairwise disjointness over unbounded histories and 32-bit index arithmetic",
  ["lib/src/mac/allocation/allocation_pt.cpp: add_resource, is_orthogonal", "lib/src/mac/allocation/resource.cpp"])
p("TX opportunity is the earliest allocated resource in the window",
  "For every allocation, current time and earliest time, a returned TX opportunity starts at an allocated resource of some beacon period within the permitted window, no allocated resource starts earlier in the window, and no opportunity is returned only if there is none; the search terminates.",
  "all allocations, all times",
  "64-bit times and arbitrary allocation orders",
  ["lib/src/mac/allocation/allocation_pt.cpp: get_tx_opportunity, get_tx_opportunity_generic"])
p("Beacon and pulse time bases stay on their raster",
  "Scheduled beacons are exactly one period apart for every number of beacons; the deviation of a received beacon from the raster is the smallest one; after a correction the pulse estimate lies on the raster of the received beacon.",
  "all times, periods, and numbers of beacons",
  "64-bit times and negative differences",
  ["lib/include/dectnrp/mac/allocation/allocation_ft.hpp", "lib/src/mac/ppx/ppx.cpp", "lib/src/mac/pll/pll.cpp"])
p("Channel numbers, bands and frequencies agree",
  "For every band and every absolute channel number of that band, the channel number is accepted, the center frequency is the linear function of the standard, different channel numbers of the same raster have different frequencies; undefined bands are rejected.",
  "all bands and channel numbers",
  "a whole table lookup plus rejection of everything outside it",
  ["lib/src/sections_part2/channel_arrangement.cpp"])
p("Contact list indexes stay consistent",
  "After every sequence of added contacts, the long ID, short ID, server and client connection indexes of a contact lead to each other and to the same contact entry, and different contacts have different entries.",
  "all sequences of additions",
  "four maps and a vector must stay in step over unbounded histories",
  ["lib/include/dectnrp/mac/contact_list.hpp"])
p("Identities: a valid network ID yields a valid short network ID",
  "For every valid identity construction, the short network ID derived from a valid network ID is valid.",
  "all 32-bit network IDs",
  "2^32 values, one in 256 fails",
  ["lib/src/sections_part4/mac_architecture/identity.cpp"])
p("Byte order helpers are inverse",
  "Writing the n low (high) bytes of a word and reading them back gives the word with all other bytes cleared, for every word, every n, and every byte buffer; bytes outside are untouched.",
  "all words, all n",
  "2^64 values",
  ["lib/include/dectnrp/common/adt/bitbyte.hpp"])
p("Scrambling is an involution on exactly the requested bits",
  "Scrambling the same bit range twice with the same sequence restores the buffer, and bits outside the range are not changed.",
  "all buffers, offsets, lengths, and sequences",
  "bit offsets and lengths interact at byte boundaries",
  ["lib/src/sections_part3/fix/scrambling.cpp"])
p("Incremental correlation equals full correlation",
  "After every sequence of pushed samples, the running weighted sum equals the sum of the last window of samples weighted with the cover sequence, for every cover sequence of signs ending in +1.",
  "all cover sequences, repetition counts, and sample sequences",
  "an incremental update error accumulates only over particular sequences",
  ["lib/src/phy/rx/sync/movsum_uw.cpp", "lib/include/dectnrp/phy/rx/sync/movsum.hpp"])
p("Gain control serves all antennas in turn and within limits",
  "In every sequence of gain updates each antenna is served once per round, at most the configured number of antennas change per call, and every gain step is a multiple of the step size within the limits and zero in the dead band.",
  "all antenna counts, simultaneous limits, and inputs",
  "fairness is a property of unbounded sequences",
  ["lib/src/phy/agc/roundrobin.cpp", "lib/src/phy/agc/agc.cpp"])
p("Buffer status and transmit power quantisation are sound",
  "The reported buffer status class contains the actual buffer size, the signalled transmit power code is the smallest table power not below the request (saturating), and both are monotone.",
  "all buffer sizes and power values",
  "unbounded numeric domains",
  ["lib/src/sections_part4/physical_header_field/feedback_info.cpp", "lib/src/sections_part4/physical_header_field/plcf_base.cpp"])
p("PLCF decoder respects radio device class limits",
  "A PLCF is reported decoded only if its header format, packet length and MCS respect the radio device class limits, and the two PLCF types are tracked independently.",
  "all received bytes and all limits",
  "adversarial received bytes",
  ["lib/src/sections_part4/physical_header_field/plcf_decoder.cpp"])
p("Interpolated gains stay within the table",
  "For every sorted table with at least two entries and every requested value, the two interpolation points are adjacent entries of the table enclosing the limited value and the weights are nonnegative and sum to one.",
  "all tables and values",
  "tables are device specific; boundary values select out-of-range indices",
  ["lib/src/radio/gain_lut.cpp"])
p("Fixed-size MAC messages round trip",
  "Every valid association release, radio device status, route info, MAC security info, configuration request and response-style fixed layout message is recovered unchanged from its packed bytes, and the announced size equals the packed size.",
  "all valid messages",
  "32-bit and larger fields",
  ["lib/src/sections_part4/mac_messages_and_ie/association_release_message.cpp", "lib/src/sections_part4/mac_messages_and_ie/radio_device_status_ie.cpp", "lib/src/sections_part4/mac_messages_and_ie/route_info_ie.cpp", "lib/src/sections_part4/mac_messages_and_ie/mac_security_info_ie.cpp"])
p("Decoder header pointers are valid only when decoded",
  "After a transport block has been decoded, the header type pointer is non-null exactly if the header type was accepted, and the common header pointer is non-null exactly if the common header was read from the block and accepted.",
  "all transport blocks and all arrival schedules",
  "adversarial and truncated transport blocks",
  ["lib/include/dectnrp/sections_part4/mac_pdu/mac_pdu_decoder.hpp: get_mac_header_type, get_mac_common_header", "lib/src/sections_part4/mac_pdu/mac_pdu_decoder.cpp"])
p("Resampling does not depend on how the stream is cut into blocks",
  "For every sequence of blocks not shorter than the filter history, the concatenated output of the resampler equals the resampling of the whole stream, flushing completes it with the promised total number of samples, one block never yields more samples than the callers allocate, and the unrolled implementations equal the generic one.",
  "all streams, all block partitions, all filters and rational factors",
  "block boundaries interact with the polyphase position and the history for unboundedly many partitions",
  ["lib/src/phy/resample/resampler.cpp"])
p("Point-to-point resources are given away once",
  "For every sample rate, number of terminals and number of resources, the uplink and downlink resources of all terminals fit into the beacon period, leave the slots of the beacon free, and no sample of the period belongs to two of them; configurations that do not fit are rejected, and terminals get distinct valid identities.",
  "all sample rates, numbers of terminals and resources",
  "the layout is computed from four parameters; only two configurations are ever compiled",
  ["lib/src/upper/p2p/procedure/steady_rd.cpp: init_allocation_pt, init_identity_pt"])
p("The fixed point keeps its schedule",
  "In every sequence of irregular and application events after start, the fixed point sends beacons exactly one period apart, every packet lies in a downlink resource of the contact it is addressed to and is decided early enough for the hardware, transmissions are numbered in order and never overlap, and a late irregular event stops the program.",
  "all event sequences, all answers of clock, queues and HARQ processes, any number of contacts",
  "unbounded interleavings of events and readings of the clock",
  ["lib/src/upper/p2p/procedure/steady_ft.cpp", "lib/src/upper/p2p/procedure/steady_rd.cpp: worksub_tx_unicast"])
p("Devices of a point-to-point network do not collide",
  "A portable point transmits nothing before it received a beacon, afterwards only in its own uplink resources relative to a received beacon that is recent, in order and without overlap; and no packet of a portable point is on air at the same time as one of the fixed point or of another portable point.",
  "all numbers of terminals, all event sequences on all devices",
  "a property of several devices with unbounded histories",
  ["lib/src/upper/p2p/procedure/steady_pt.cpp", "lib/src/mac/allocation/allocation_pt.cpp", "lib/src/upper/p2p/procedure/steady_ft.cpp"])
p("User data arrives complete, unchanged and in order",
  "Each unicast packet takes as many datagrams from the front of the server's queue as fit into the transport block, at most eight, while datagrams may be written concurrently; the receiver of the packet appends exactly these datagrams in the same order to the client's queue as far as there is room and forwards as many; over any number of packets nothing is lost, repeated or overtaken. A datagram too large for the transport block blocks everything behind it.",
  "all queue contents, datagrams, transport block sizes, concurrent writes, portions of reception and numbers of packets",
  "composition of queue, encoder, decoder and concurrent writer over unbounded histories",
  ["lib/src/upper/p2p/procedure/steady_rd.cpp: worksub_tx_unicast, worksub_tx_unicast_mac_sdu", "lib/src/upper/p2p/procedure/steady_ft.cpp: worksub_pdc_21", "lib/src/upper/p2p/procedure/steady_pt.cpp: worksub_pdc_21, worksub_mmie_user_plane_data", "lib/src/application/queue/queue.cpp"])
p("The application client forwards every accepted datagram once",
  "In every schedule of the thread processing packets and the client's thread, the datagrams forwarded on a connection are a prefix of those accepted, in order and without repetition; when the client sleeps without pending notification and no packet is being processed, everything accepted has been forwarded; with one connection the client never aborts and always finishes forwarding; with several connections a datagram accepted while another is forwarded can make it abort.",
  "all schedules of two threads, any number of connections, datagrams and queue sizes",
  "interleavings of two threads with a condition variable, spurious wake-ups and time-outs",
  ["lib/src/application/application_client.cpp: trigger_forward_nto, work_sc, forward_under_lock"])
p("Resource allocation information round trips",
  "Every resource allocation IE with all fields in range, in every combination of optional fields, is packed into the announced number of octets and recovered unchanged; arbitrary received octets are either reported as a valid IE or rejected; and what the fixed point announces lets the portable point reconstruct its allocation.",
  "all field values and combinations of optional fields, all received octets",
  "the combinations of optional fields and 16-bit fields cannot be enumerated; some combinations crash",
  ["lib/src/sections_part4/mac_messages_and_ie/resource_allocation_ie.cpp", "lib/src/mac/allocation/allocation_pt.cpp"])
p("Random access resource information round trips",
  "Every random access resource IE with all fields in range, in every combination of optional fields, is packed into the announced number of octets and recovered unchanged, and the size derived from the first octet equals the packed size.",
  "all field values and combinations of optional fields, all received octets",
  "the combinations of optional fields and 16-bit fields cannot be enumerated; some combinations crash",
  ["lib/src/sections_part4/mac_messages_and_ie/random_access_resource_ie.cpp"])
p("An association response arrives as what it was sent",
  "Every association response with all fields in range is packed into the announced number of octets and recovered unchanged; in particular an acceptance is never received as a rejection.",
  "all accepted and rejected responses, all received octets",
  "flow sets, HARQ configurations and group information multiply; the sign of an intermediate result decides",
  ["lib/src/sections_part4/mac_messages_and_ie/association_response_message.cpp"])
p("Reconfiguration requests and responses round trip",
  "Every reconfiguration request and response with all fields in range, in every combination of optional HARQ configurations and flow lists, is packed into the announced number of octets and recovered unchanged.",
  "all field values, flow lists and combinations of optional fields, all received octets",
  "flow lists and HARQ configurations multiply; some combinations crash",
  ["lib/src/sections_part4/mac_messages_and_ie/reconfiguration_request_message.cpp", "lib/src/sections_part4/mac_messages_and_ie/reconfiguration_response_message.cpp"])
p("Capabilities and group assignments round trip",
  "Every RD capability IE with up to seven additional capabilities and every group assignment IE with any number of assignments can be sent and is recovered unchanged; the announced receiver gain is the table entry next to the requested one; arbitrary received octets give a valid IE or are rejected.",
  "all field values, any number of capabilities and assignments, all received octets",
  "lists of tuples of enumerations with arbitrary length",
  ["lib/src/sections_part4/mac_messages_and_ie/rd_capability_ie.cpp", "lib/src/sections_part4/mac_messages_and_ie/group_assignment_ie.cpp"])
p("Load and measurement reports round trip",
  "Every load info IE and every measurement report IE with all fields in range, in every combination of optional fields, is packed into the announced number of octets and recovered unchanged; whatever octets arrive, the receiver delivers a valid IE whose encoding is what arrived.",
  "all field values and combinations of optional fields, all received octets",
  "combinations of optional fields; the size found from the first octet disagrees with the packed size for some",
  ["lib/src/sections_part4/mac_messages_and_ie/load_info_ie.cpp", "lib/src/sections_part4/mac_messages_and_ie/measurement_report_ie.cpp"])
p("A broadcast indication arrives as what it was sent",
  "Every broadcast indication IE in range, paging or random access response with any feedback, is packed into the announced number of octets and recovered unchanged; in particular an MCS feedback is not received as a codebook index.",
  "all indications, identities and feedbacks, all received octets",
  "the feedback is decoded from an unshifted field: only some values show it",
  ["lib/src/sections_part4/mac_messages_and_ie/broadcast_indication_ie.cpp"])
p("Neighbouring information round trips",
  "Every neighbouring IE with all fields in range, in every combination of optional fields, is packed into the announced number of octets and recovered unchanged.",
  "all field values and combinations of optional fields",
  "combinations of optional fields",
  ["lib/src/sections_part4/mac_messages_and_ie/neighbouring_ie.cpp"])
p("Simulated devices proceed in lockstep",
  "Any number of simulated devices with a common time base, whose TX and RX threads are scheduled arbitrarily: no assert of the virtual space fails; every device reads, for every packet of samples, what all devices wrote for the same time, once and in order; as long as the threads run there is no deadlock and none is left behind. After the threads were told to stop every thread ends.",
  "all numbers of devices, all interleavings, all histories",
  "thread interleavings of 2n threads cannot be enumerated by tests; a hang at shutdown depends on the schedule",
  ["lib/src/simulation/vspace.cpp", "lib/src/radio/hw_simulator.cpp"])
p("Each pair of simulated devices has its own channel",
  "For every number of simulated devices for which the index arithmetic does not overflow the generated channels are in one-to-one correspondence with the unordered pairs of different devices, and the channel looked up for a pair is the one generated for it, in either order of the arguments.",
  "all numbers of devices, all pairs",
  "a closed formula for the index has to agree with the order of generation for all sizes",
  ["lib/src/simulation/vspace.cpp", "lib/include/dectnrp/simulation/topology"])
p("A simulated device transmits every packet at its time",
  "Whatever packets are given to a simulated device and whenever they become available: the samples handed to the virtual space, put end to end, contain every packet set as transmitted, completely, once, with its first sample at its transmission time, and zeros everywhere else; the range announced with each packet of samples covers all samples sent; the thread stops with an assert only for packets that are too short or late.",
  "all sequences of packets, lengths, times and moments at which they become available",
  "positions of packet boundaries relative to packets of samples and the moment of availability cannot be enumerated",
  ["lib/src/radio/hw_simulator.cpp"])
p("Packets found by the synchronization threads are submitted once and in order",
  "For every number of synchronization threads, every signal and every schedule: the threads never abort; every packet found in a chunk is submitted to the job queue exactly once, after all packets of earlier chunks and before those of later ones, whether or not the thread had to buffer it while waiting for the baton; of detections closer than the limit only the first makes a job.",
  "all numbers of threads, all positions of packets in the chunks, all interleavings",
  "which packets are buffered depends on the schedule, and a packet at the very end of a chunk is a rare event",
  ["lib/src/phy/pool/worker_sync.cpp", "lib/src/phy/rx/sync/sync_chunk.cpp", "lib/src/phy/rx/sync/autocorrelator_detection.cpp"])
p("The search of a chunk stays within its buffer and reports no STF twice",
  "For every signal and every pace at which samples arrive: the search for packets in a chunk never fails an assert, never reads samples that have not been written, and never requests more samples than the buffer holds; it ends exactly when the search length is covered; the packets it reports are in order and more than one STF less one pattern apart; and each report is the weighted position of the last maxima of the smoothed metric of the antennas with a valid peak.",
  "all signals (detections, metrics per antenna and position), all numbers of samples available at each request, all dimensions",
  "positions of detections relative to the chunk, the pattern and the smoother cannot be enumerated; the earliest and latest detections are rare",
  ["lib/src/phy/rx/sync/sync_chunk.cpp", "lib/src/phy/rx/sync/autocorrelator_detection.cpp", "lib/src/phy/rx/sync/autocorrelator_peak.cpp"])
p("A PLCF arrives with its flags, and damaged ones are not taken for valid",
  "Whatever words the turbo decoder delivers in its iterations: the receiver reports the first that is the encoding of a PLCF of the type tried, with the closed-loop and beamforming flags it was encoded with, and otherwise nothing. Encodings of different PLCFs or with different flags differ in an even number of at least four bits, so up to three errors left by the decoder are never reported as a PLCF, and a PLCF whose errors are corrected in one of the five iterations arrives unchanged.",
  "all PLCFs of both types, all flags, all words delivered by the decoder in all iterations",
  "the distance of the code is a statement about all pairs of words, 2^100 of them",
  ["lib/src/phy/fec/pcc_enc.cpp", "lib/src/phy/fec/fec.cpp"])
p("Every coded bit is put on its subcarrier, in order, and nothing else is",
  "For every packet with packet sizes and an MCS the transmitter supports (0 to 9): generation finishes without an error, and in the transmit streams cell i of the PCC and of the PDC, in the order of OFDM symbols and subcarriers, carries the symbol made from the i-th group of coded bits: by itself on a single stream, in the transmit diversity modes together with its partner on the two streams of the pair, in the spatial multiplexing modes one symbol per stream; DRS have their values and all other subcarriers are zero. Symbols mapped ahead in one OFDM symbol are used in the next, and the buffer for them, sized by the radio device class, is large enough.",
  "all packet configurations, transmission modes, MCS, all coded bits, all constellations",
  "the number of bits mapped ahead from one OFDM symbol to the next depends on mode, bandwidth, MCS and position; combinations run to millions",
  ["lib/src/phy/tx/tx.cpp", "lib/src/phy/tx_rx.cpp", "lib/src/sections_part3/transmit_diversity_precoding.cpp"])
p("The receiver finds every cell of a packet and estimates its channel from the right pilots",
  "For every packet with packet sizes the receiver gets through all its OFDM symbols without failing an assert, in every mode of channel estimation and whatever packets came before: PCC and PDC are read from exactly the cells where the transmitter put them, in the same order and from the right OFDM symbol, and for every transmit stream with a channel estimate that was made from DRS of this very stream, at the places in the packet for which the interpolation weights were computed, none of which lies outside of the vector of pilots.",
  "all packet configurations with one spatial stream, all modes and strides of the channel estimation, all states left by earlier packets",
  "stages, interlaced pilots and swapped tables alternate with the length of the packet and its number of streams; short packets and eight streams are rarely tried",
  ["lib/src/phy/rx/rx_synced/rx_synced.cpp", "lib/src/phy/rx/rx_synced/channel_estimation/channel_lut.cpp", "lib/include/dectnrp/phy/rx/rx_synced/channel_estimation/channel_antenna.hpp"])
p("The receiver recovers the symbols sent from all its antennas",
  "For every packet with one spatial stream and packet sizes, every number of receive antennas, every channel that may change from one OFDM symbol to the next and is known to the receiver: if each cell is heard by at least one antenna from a stream that sends it and, in the transmit diversity modes, the channel is the same in both cells of a pair, then the demapper is given the symbols of the PCC and of the PDC in the order in which they were sent, each one exactly, plus a weighted sum of the noise in its own cells (or the two cells of its pair). This holds for OFDM symbols with PDC only, which are processed in two halves, and for all others.",
  "all packet configurations, coded bits, numbers of antennas, channels, noise",
  "channels and noise are continuous; antennas, modes, bandwidths and cells combine without end",
  ["lib/src/phy/rx/rx_synced/rx_synced.cpp", "lib/src/phy/tx/tx.cpp"])
p("OFDM symbols are sent as the superposition of their subcarriers and survive every path shorter than the cyclic prefix",
  "For every packet configuration, oversampling, number of antennas, beamforming matrix and content: each OFDM symbol, STF included, leaves each antenna, at every sample of its cyclic prefix and its body, as the superposition of its subcarriers at their frequencies, each carrying the transmit streams weighted by the row of the antenna; what the buffers held before does not matter. Over any number of paths with any gains and with delays up to the cyclic prefix, the receiver gets on each subcarrier of each OFDM symbol what was sent there, rotated per path by its delay, and nothing of other subcarriers or OFDM symbols; the cover sequence of the STF is removed.",
  "all numerologies, bandwidths, oversampling factors, matrices, contents, numbers of OFDM symbols, paths",
  "samples are continuous, and bandwidth, oversampling, matrix, antenna and delay combine without end; a buffer that happens to hold the right samples hides a wrong copy",
  ["lib/src/phy/tx/tx.cpp", "lib/src/phy/tx_rx.cpp", "lib/src/phy/dft/ofdm.cpp", "lib/src/sections_part3/stf.cpp", "lib/src/phy/rx/rx_synced/rx_synced.cpp"])
p("Beamforming sends the mean power of the streams with every matrix",
  "For every transmission mode and codebook index: there is a beamforming matrix with one weight per antenna and stream for exactly the indices up to the maximum, the transmitter accepts exactly these, and clamping leads to one of them. Whatever the streams carry, all antennas together send the mean of their powers, so that an OFDM symbol has the power asked for with every matrix, and the STF this power divided by the number of streams. With the scaling for the converters no antenna exceeds the power of one stream and one antenna reaches it. The first antenna of each stream sends it unchanged, different indices have different matrices, also up to rotations of the streams, index 0 sends each stream on its own antenna, and from the index announced for it on all weights differ from zero (with eight antennas there is no such matrix).",
  "all transmission modes, codebook indices, signals on the streams, amplitudes",
  "the signals are continuous; a wrong sign in one weight of one matrix shows only for some combination of signals on the streams",
  ["lib/src/sections_part3/beamforming_and_antenna_port_mapping.cpp", "lib/include/dectnrp/sections_part3/beamforming_and_antenna_port_mapping.hpp", "lib/src/phy/tx/tx.cpp"])
p("Packets are adapted to the last report of the peer that is not too old",
  "Whatever a device received from and sent to a contact before: the next packet is sent with the MCS suggested last by the peer if that suggestion is not more than 50 ms older than the transmission, otherwise with the lowest one allowed, and never outside the limits; it carries the next feedback format of the plan, one step per packet sent; as feedback it carries the MCS found for the last packet received or the last codebook index recommended, unless older than 50 ms, and this can always be packed. The MCS found is the highest allowed one whose required SNR was measured, or the lowest allowed. Between two devices, the MCS of a packet is the one the other device found for the last packet it received, if every report is used within 50 ms. As compiled by default the codebook index is 0.",
  "all histories of received PLCFs, measurements, reports and packets, all SNR values, limits, plans, sample rates and times",
  "histories are unbounded and the age of a report may be any number of samples; a report used one sample too long or a format skipped when nothing was sent shows only for particular histories",
  ["lib/src/upper/p2p/procedure/steady_rd.cpp", "lib/include/dectnrp/common/adt/expiring.hpp", "lib/src/phy/indicators/cqi_lut.cpp", "lib/src/phy/rx/rx_synced/mimo/mimo_csi.cpp", "lib/src/mac/feedback_plan.cpp"])
p("The recommended beamforming matrix has the highest lowest amplitude",
  "After a packet with N transmit streams received with M antennas, whatever the channel estimates are: the report is made without abort, even if amplitudes are NaN; the index recommended to the transmitter is that of the matrix for one stream and N antennas without a zero weight for which the lowest amplitude over the receive antennas is highest (summed over the cells considered, amplitudes from 10^6 on not distinguished), the first among equals; the index for the own transmitter is the same for M antennas and the channel with both sides exchanged; with one antenna it is 0. The transmitter accepts both indices, and they fit into the feedback.",
  "all channel estimates, bandwidths, numbers of streams and antennas",
  "the channel is continuous; a matrix skipped or antennas mixed up shows only for channels for which it changes the maximum",
  ["lib/src/phy/rx/rx_synced/mimo/estimator_mimo.cpp", "lib/include/dectnrp/phy/rx/rx_synced/mimo/estimator_mimo.hpp"])
p("The simulated radio channel is linear, has no seams between chunks and is reciprocal",
  "For every history of uses of a simulated link in both directions, every output sample is the sum over the taps of the input of this direction delayed by the tap, also across chunk borders, times a sum of sinusoids of absolute time; uses of the other direction do not matter; both ends that send the same receive the same. The taps follow the power delay profile at the sample rate and have power 1 in total; the constructor aborts exactly if the last one exceeds a chunk. A device hears the sum over all antennas of all other devices, each pair of antennas through its own entry, except while it sends, plus its own leakage. The gain between two antennas is the same in both directions.",
  "all histories of uses, chunk sizes, taps, periods, phases, profiles, numbers of devices and antennas",
  "a seam at a chunk border or a history shared by both directions only shows for certain delays and schedules; gains are random",
  ["lib/src/simulation/wireless/link.cpp", "lib/src/simulation/wireless/channel_doubly.cpp", "lib/src/simulation/wireless/channel_flat.cpp", "lib/src/simulation/wireless/channel_awgn.cpp", "lib/src/simulation/vspace.cpp"])
p("A stop request of a point-to-point device is always served",
  "Whenever the user stops an FT or PT, during association, in steady state or before, the device ends its connections and the stop returns in every fair execution, after at most two further irregular calls of the firmware. The states are passed in one direction only, dissociation begins only after a stop request and nothing is sent from then on; the main thread returns only after dissociation and no wake-up is lost. Until then exactly one irregular call is outstanding, so the irregular queue cannot overflow, and no assertion of the firmware fails in any execution unless the job queue is full.",
  "all interleavings of synchronization, workers, application and main thread, all times of the stop request, all times of reports",
  "depends on when the request arrives relative to reports in two queues and the state of the firmware; a lost report or wake-up blocks for ever",
  ["lib/src/upper/p2p/tfw_p2p_rd.cpp", "lib/src/upper/p2p/tfw_p2p_ft.cpp", "lib/src/upper/p2p/tfw_p2p_pt.cpp", "lib/src/upper/p2p/procedure/dissociation_ft.cpp", "lib/src/upper/p2p/procedure/steady_ft.cpp", "lib/src/phy/pool/worker_sync.cpp"])
p("A channel measurement covers the samples it is asked for",
  "A channel scan returns for each partial scan the RMS of exactly the samples of its window on the antennas asked for, also where the ring buffer wraps and while the hardware goes on writing, and aborts unless the window fits the ring and has ended. The average is the mean of the partial results. The scanning firmware measures all frequencies in turn, each the given number of times, and reports the smallest and largest of the values measured on that frequency.",
  "all windows, positions in the ring, numbers of antennas and partial scans, samples, interleavings with the hardware, sequences of measurements",
  "window borders matter only at certain positions in the ring; a sample not yet received looks like any other",
  ["lib/src/phy/rx/chscan/chscanner.cpp", "lib/include/dectnrp/phy/rx/chscan/chscan.hpp", "lib/src/upper/chscanner/tfw_chscanner.cpp", "lib/src/radio/buffer_rx.cpp"])
p("Fine synchronization reports the position where a template fits best",
  "After each coarse peak the fine search takes the samples around it from the antenna with the strongest coarse peak, undoes the estimated frequency offset, and reports a time within the search range and a number of effective transmit antennas such that no STF template correlates stronger at any position of the range; the rounding of single precision does not move it. An STF received without noise, attenuated, turned in phase and shifted in frequency by the estimated offset, is found exactly at its start, unless another part of the signal is a multiple of a template or has more energy. The buffers hold all samples needed for every bandwidth, oversampling and resampling ratio of up to two. With the option to search all antennas the reported time lies between the peaks of the antennas.",
  "all received signals, offsets, positions of the packet, numbers of antennas, bandwidths and resampling ratios",
  "the signal is continuous; an error by one sample or in one template shows only for some offset, antenna or ratio",
  ["lib/src/phy/rx/sync/crosscorrelator.cpp", "lib/src/phy/rx/sync/stf_template.cpp", "lib/src/phy/rx/sync/sync_chunk.cpp", "lib/src/phy/mix/mixer.cpp"])
p("Measurement of the round-trip time: every datagram comes back with the time of its own round trip",
  "The fixed device sends each accepted datagram in one packet, in the order of arrival, with consecutive numbers; packets never overlap and never begin before the present time plus the turnaround time. The portable device answers each packet with the same content. The program that measures gets back the first eight bytes of its datagram followed by the time from the call that sent it to the call that received the answer, and zeros, in a datagram of the size of the packet. Reports hold the number of packets received since the last report and the least and greatest time measured. The portable device changes gains with its packets only, never twice within the pause. Each device receives the packets of the other one and of nobody else. If no datagram arrives during the start, datagrams fit into a packet and there are HARQ processes, every datagram is announced and transmitted, and no schedule aborts either device.",
  "all sequences of datagrams, jobs, packets, clock values and interleavings of server, worker and starting thread",
  "the order of clear, write, announcement and processing depends on threads; lag shows only after datagrams at a certain instant of the start",
  ["lib/src/upper/rtt/tfw_rtt.cpp", "lib/src/application/application_server.cpp", "lib/src/application/queue/queue.cpp"])
out = os.path.join(os.path.dirname(os.path.abspath(__file__)), "..", "properties.jsonl")
with open(out, "w") as f:
    for x in P: f.write(json.dumps(x) + "\n")
print(len(P))
