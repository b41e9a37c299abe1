{
 "C01": {
  "status": "proved",
  "note": "All six formats and format 0, for every field value in range and every previous content of the two bytes; out of range aborts; success of unpack implies fields in range. Buffer_Size is recovered as the lower limit of its class."
 },
 "C02": {
  "status": "proved",
  "note": "Types 10, 20, 21 with embedded feedback info; out of range aborts; decoding success implies fields in range."
 },
 "C03": {
  "status": "partial",
  "note": "Header type octet, data, unicast, RD broadcasting and empty headers round trip. The claim is false for the beacon header: C03_beacon_negation, C03_beacon_collision (low byte of the network ID is lost); the escape type is packed but never accepted (C03_escape_refused)."
 },
 "C04": {
  "status": "proved",
  "note": "Every extension form and length; out of range aborts; the receiver reads exactly the announced octets and recognises exactly the assigned codes of the activated elements."
 },
 "C05": {
  "status": "proved",
  "note": "Every free space is filled exactly with padding elements the decoder recognises, with the least number of elements."
 },
 "C06": {
  "status": "proved",
  "note": "All blocks, all arrival schedules: the state after the last byte equals that of a single call. Side result: a further call after DONE aborts (C06_done_twice); the caller never makes one."
 },
 "C07": {
  "status": "proved",
  "note": "Assertion-free, terminating, no read of unwritten bytes, valid final state, delivered elements distinct and within range, for every block and schedule."
 },
 "C08": {
  "status": "proved",
  "note": "Header type, common header, elements in order for every arrival schedule. The beacon header is recovered without the low byte of the network ID (finding in C03); elements from the first one beyond the receiver's pool are dropped (C08_roundtrip with Arrives)."
 },
 "C09": {
  "status": "proved",
  "note": "Round trip, abort out of range, receiver total on every byte string; sender and receiver must use the same mu (C09_mu_matters)."
 },
 "C10": {
  "status": "partial",
  "note": "The claim is false for messages with channel 1 or 2 but not channel 0 (C10_negation); C10_recovered_partial says exactly what is recovered. The conversion from dBm is wrong for every argument (C10_power_negation)."
 },
 "C11": {
  "status": "proved",
  "note": "Time announce and power target: layout, round trip, abort out of range, receiver total. The requested power is transferred with an error of at most half a dB; its sign is ignored (C11_power_sign)."
 },
 "C12": {
  "status": "partial",
  "note": "The claim is false: the network beacon period of an FT configuration is always received as code 0 (C12_negation) and any message with a field out of range, without flows or with a repeated flow aborts the receiver (C12_abort_negation). Exact characterisations: C12_recovered_partial, C12_receive_partial."
 },
 "C13": {
  "status": "proved",
  "note": "The queue is a bounded FIFO for every call sequence and every thread schedule. Also shown: a zero-byte datagram is queued although the call reports 0, and a queue configured with one slot refuses everything."
 },
 "C14": {
  "status": "proved",
  "note": "Every call sequence is a run of a partial map with both sides unique."
 },
 "C15": {
  "status": "proved",
  "note": "Every run calls exactly the due entries once in due order; periodic callbacks are called at exactly their due times over any history; a run a whole period late aborts. rm_callback cannot be instantiated and is not modelled."
 },
 "C16": {
  "status": "proved",
  "note": "All interleavings of producers and consumers. job_queue_naive_t in full; for job_queue_mc_t, the one in use, the third-party concurrent queue is trusted to be FIFO for one producer token."
 },
 "C17": {
  "status": "proved",
  "note": "Every operation sequence behaves as an earliest-first collection of at most 8 requests; aborts exactly on refused operations."
 },
 "C18": {
  "status": "proved",
  "note": "All interleavings of any number of threads over up to 4 pools: exclusion, order, no failing assert, and from every state all jobs taken can be completed."
 },
 "C19": {
  "status": "proved",
  "note": "Registration and rotation as transition systems over any number of threads; the search within a chunk is one step that stays in the chunk (C64 models it and shows where the code leaves the chunk too early). C19_token_busy_aborts records the finding that the start aborts if another pool holds the token at that moment."
 },
 "C20": {
  "status": "proved",
  "note": "Lock operations interleaved at the granularity of atomics. Condition on retrievals is the predicate Disciplined; C20_retrieval_race shows that it is needed: with keep_running_or_reset_and_terminate_if_crc_correct a retrieval during termination leads to two owners."
 },
 "C21": {
  "status": "proved",
  "note": "Interleavings at the granularity of atomics and mutex sections, any number of producers and buffers. Findings: C21_delayed_wakeup (an announced packet may have to wait for the delayed increment of an already transmitted one), C21_simulator_reads_released (hw_simulator.cpp reads the next order number after releasing the buffer)."
 },
 "C22": {
  "status": "proved",
  "note": "Also for histories with time jumps (base = end of the first block after a jump). Findings: C22_jump_misplaced, C22_jump_back_silent, C22_wait_one_more."
 },
 "C23": {
  "status": "proved",
  "note": "Filtering and resampling paths for one antenna stream; the samples are at their ring index while a unit is read (C22). Real-time lag is not modelled."
 },
 "C24": {
  "status": "proved",
  "note": "All packet configurations in the asserted ranges; no filler bits except for 8 bit transport blocks, which are refused; no 32-bit overflow."
 },
 "C25": {
  "status": "proved",
  "note": "Monotone in payload bits, streams, subcarriers, bits per symbol and MCS index."
 },
 "C26": {
  "status": "proved",
  "note": "All radio device classes for which the maximum is determined. Findings: C26_pdc_subc_negation (subcarriers per stream are not bounded, unused), C26_class_rejected."
 },
 "C27": {
  "status": "partial",
  "note": "The windows of the encoder are proved; the decoder leaves out the last symbol of the first longer code block (C27_negation), everything else agrees."
 },
 "C28": {
  "status": "proved",
  "note": "Encoder for every sequence of requests, decoder for every division of the soft bits into symbols. Single precision arithmetic is an arbitrary correct rounding."
 },
 "C29": {
  "status": "partial",
  "note": "Proved for every history in which the process is not kept running after a correct transmission; otherwise false (C29_negation_keep_running)."
 },
 "C30": {
  "status": "proved",
  "note": "tables, state machines and loops of drs.cpp, pcc.cpp, pdc.cpp and the symbol loop of tx.cpp modelled; holds for every packet accepted by get_packet_sizes"
 },
 "C31": {
  "status": "proved",
  "note": "negative times, for which the last full second is rounded up, are shown in C31_negation_negative_time"
 },
 "C32": {
  "status": "proved",
  "note": "resources of different directions may overlap: C32_negation_directions"
 },
 "C33": {
  "status": "partial",
  "note": "proved for resources added in order of time; false for other orders: C33_negation_not_earliest, C33_negation_missed"
 },
 "C34": {
  "status": "proved",
  "note": "arithmetic of the moving average is exact, rounding of double is not modelled"
 },
 "C35": {
  "status": "partial",
  "note": "all but the rejection of undefined bands, which are taken for band 19: C35_negation_undefined_band"
 },
 "C36": {
  "status": "proved",
  "note": "Refinement of a list of contacts for every sequence of additions and changes of entries; exact rejection conditions."
 },
 "C37": {
  "status": "partial",
  "note": "The claim is false: C37_negation. The exact condition (low byte not zero) is C37_short_network_id_partial."
 },
 "C38": {
  "status": "proved",
  "note": "Any word size, any byte count, any buffer and offset. bitmask beyond 32 bits is undefined behaviour (C38_bitmask64_ub)."
 },
 "C39": {
  "status": "partial",
  "note": "False as stated for ranges inside one byte and for bits behind the range in the last byte (C39_negation); proved for the ranges the encoder uses."
 },
 "C40": {
  "status": "proved",
  "note": "Exact arithmetic (any commutative ring); every cover sequence, repetition, register content and interleaving of pushes and recomputation. Finding: get_sum_front/get_sum_back are off by one element (C40_negation_front)."
 },
 "C41": {
  "status": "proved",
  "note": "Exact arithmetic. Round robin for every sequence of calls; exact configurations accepted; quantised steps; receiver gain control in both modes."
 },
 "C42": {
  "status": "proved",
  "note": "Includes the finding that relayed buffer classes drift down and that unsupported stream counts are coded as one stream."
 },
 "C43": {
  "status": "proved",
  "note": "Both directions: accepted implies within limits, within limits implies accepted."
 },
 "C44": {
  "status": "proved",
  "note": "Points and weights for every rounding function (monotone, exact at 0 and 1); sums and achievable gains in exact arithmetic; all calibration tables of the code checked. Findings: tables not ascending."
 },
 "C45": {
  "status": "proved",
  "note": "Association release, radio device status, route info, MAC security info: layout, size, round trip, abort out of range, receiver total. The configuration request has no content."
 },
 "C46": {
  "status": "partial",
  "note": "Refuted as documented: a common header that does not fit leaves a non-null pointer to fields never read (C46_negation). C46_partial gives the exact behaviour for all blocks and schedules."
 },
 "C47": {
  "status": "proved",
  "note": "Dot products abstract; one antenna stream. Filter coefficients (Kaiser window) not modelled."
 },
 "C48": {
  "status": "proved",
  "note": "For every multiple of 12 kHz below 2^32 as sample rate; the layout is exclusive, sorted and within the period, or the constructor aborts. Three terminals with two resources abort."
 },
 "C49": {
  "status": "proved",
  "note": "Findings proved beside it: an application event before the first beacon overflows a signed addition (undefined behaviour), and a first contact without opportunity leaves all other contacts unserved."
 },
 "C50": {
  "status": "proved",
  "note": "Times of different devices are compared on one clock without propagation delay; a beacon from the future aborts the program."
 },
 "C51": {
  "status": "proved",
  "note": "C51_send (greatest number of datagrams that fits, nothing lost), C51_transfer (queue to queue through encoder and decoder), C51_stream (any number of packets). Findings: a datagram larger than the transport block blocks the queue for ever (C51_finding_blocked; sizes in use: C51_finding_mtu), a received datagram larger than the client's buffers aborts the receiver (C51_finding_remote_abort)."
 },
 "C52": {
  "status": "proved",
  "note": "C52_fifo, C52_no_lost_wakeup for any number of connections; C52_never_aborts, C52_progress for one connection. Finding: C52_finding_aborts for two or more connections (a negative counter is read as unsigned)."
 },
 "C53": {
  "status": "partial",
  "note": "Proved for every IE with repetition and both directions and for releases; the code aborts in sender and receiver for every IE with one direction only or without repetition (value() of an empty optional), stated exactly in C53_abort, C53_finding_sender, C53_finding_receiver, C53_negation. What the fixed point sends is decodable and translates back to the same allocation (C53_firmware)."
 },
 "C54": {
  "status": "partial",
  "note": "Round trip proved for every IE with repetition and without SFN offset and channel; otherwise the code aborts: the size derived from the first octets is 3 too large with SFN offset and 2 too large with a channel (C54_finding_peek), and without repetition value() of an empty optional throws. Received bytes in the standard's layout are decoded correctly (C54_receive_standard)."
 },
 "C55": {
  "status": "partial",
  "note": "False of the code for acceptances: the test ~byte >> 7 is nonzero for every byte (C55_finding_peek), so an acceptance aborts the sender, except the acceptance of exactly one flow, which is received as a rejection (C55_finding_sender, C55_finding_accept_as_reject, C55_negation). Rejections round trip (C55_reject_partial), reception of arbitrary bytes is characterised exactly (C55_receive)."
 },
 "C56": {
  "status": "partial",
  "note": "False of the code unless both HARQ configurations are present: is_valid calls value() on an empty optional and throws in sender and receiver (C56_request_abort, C56_request_finding_receiver, C56_response_finding_sender, C56_negation). With both present the round trip is proved for every flow list (C56_request_roundtrip_partial, C56_response_roundtrip_partial), and reception of arbitrary bytes is characterised."
 },
 "C57": {
  "status": "partial",
  "note": "Proved in full for the RD capability IE. Group assignment: the body round trips (C57_group_body_partial), but no group assignment IE can be sent, because nothing ever sets the extension field of its multiplexing header and packing it aborts (C57_finding_group, C57_negation)."
 },
 "C58": {
  "status": "partial",
  "note": "False of the code for a load of portable points or of the random access channel and for a transmission count: the size found by peeking is too large (C58_load_finding_peek, C58_measurement_finding_peek), the sender aborts (C58_load_pack_partial, C58_measurement_pack_partial, exact; C58_negation). All other IEs round trip; reception of arbitrary octets is proved in full (C58_load_receive, C58_measurement_receive)."
 },
 "C59": {
  "status": "partial",
  "note": "Packing proved in full (C59_pack). False of the code for feedback: the receiver does not shift the field FEEDBACK, an MCS feedback is received as a codebook index or aborts (C59_finding_mcs, exact; C59_negation), every MIMO feedback aborts (C59_finding_mimo). Pagings and responses without feedback round trip (C59_roundtrip_partial), reception of arbitrary octets is characterised (C59_receive)."
 },
 "C60": {
  "status": "partial",
  "note": "False of the code: no neighbouring IE can be sent at all (C60_finding_sender). What becomes of an IE in the layout of the standard is stated exactly in C60_receive_standard_partial: received correctly only with a radio device class and a network beacon period of 50 ms."
 },
 "C61": {
  "status": "partial",
  "note": "Full statement kept in properties.jsonl. Proved for any number of devices and any schedule: no assert fails, lockstep, times, no deadlock while running, progress of everybody (C61_everybody_gets_on_partial). Missing because false: ending after stop. C61_stop_finding shows that a TX thread in the middle of a packet never ends once an RX thread has stopped without reading; C61_stop_witness reaches such a state."
 },
 "C62": {
  "status": "proved",
  "note": "For all n up to 65536 (the products are computed in 32 bits); C62_overflow shows a wrong index for n = 65537."
 },
 "C63": {
  "status": "partial",
  "note": "Proved for packets of which consecutive ones meet GapOk (the later one is not longer, or the earlier one ends at an spp boundary, or the later one starts in the spp in which the earlier one ends). Without it the claim is false: C63_gap_finding, a packet following a shorter one is set as transmitted but lost. C63_announced holds for all packets."
 },
 "C64": {
  "status": "partial",
  "note": "Main loop of the threads with the search at the granularity of steps; arbitrary detections. C64_order_partial is for one thread or for signals without a detection in the last step of a chunk; C64_last_step_finding shows that the restriction is needed: otherwise the thread skips a chunk and the program aborts. C64_jobs holds without restriction."
 },
 "C65": {
  "status": "proved",
  "note": "Metrics and their average are exact rational numbers without NaN; the values of the metric are arbitrary (how they follow from the samples: C40 for the moving sums). Crosscorrelation after the coarse peak is not covered."
 },
 "C66": {
  "status": "proved",
  "note": "all words of the decoder; the turbo code itself is not modelled, its output is arbitrary"
 },
 "C67": {
  "status": "proved",
  "note": "C67_grid with C67_buffer: for all packet configurations of a radio device class and MCS up to 9; MCS 10 and 11 are refused (C67_refused)"
 },
 "C68": {
  "status": "partial",
  "note": "C68_flow_partial: all packets of up to four transmit streams whose last OFDM symbol has no PCC. The statement is false otherwise: C68_short_finding (abort if the last OFDM symbol carries PCC, exactly the packets of C68_short_iff) and C68_eight_finding (abort with eight streams). C68_index: pilots stay inside of the vector."
 },
 "C69": {
  "status": "proved",
  "note": "C69_received (with noise) and C69_exact for all packets with one spatial stream; C69_dead_antenna. Finding: C69_multiplexing_finding, with more than one spatial stream the receiver collects nothing (TODO in the code, outside the property). Estimate of the channel is given; where estimates come from is C68. Exact arithmetic."
 },
 "C70": {
  "status": "partial",
  "note": "All OFDM symbols but the STF of numerologies above 1: proved for every configuration with integer oversampling. For that STF the code copies overlapping ranges with memcpy (C70_stf_finding); C70_stf_partial is the claim for a copy in ascending order. Fractional oversampling in the receiver: C70_rx_dims says exactly when the ends agree."
 },
 "C71": {
  "status": "proved",
  "note": ""
 },
 "C72": {
  "status": "proved",
  "note": "Firmware as compiled by default. With TFW_P2P_MIMO a valid PLCF with a codebook index beyond the matrices of the mode makes the next packet abort (C72_codebook_finding)."
 },
 "C73": {
  "status": "partial",
  "note": "Proved for 1, 2 and 4 streams and antennas. With eight receive antennas (allowed by hw.cpp) or eight streams the estimator aborts (C73_antennas_finding, C73_streams_finding)."
 },
 "C74": {
  "status": "partial",
  "note": "Exact arithmetic, noise and path loss formula not modelled. Reciprocity between two antennas holds if one device has a single antenna (C74_reciprocal_partial) and fails for two devices with several antennas each (C74_reciprocal_finding)."
 },
 "C75": {
  "status": "partial",
  "note": "All proved, for all interleavings, except that the FT can abort in normal operation when its beacon is called for exactly on time (C75_on_time_finding) or cannot be sent. Fairness is a hypothesis; a job is processed in one step."
 },
 "C76": {
  "status": "partial",
  "note": "Windows, aborts and firmware proved; missing: the average is a sum (C76_average_finding), and the assertions of the scan let the window end at a sample not yet received (C76_last_sample_finding), so C76_received_partial assumes that each sample has been published when it is read. Exact arithmetic."
 },
 "C77": {
  "status": "partial",
  "note": "An exception is a signal orthogonal to all templates (C77_orthogonal_finding), and a limit for the number of antennas below the number of templates, not the default (C77_limit_finding)."
 },
 "C78": {
  "status": "partial",
  "note": "Proved: order and content of packets, times, contents of the answer and of a whole round trip, statistics, gain control, identities; no lag and no abort after a quiet start under normal conditions. Refuted: lag, blocking and abort after datagrams during the start, abort for large datagrams, lag without HARQ process, overrun for packets above 2000 bytes, wrong checksums counted (findings)."
 }
}
