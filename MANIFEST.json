{
 "claims": [
  {
   "property": "C01",
   "status": "proved",
   "theorems": [
    "Verif.Feedback.C01_f1_roundtrip",
    "Verif.Feedback.C01_f2_roundtrip",
    "Verif.Feedback.C01_f3_roundtrip",
    "Verif.Feedback.C01_f4_roundtrip",
    "Verif.Feedback.C01_f5_roundtrip",
    "Verif.Feedback.C01_f6_roundtrip",
    "Verif.Feedback.C01_pool_roundtrip",
    "Verif.Feedback.C01_pool_pack_abort",
    "Verif.Feedback.C01_pool_unpack_sound"
   ],
   "note": "All six formats and format 0, for every field value in range and every previous content of the two bytes; out of range aborts; success of unpack implies fields in range. Buffer_Size is recovered as the lower limit of its class."
  },
  {
   "property": "C02",
   "status": "proved",
   "theorems": [
    "Verif.Plcf.C02_p10_roundtrip",
    "Verif.Plcf.C02_p10_abort",
    "Verif.Plcf.C02_p10_sound",
    "Verif.Plcf.C02_p20_roundtrip",
    "Verif.Plcf.C02_p20_abort",
    "Verif.Plcf.C02_p20_sound",
    "Verif.Plcf.C02_p21_roundtrip",
    "Verif.Plcf.C02_p21_abort",
    "Verif.Plcf.C02_p21_sound",
    "Verif.Plcf.C02_header_format"
   ],
   "note": "Types 10, 20, 21 with embedded feedback info; out of range aborts; decoding success implies fields in range."
  },
  {
   "property": "C03",
   "status": "partial",
   "theorems": [
    "Verif.Mac.C03_header_type_roundtrip",
    "Verif.Mac.C03_header_type_abort",
    "Verif.Mac.C03_header_type_sound",
    "Verif.Mac.C03_escape_refused",
    "Verif.Mac.C03_mch_roundtrip_partial",
    "Verif.Mac.C03_mch_abort",
    "Verif.Mac.C03_beacon_negation",
    "Verif.Mac.C03_beacon_collision",
    "Verif.Mac.C03_mch_total",
    "Verif.Mac.C03_mch_sound"
   ],
   "note": "Header type octet, data, unicast, RD broadcasting and empty headers round trip. The claim is false for the beacon header: C03_beacon_negation, C03_beacon_collision (low byte of the network ID is lost); the escape type is packed but never accepted (C03_escape_refused)."
  },
  {
   "property": "C04",
   "status": "proved",
   "theorems": [
    "Verif.Mac.C04_pack",
    "Verif.Mac.C04_abort",
    "Verif.Mac.C04_unpack_first",
    "Verif.Mac.C04_unassigned",
    "Verif.Mac.C04_roundtrip",
    "Verif.Mac.C04_sound",
    "Verif.Mac.C04_reads"
   ],
   "note": "Every extension form and length; out of range aborts; the receiver reads exactly the announced octets and recognises exactly the assigned codes of the activated elements."
  },
  {
   "property": "C05",
   "status": "proved",
   "theorems": [
    "Verif.Mac.C05_padding_ie",
    "Verif.Mac.C05_fill",
    "Verif.Mac.C05_least",
    "Verif.Mac.C05_recognised"
   ],
   "note": "Every free space is filled exactly with padding elements the decoder recognises, with the least number of elements."
  },
  {
   "property": "C06",
   "status": "proved",
   "theorems": [
    "Verif.Mac.C06_chunks",
    "Verif.Mac.C06_done_twice"
   ],
   "note": "All blocks, all arrival schedules: the state after the last byte equals that of a single call. Side result: a further call after DONE aborts (C06_done_twice); the caller never makes one."
  },
  {
   "property": "C07",
   "status": "proved",
   "theorems": [
    "Verif.Mac.C07_total"
   ],
   "note": "Assertion-free, terminating, no read of unwritten bytes, valid final state, delivered elements distinct and within range, for every block and schedule."
  },
  {
   "property": "C08",
   "status": "proved",
   "theorems": [
    "Verif.Mac.C08_roundtrip",
    "Verif.Mac.C08_arrives_unique",
    "Verif.Mac.C08_all_arrive",
    "Verif.Mac.C08_out_of_range_aborts"
   ],
   "note": "Header type, common header, elements in order for every arrival schedule. The beacon header is recovered without the low byte of the network ID (finding in C03); elements from the first one beyond the receiver's pool are dropped (C08_roundtrip with Arrives)."
  },
  {
   "property": "C09",
   "status": "proved",
   "theorems": [
    "Verif.Mac.C09_pack",
    "Verif.Mac.C09_roundtrip",
    "Verif.Mac.C09_abort",
    "Verif.Mac.C09_total",
    "Verif.Mac.C09_mu_matters"
   ],
   "note": "Round trip, abort out of range, receiver total on every byte string; sender and receiver must use the same mu (C09_mu_matters)."
  },
  {
   "property": "C10",
   "status": "partial",
   "theorems": [
    "Verif.Mac.C10_pack",
    "Verif.Mac.C10_recovered_partial",
    "Verif.Mac.C10_roundtrip_partial",
    "Verif.Mac.C10_abort",
    "Verif.Mac.C10_total",
    "Verif.Mac.C10_negation",
    "Verif.Mac.C10_power_negation"
   ],
   "note": "The claim is false for messages with channel 1 or 2 but not channel 0 (C10_negation); C10_recovered_partial says exactly what is recovered. The conversion from dBm is wrong for every argument (C10_power_negation)."
  },
  {
   "property": "C11",
   "status": "proved",
   "theorems": [
    "Verif.Mac.C11_power",
    "Verif.Mac.C11_power_abort",
    "Verif.Mac.C11_power_total",
    "Verif.Mac.C11_power_dbm",
    "Verif.Mac.C11_power_sign",
    "Verif.Mac.C11_time",
    "Verif.Mac.C11_time_abort",
    "Verif.Mac.C11_time_total",
    "Verif.Mac.C11_set_time"
   ],
   "note": "Time announce and power target: layout, round trip, abort out of range, receiver total. The requested power is transferred with an error of at most half a dB; its sign is ignored (C11_power_sign)."
  },
  {
   "property": "C12",
   "status": "partial",
   "theorems": [
    "Verif.Mac.C12_pack",
    "Verif.Mac.C12_pack_abort",
    "Verif.Mac.C12_recovered_partial",
    "Verif.Mac.C12_roundtrip_partial",
    "Verif.Mac.C12_receive_partial",
    "Verif.Mac.C12_negation",
    "Verif.Mac.C12_abort_negation",
    "Verif.Mac.C12_abort_duplicate"
   ],
   "note": "The claim is false: the network beacon period of an FT configuration is always received as code 0 (C12_negation) and any message with a field out of range, without flows or with a repeated flow aborts the receiver (C12_abort_negation). Exact characterisations: C12_recovered_partial, C12_receive_partial."
  },
  {
   "property": "C13",
   "status": "proved",
   "theorems": [
    "Verif.App.C13_bounded_fifo",
    "Verif.App.C13_empty_datagram",
    "Verif.App.C13_single_slot",
    "Verif.App.C13_no_overrun",
    "Verif.App.C13_linearizable"
   ],
   "note": "The queue is a bounded FIFO for every call sequence and every thread schedule. Also shown: a zero-byte datagram is queued although the call reports 0, and a queue configured with one slot refuses everything."
  },
  {
   "property": "C14",
   "status": "proved",
   "theorems": [
    "Verif.Adt.C14_partial_map",
    "Verif.Adt.C14_one_to_one",
    "Verif.Adt.C14_range"
   ],
   "note": "Every call sequence is a run of a partial map with both sides unique."
  },
  {
   "property": "C15",
   "status": "proved",
   "theorems": [
    "Verif.Adt.C15_run",
    "Verif.Adt.C15_due_times",
    "Verif.Adt.C15_run_succeeds",
    "Verif.Adt.C15_skip_aborts",
    "Verif.Adt.C15_add"
   ],
   "note": "Every run calls exactly the due entries once in due order; periodic callbacks are called at exactly their due times over any history; a run a whole period late aborts. rm_callback cannot be instantiated and is not modelled."
  },
  {
   "property": "C16",
   "status": "proved",
   "theorems": [
    "Verif.Phy.C16_naive_fifo",
    "Verif.Phy.C16_naive_available",
    "Verif.Phy.C16_naive_capacity",
    "Verif.Phy.C16_naive_impermeable",
    "Verif.Phy.C16_mc_fifo",
    "Verif.Phy.C16_gapless"
   ],
   "note": "All interleavings of producers and consumers. job_queue_naive_t in full; for job_queue_mc_t, the one in use, the third-party concurrent queue is trusted to be FIFO for one producer token."
  },
  {
   "property": "C17",
   "status": "proved",
   "theorems": [
    "Verif.Phy.C17_earliest_first",
    "Verif.Phy.C17_exactly_once"
   ],
   "note": "Every operation sequence behaves as an earliest-first collection of at most 8 requests; aborts exactly on refused operations."
  },
  {
   "property": "C18",
   "status": "proved",
   "theorems": [
    "Verif.Phy.Token.C18_exclusive",
    "Verif.Phy.Token.C18_order",
    "Verif.Phy.Token.C18_no_abort",
    "Verif.Phy.Token.C18_no_deadlock"
   ],
   "note": "All interleavings of any number of threads over up to 4 pools: exclusion, order, no failing assert, and from every state all jobs taken can be completed."
  },
  {
   "property": "C19",
   "status": "proved",
   "theorems": [
    "Verif.Phy.Baton.C19_start_time",
    "Verif.Phy.Baton.C19_report_once",
    "Verif.Phy.Baton.C19_waits_for_all",
    "Verif.Phy.Baton.C19_registration_bounded",
    "Verif.Phy.Baton.C19_token_busy_aborts",
    "Verif.Phy.Baton.C19_first_chunk",
    "Verif.Phy.Baton.C19_exclusive",
    "Verif.Phy.Baton.C19_rotation",
    "Verif.Phy.Baton.C19_chunks_in_order",
    "Verif.Phy.Baton.C19_no_abort",
    "Verif.Phy.Baton.C19_sync_times",
    "Verif.Phy.Baton.C19_dropped_only_doubles",
    "Verif.Phy.Baton.C19_regular",
    "Verif.Phy.Baton.C19_never_lost"
   ],
   "note": "Registration and rotation as transition systems over any number of threads; the search within a chunk is one step that stays in the chunk (C64 models it and shows where the code leaves the chunk too early). C19_token_busy_aborts records the finding that the start aborts if another pool holds the token at that moment."
  },
  {
   "property": "C20",
   "status": "proved",
   "theorems": [
    "Verif.Phy.HarqPool.C20_exclusive",
    "Verif.Phy.HarqPool.C20_in_use_locked",
    "Verif.Phy.HarqPool.C20_no_abort",
    "Verif.Phy.HarqPool.C20_recycled_clean",
    "Verif.Phy.HarqPool.C20_rv_order",
    "Verif.Phy.HarqPool.C20_fails_only_if_full",
    "Verif.Phy.HarqPool.C20_retrieval_race"
   ],
   "note": "Lock operations interleaved at the granularity of atomics. Condition on retrievals is the predicate Disciplined; C20_retrieval_race shows that it is needed: with keep_running_or_reset_and_terminate_if_crc_correct a retrieval during termination leads to two owners."
  },
  {
   "property": "C21",
   "status": "proved",
   "theorems": [
    "Verif.Radio.BufferTx.C21_exclusive",
    "Verif.Radio.BufferTx.C21_tx_exclusive",
    "Verif.Radio.BufferTx.C21_no_abort",
    "Verif.Radio.BufferTx.C21_packet_intact",
    "Verif.Radio.BufferTx.C21_order",
    "Verif.Radio.BufferTx.C21_in_sequence",
    "Verif.Radio.BufferTx.C21_no_lost_wakeup",
    "Verif.Radio.BufferTx.C21_announced_is_found",
    "Verif.Radio.BufferTx.C21_counter",
    "Verif.Radio.BufferTx.C21_example",
    "Verif.Radio.BufferTx.C21_delayed_wakeup",
    "Verif.Radio.BufferTx.C21_simulator_reads_released"
   ],
   "note": "Interleavings at the granularity of atomics and mutex sections, any number of producers and buffers. Findings: C21_delayed_wakeup (an announced packet may have to wait for the delayed increment of an already transmitted one), C21_simulator_reads_released (hw_simulator.cpp reads the next order number after releasing the buffer)."
  },
  {
   "property": "C22",
   "status": "proved",
   "theorems": [
    "Verif.Radio.BufferRx.C22_window",
    "Verif.Radio.BufferRx.C22_published_not_ahead",
    "Verif.Radio.BufferRx.C22_in_bounds",
    "Verif.Radio.BufferRx.C22_jitter",
    "Verif.Radio.BufferRx.C22_notified",
    "Verif.Radio.BufferRx.C22_wait",
    "Verif.Radio.BufferRx.C22_wait_returns",
    "Verif.Radio.BufferRx.C22_wait_one_more",
    "Verif.Radio.BufferRx.C22_example",
    "Verif.Radio.BufferRx.C22_jump_misplaced",
    "Verif.Radio.BufferRx.C22_jump_back_silent"
   ],
   "note": "Also for histories with time jumps (base = end of the first block after a jump). Findings: C22_jump_misplaced, C22_jump_back_silent, C22_wait_one_more."
  },
  {
   "property": "C23",
   "status": "proved",
   "theorems": [
    "Verif.Phy.RxPacer.C23_filter",
    "Verif.Phy.RxPacer.C23_resample",
    "Verif.Phy.RxPacer.C23_request_served",
    "Verif.Phy.RxPacer.C23_request_returns",
    "Verif.Phy.RxPacer.C23_example",
    "Verif.Phy.RxPacer.C23_resample_example"
   ],
   "note": "Filtering and resampling paths for one antenna stream; the samples are at their ring index while a unit is read (C22). Real-time lag is not modelled."
  },
  {
   "property": "C24",
   "status": "proved",
   "theorems": [
    "Verif.Sp3.C24_segmentation",
    "Verif.Sp3.C24_example",
    "Verif.Sp3.C24_whole_bytes",
    "Verif.Sp3.C24_packet_total",
    "Verif.Sp3.C24_packet",
    "Verif.Sp3.C24_refused",
    "Verif.Sp3.C24_no_overflow"
   ],
   "note": "All packet configurations in the asserted ranges; no filler bits except for 8 bit transport blocks, which are refused; no 32-bit overflow."
  },
  {
   "property": "C25",
   "status": "proved",
   "theorems": [
    "Verif.Sp3.C25_monotone_bits",
    "Verif.Sp3.C25_monotone",
    "Verif.Sp3.C25_monotone_mcs",
    "Verif.Sp3.C25_example"
   ],
   "note": "Monotone in payload bits, streams, subcarriers, bits per symbol and MCS index."
  },
  {
   "property": "C26",
   "status": "proved",
   "theorems": [
    "Verif.Sp3.C26_maximum_bounds",
    "Verif.Sp3.C26_pdc_subc_negation",
    "Verif.Sp3.C26_example",
    "Verif.Sp3.C26_class_rejected"
   ],
   "note": "All radio device classes for which the maximum is determined. Findings: C26_pdc_subc_negation (subcarriers per stream are not bounded, unused), C26_class_rejected."
  },
  {
   "property": "C27",
   "status": "partial",
   "theorems": [
    "Verif.Phy.Fec.C27_windows_partial",
    "Verif.Phy.Fec.C27_disjoint",
    "Verif.Phy.Fec.C27_negation",
    "Verif.Phy.Fec.C27_end_to_end",
    "Verif.Phy.Fec.C27_example_packet",
    "Verif.Phy.Fec.C27_example_fits",
    "Verif.Phy.Fec.C27_example",
    "Verif.Phy.Fec.C27_encoder",
    "Verif.Phy.Fec.C27_input"
   ],
   "note": "The windows of the encoder are proved; the decoder leaves out the last symbol of the first longer code block (C27_negation), everything else agrees."
  },
  {
   "property": "C28",
   "status": "proved",
   "theorems": [
    "Verif.Phy.Fec.C28_encoder_total",
    "Verif.Phy.Fec.C28_pieces",
    "Verif.Phy.Fec.C28_final",
    "Verif.Phy.Fec.C28_latency",
    "Verif.Phy.Fec.C28_decoder"
   ],
   "note": "Encoder for every sequence of requests, decoder for every division of the soft bits into symbols. Single precision arithmetic is an arbitrary correct rounding."
  },
  {
   "property": "C29",
   "status": "partial",
   "theorems": [
    "Verif.Phy.Fec.C29_example",
    "Verif.Phy.Fec.C29_transmission",
    "Verif.Phy.Fec.C29_reset",
    "Verif.Phy.Fec.C29_history_partial",
    "Verif.Phy.Fec.C29_iterations",
    "Verif.Phy.Fec.C29_correct",
    "Verif.Phy.Fec.C29_correct_fresh",
    "Verif.Phy.Fec.C29_kept",
    "Verif.Phy.Fec.C29_anew",
    "Verif.Phy.Fec.C29_negation_keep_running",
    "Verif.Phy.Fec.C29_negation_memory"
   ],
   "note": "Proved for every history in which the process is not kept running after a correct transmission; otherwise false (C29_negation_keep_running)."
  },
  {
   "property": "C30",
   "status": "proved",
   "theorems": [
    "Verif.Sp3.Cells.C30_streams",
    "Verif.Sp3.Cells.C30_drs_occupied",
    "Verif.Sp3.Cells.C30_cells",
    "Verif.Sp3.Cells.C30_example"
   ],
   "note": "tables, state machines and loops of drs.cpp, pcc.cpp, pdc.cpp and the symbol loop of tx.cpp modelled; holds for every packet accepted by get_packet_sizes"
  },
  {
   "property": "C31",
   "status": "proved",
   "theorems": [
    "Verif.Sp3.Duration.C31_duration",
    "Verif.Sp3.Duration.C31_lut",
    "Verif.Sp3.Duration.C31_lut_exists",
    "Verif.Sp3.Duration.C31_from_duration",
    "Verif.Sp3.Duration.C31_from_subslots",
    "Verif.Sp3.Duration.C31_ns",
    "Verif.Sp3.Duration.C31_us",
    "Verif.Sp3.Duration.C31_full_seconds",
    "Verif.Sp3.Duration.C31_negation_negative_time",
    "Verif.Sp3.Duration.C31_in_second",
    "Verif.Sp3.Duration.C31_packet_length",
    "Verif.Sp3.Duration.C31_packet_length_max",
    "Verif.Sp3.Duration.C31_example",
    "Verif.Sp3.Duration.C31_example_packet"
   ],
   "note": "negative times, for which the last full second is rounded up, are shown in C31_negation_negative_time"
  },
  {
   "property": "C32",
   "status": "proved",
   "theorems": [
    "Verif.Props.C32.C32_add",
    "Verif.Props.C32.C32_resources",
    "Verif.Props.C32.C32_negation_directions",
    "Verif.Props.C32.C32_example"
   ],
   "note": "resources of different directions may overlap: C32_negation_directions"
  },
  {
   "property": "C33",
   "status": "partial",
   "theorems": [
    "Verif.Props.C33.C33_opportunity_is_resource",
    "Verif.Props.C33.C33_tx_opportunity_partial",
    "Verif.Props.C33.C33_rejected",
    "Verif.Props.C33.C33_negation_not_earliest",
    "Verif.Props.C33.C33_negation_missed",
    "Verif.Props.C33.C33_closest",
    "Verif.Props.C33.C33_example"
   ],
   "note": "proved for resources added in order of time; false for other orders: C33_negation_not_earliest, C33_negation_missed"
  },
  {
   "property": "C34",
   "status": "proved",
   "theorems": [
    "Verif.Props.C34.C34_pll_constructor",
    "Verif.Props.C34.C34_pll_periods",
    "Verif.Props.C34.C34_pll",
    "Verif.Props.C34.C34_pll_measure",
    "Verif.Props.C34.C34_pll_reset",
    "Verif.Props.C34.C34_pll_example",
    "Verif.Props.C34.C34_beacons",
    "Verif.Props.C34.C34_deviation",
    "Verif.Props.C34.C34_odd_raster",
    "Verif.Props.C34.C34_pulse",
    "Verif.Props.C34.C34_first_edge",
    "Verif.Props.C34.C34_constructor_edge",
    "Verif.Props.C34.C34_imminent",
    "Verif.Props.C34.C34_example"
   ],
   "note": "arithmetic of the moving average is exact, rounding of double is not modelled"
  },
  {
   "property": "C35",
   "status": "partial",
   "theorems": [
    "Verif.Props.C35.C35_frequency",
    "Verif.Props.C35.C35_in_range",
    "Verif.Props.C35.C35_injective",
    "Verif.Props.C35.C35_operating_band",
    "Verif.Props.C35.C35_operating_band_rejected",
    "Verif.Props.C35.C35_negation_undefined_band",
    "Verif.Props.C35.C35_channels_partial",
    "Verif.Props.C35.C35_example"
   ],
   "note": "all but the rejection of undefined bands, which are taken for band 19: C35_negation_undefined_band"
  },
  {
   "property": "C36",
   "status": "proved",
   "theorems": [
    "Verif.Props.C36.C36_call",
    "Verif.Props.C36.C36_contact_list",
    "Verif.Props.C36.C36_unknown",
    "Verif.Props.C36.C36_example"
   ],
   "note": "Refinement of a list of contacts for every sequence of additions and changes of entries; exact rejection conditions."
  },
  {
   "property": "C37",
   "status": "partial",
   "theorems": [
    "Verif.Identity.C37_short_network_id_partial",
    "Verif.Identity.C37_constructor",
    "Verif.Identity.C37_negation",
    "Verif.Identity.C37_short_rd_id_negation"
   ],
   "note": "The claim is false: C37_negation. The exact condition (low byte not zero) is C37_short_network_id_partial."
  },
  {
   "property": "C38",
   "status": "proved",
   "theorems": [
    "Verif.BitByte.C38_lower",
    "Verif.BitByte.C38_upper",
    "Verif.BitByte.C38_lower_reverse",
    "Verif.BitByte.C38_upper_reverse",
    "Verif.BitByte.C38_too_many",
    "Verif.BitByte.C38_bitmask",
    "Verif.BitByte.C38_bitmask_lsb_msb",
    "Verif.BitByte.C38_bitmask64_ub"
   ],
   "note": "Any word size, any byte count, any buffer and offset. bitmask beyond 32 bits is undefined behaviour (C38_bitmask64_ub)."
  },
  {
   "property": "C39",
   "status": "partial",
   "theorems": [
    "Verif.Sp3.Scrambling.C39_range_partial",
    "Verif.Sp3.Scrambling.C39_involution",
    "Verif.Sp3.Scrambling.C39_short",
    "Verif.Sp3.Scrambling.C39_negation",
    "Verif.Sp3.Scrambling.C39_example"
   ],
   "note": "False as stated for ranges inside one byte and for bits behind the range in the last byte (C39_negation); proved for the ranges the encoder uses."
  },
  {
   "property": "C40",
   "status": "proved",
   "theorems": [
    "Verif.Props.C40.C40_accepted",
    "Verif.Props.C40.C40_correlation",
    "Verif.Props.C40.C40_from_reset",
    "Verif.Props.C40.C40_plain",
    "Verif.Props.C40.C40_front_back",
    "Verif.Props.C40.C40_negation_front",
    "Verif.Props.C40.C40_example"
   ],
   "note": "Exact arithmetic (any commutative ring); every cover sequence, repetition, register content and interleaving of pushes and recomputation. Finding: get_sum_front/get_sum_back are off by one element (C40_negation_front)."
  },
  {
   "property": "C41",
   "status": "proved",
   "theorems": [
    "Verif.Props.C41.C41_round_robin",
    "Verif.Props.C41.C41_once_per_round",
    "Verif.Props.C41.C41_at_most",
    "Verif.Props.C41.C41_waiting",
    "Verif.Props.C41.C41_configuration",
    "Verif.Props.C41.C41_step",
    "Verif.Props.C41.C41_limits",
    "Verif.Props.C41.C41_receiver",
    "Verif.Props.C41.C41_sensitivity",
    "Verif.Props.C41.C41_example"
   ],
   "note": "Exact arithmetic. Round robin for every sequence of calls; exact configurations accepted; quantised steps; receiver gain control in both modes."
  },
  {
   "property": "C42",
   "status": "proved",
   "theorems": [
    "Verif.Feedback.C42_buffer_status",
    "Verif.Feedback.C42_buffer_limits",
    "Verif.Feedback.C42_buffer_monotone",
    "Verif.Feedback.C42_relay_drift",
    "Verif.Feedback.C42_cqi",
    "Verif.Plcf.C42_tx_power",
    "Verif.Plcf.C42_tx_power_monotone",
    "Verif.Plcf.C42_nss",
    "Verif.Plcf.C42_nss_unsupported"
   ],
   "note": "Includes the finding that relayed buffer classes drift down and that unsupported stream counts are coded as one stream."
  },
  {
   "property": "C43",
   "status": "proved",
   "theorems": [
    "Verif.Plcf.C43_type1",
    "Verif.Plcf.C43_type2",
    "Verif.Plcf.C43_abort",
    "Verif.Plcf.C43_has_any"
   ],
   "note": "Both directions: accepted implies within limits, within limits implies accepted."
  },
  {
   "property": "C44",
   "status": "proved",
   "theorems": [
    "Verif.Props.C44.C44_points",
    "Verif.Props.C44.C44_weights",
    "Verif.Props.C44.C44_achievable",
    "Verif.Props.C44.C44_power",
    "Verif.Props.C44.C44_hardware",
    "Verif.Props.C44.C44_finding_not_ascending",
    "Verif.Props.C44.C44_finding_jump",
    "Verif.Props.C44.C44_example"
   ],
   "note": "Points and weights for every rounding function (monotone, exact at 0 and 1); sums and achievable gains in exact arithmetic; all calibration tables of the code checked. Findings: tables not ascending."
  },
  {
   "property": "C45",
   "status": "proved",
   "theorems": [
    "Verif.Mac.C45_release",
    "Verif.Mac.C45_release_abort",
    "Verif.Mac.C45_release_total",
    "Verif.Mac.C45_status",
    "Verif.Mac.C45_status_abort",
    "Verif.Mac.C45_status_total",
    "Verif.Mac.C45_route",
    "Verif.Mac.C45_route_abort",
    "Verif.Mac.C45_route_total",
    "Verif.Mac.C45_security",
    "Verif.Mac.C45_security_abort",
    "Verif.Mac.C45_security_total"
   ],
   "note": "Association release, radio device status, route info, MAC security info: layout, size, round trip, abort out of range, receiver total. The configuration request has no content."
  },
  {
   "property": "C46",
   "status": "partial",
   "theorems": [
    "Verif.Mac.C46_partial",
    "Verif.Mac.C46_negation"
   ],
   "note": "Refuted as documented: a common header that does not fit leaves a non-null pointer to fields never read (C46_negation). C46_partial gives the exact behaviour for all blocks and schedules."
  },
  {
   "property": "C47",
   "status": "proved",
   "theorems": [
    "Verif.Phy.Resampler.C47_unrolled",
    "Verif.Phy.Resampler.C47_blocks",
    "Verif.Phy.Resampler.C47_short_block_aborts",
    "Verif.Phy.Resampler.C47_final",
    "Verif.Phy.Resampler.C47_total_count",
    "Verif.Phy.Resampler.C47_block_bound",
    "Verif.Phy.Resampler.C47_unrolled_tables",
    "Verif.Phy.Resampler.C47_unrolled_impl",
    "Verif.Phy.Resampler.C47_example"
   ],
   "note": "Dot products abstract; one antenna stream. Filter coefficients (Kaiser window) not modelled."
  },
  {
   "property": "C48",
   "status": "proved",
   "theorems": [
    "Verif.Props.C48.C48_allocation",
    "Verif.Props.C48.C48_exclusive",
    "Verif.Props.C48.C48_sorted",
    "Verif.Props.C48.C48_identities",
    "Verif.Props.C48.C48_configurations",
    "Verif.Props.C48.C48_example"
   ],
   "note": "For every multiple of 12 kHz below 2^32 as sample rate; the layout is exclusive, sorted and within the period, or the constructor aborts. Three terminals with two resources abort."
  },
  {
   "property": "C49",
   "status": "proved",
   "theorems": [
    "Verif.Props.C49.C49_schedule",
    "Verif.Props.C49.C49_usable",
    "Verif.Props.C49.C49_finding_first",
    "Verif.Props.C49.C49_finding_starved",
    "Verif.Props.C49.C49_finding_starved_example",
    "Verif.Props.C49.C49_example"
   ],
   "note": "Findings proved beside it: an application event before the first beacon overflows a signed addition (undefined behaviour), and a first contact without opportunity leaves all other contacts unserved."
  },
  {
   "property": "C50",
   "status": "proved",
   "theorems": [
    "Verif.Props.C50.C50_schedule",
    "Verif.Props.C50.C50_silent",
    "Verif.Props.C50.C50_usable",
    "Verif.Props.C50.C50_no_collision",
    "Verif.Props.C50.C50_network",
    "Verif.Props.C50.C50_example"
   ],
   "note": "Times of different devices are compared on one clock without propagation delay; a beacon from the future aborts the program."
  },
  {
   "property": "C51",
   "status": "proved",
   "theorems": [
    "Verif.P2p.C51_send",
    "Verif.P2p.C51_transfer",
    "Verif.P2p.C51_stream",
    "Verif.P2p.C51_finding_blocked",
    "Verif.P2p.C51_finding_mtu",
    "Verif.P2p.C51_finding_remote_abort",
    "Verif.P2p.C51_example"
   ],
   "note": "C51_send (greatest number of datagrams that fits, nothing lost), C51_transfer (queue to queue through encoder and decoder), C51_stream (any number of packets). Findings: a datagram larger than the transport block blocks the queue for ever (C51_finding_blocked; sizes in use: C51_finding_mtu), a received datagram larger than the client's buffers aborts the receiver (C51_finding_remote_abort)."
  },
  {
   "property": "C52",
   "status": "proved",
   "theorems": [
    "Verif.App.Client.C52_fifo",
    "Verif.App.Client.C52_no_lost_wakeup",
    "Verif.App.Client.C52_never_aborts",
    "Verif.App.Client.C52_progress",
    "Verif.App.Client.C52_stop",
    "Verif.App.Client.C52_finding_aborts",
    "Verif.App.Client.C52_example"
   ],
   "note": "C52_fifo, C52_no_lost_wakeup for any number of connections; C52_never_aborts, C52_progress for one connection. Finding: C52_finding_aborts for two or more connections (a negative counter is read as unsigned)."
  },
  {
   "property": "C53",
   "status": "partial",
   "theorems": [
    "Verif.Mac.C53_pack_partial",
    "Verif.Mac.C53_emitted",
    "Verif.Mac.C53_abort",
    "Verif.Mac.C53_finding_sender",
    "Verif.Mac.C53_roundtrip_partial",
    "Verif.Mac.C53_release",
    "Verif.Mac.C53_receive_partial",
    "Verif.Mac.C53_firmware",
    "Verif.Mac.C53_finding_firmware",
    "Verif.Mac.C53_example",
    "Verif.Mac.C53_negation",
    "Verif.Mac.C53_finding_receiver"
   ],
   "note": "Proved for every IE with repetition and both directions and for releases; the code aborts in sender and receiver for every IE with one direction only or without repetition (value() of an empty optional), stated exactly in C53_abort, C53_finding_sender, C53_finding_receiver, C53_negation. What the fixed point sends is decodable and translates back to the same allocation (C53_firmware)."
  },
  {
   "property": "C54",
   "status": "partial",
   "theorems": [
    "Verif.Mac.C54_finding_peek",
    "Verif.Mac.C54_pack_partial",
    "Verif.Mac.C54_abort",
    "Verif.Mac.C54_receive_standard",
    "Verif.Mac.C54_roundtrip_partial",
    "Verif.Mac.C54_finding_receiver",
    "Verif.Mac.C54_receive_partial",
    "Verif.Mac.C54_example",
    "Verif.Mac.C54_negation"
   ],
   "note": "Round trip proved for every IE with repetition and without SFN offset and channel; otherwise the code aborts: the size derived from the first octets is 3 too large with SFN offset and 2 too large with a channel (C54_finding_peek), and without repetition value() of an empty optional throws. Received bytes in the standard's layout are decoded correctly (C54_receive_standard)."
  },
  {
   "property": "C55",
   "status": "partial",
   "theorems": [
    "Verif.Mac.C55_finding_peek",
    "Verif.Mac.C55_receive",
    "Verif.Mac.C55_reject_partial",
    "Verif.Mac.C55_finding_sender",
    "Verif.Mac.C55_finding_accept_as_reject",
    "Verif.Mac.C55_negation",
    "Verif.Mac.C55_example_abort"
   ],
   "note": "False of the code for acceptances: the test ~byte >> 7 is nonzero for every byte (C55_finding_peek), so an acceptance aborts the sender, except the acceptance of exactly one flow, which is received as a rejection (C55_finding_sender, C55_finding_accept_as_reject, C55_negation). Rejections round trip (C55_reject_partial), reception of arbitrary bytes is characterised exactly (C55_receive)."
  },
  {
   "property": "C56",
   "status": "partial",
   "theorems": [
    "Verif.Mac.C56_request_pack_partial",
    "Verif.Mac.C56_request_abort",
    "Verif.Mac.C56_request_roundtrip_partial",
    "Verif.Mac.C56_request_receive",
    "Verif.Mac.C56_request_finding_receiver",
    "Verif.Mac.C56_response_pack_partial",
    "Verif.Mac.C56_response_finding_sender",
    "Verif.Mac.C56_response_abort_flows",
    "Verif.Mac.C56_response_roundtrip_partial",
    "Verif.Mac.C56_response_receive",
    "Verif.Mac.C56_example",
    "Verif.Mac.C56_negation"
   ],
   "note": "False of the code unless both HARQ configurations are present: is_valid calls value() on an empty optional and throws in sender and receiver (C56_request_abort, C56_request_finding_receiver, C56_response_finding_sender, C56_negation). With both present the round trip is proved for every flow list (C56_request_roundtrip_partial, C56_response_roundtrip_partial), and reception of arbitrary bytes is characterised."
  },
  {
   "property": "C57",
   "status": "partial",
   "theorems": [
    "Verif.Mac.C57_pack",
    "Verif.Mac.C57_abort",
    "Verif.Mac.C57_roundtrip",
    "Verif.Mac.C57_receive",
    "Verif.Mac.C57_gain",
    "Verif.Mac.C57_group_body_partial",
    "Verif.Mac.C57_finding_group",
    "Verif.Mac.C57_negation",
    "Verif.Mac.C57_example"
   ],
   "note": "Proved in full for the RD capability IE. Group assignment: the body round trips (C57_group_body_partial), but no group assignment IE can be sent, because nothing ever sets the extension field of its multiplexing header and packing it aborts (C57_finding_group, C57_negation)."
  },
  {
   "property": "C58",
   "status": "partial",
   "theorems": [
    "Verif.Mac.C58_load_finding_peek",
    "Verif.Mac.C58_load_pack_partial",
    "Verif.Mac.C58_load_abort",
    "Verif.Mac.C58_load_receive_standard",
    "Verif.Mac.C58_load_roundtrip_partial",
    "Verif.Mac.C58_load_receive",
    "Verif.Mac.C58_measurement_finding_peek",
    "Verif.Mac.C58_measurement_pack_partial",
    "Verif.Mac.C58_measurement_abort",
    "Verif.Mac.C58_measurement_receive_standard",
    "Verif.Mac.C58_measurement_roundtrip_partial",
    "Verif.Mac.C58_measurement_receive",
    "Verif.Mac.C58_example",
    "Verif.Mac.C58_negation"
   ],
   "note": "False of the code for a load of portable points or of the random access channel and for a transmission count: the size found by peeking is too large (C58_load_finding_peek, C58_measurement_finding_peek), the sender aborts (C58_load_pack_partial, C58_measurement_pack_partial, exact; C58_negation). All other IEs round trip; reception of arbitrary octets is proved in full (C58_load_receive, C58_measurement_receive)."
  },
  {
   "property": "C59",
   "status": "partial",
   "theorems": [
    "Verif.Mac.C59_pack",
    "Verif.Mac.C59_abort",
    "Verif.Mac.C59_roundtrip_partial",
    "Verif.Mac.C59_finding_mcs",
    "Verif.Mac.C59_finding_mimo",
    "Verif.Mac.C59_receive",
    "Verif.Mac.C59_example",
    "Verif.Mac.C59_negation"
   ],
   "note": "Packing proved in full (C59_pack). False of the code for feedback: the receiver does not shift the field FEEDBACK, an MCS feedback is received as a codebook index or aborts (C59_finding_mcs, exact; C59_negation), every MIMO feedback aborts (C59_finding_mimo). Pagings and responses without feedback round trip (C59_roundtrip_partial), reception of arbitrary octets is characterised (C59_receive)."
  },
  {
   "property": "C60",
   "status": "partial",
   "theorems": [
    "Verif.Mac.C60_finding_peek",
    "Verif.Mac.C60_finding_sender",
    "Verif.Mac.C60_receive_standard_partial",
    "Verif.Mac.C60_example",
    "Verif.Mac.C60_negation"
   ],
   "note": "False of the code: no neighbouring IE can be sent at all (C60_finding_sender). What becomes of an IE in the layout of the standard is stated exactly in C60_receive_standard_partial: received correctly only with a radio device class and a network beacon period of 50 ms."
  },
  {
   "property": "C61",
   "status": "partial",
   "theorems": [
    "Verif.Sim.C61_no_assert_fails",
    "Verif.Sim.C61_lockstep",
    "Verif.Sim.C61_times",
    "Verif.Sim.C61_no_deadlock",
    "Verif.Sim.C61_everybody_gets_on_partial",
    "Verif.Sim.C61_stop_finding",
    "Verif.Sim.C61_stop_partial",
    "Verif.Sim.C61_refused",
    "Verif.Sim.C61_stop_witness"
   ],
   "note": "Full statement kept in properties.jsonl. Proved for any number of devices and any schedule: no assert fails, lockstep, times, no deadlock while running, progress of everybody (C61_everybody_gets_on_partial). Missing because false: ending after stop. C61_stop_finding shows that a TX thread in the middle of a packet never ends once an RX thread has stopped without reading; C61_stop_witness reaches such a state."
  },
  {
   "property": "C62",
   "status": "proved",
   "theorems": [
    "Verif.Sim.C62_edge_of_pair",
    "Verif.Sim.C62_all_edges",
    "Verif.Sim.C62_equal_aborts",
    "Verif.Sim.C62_overflow"
   ],
   "note": "For all n up to 65536 (the products are computed in 32 bits); C62_overflow shows a wrong index for n = 65537."
  },
  {
   "property": "C63",
   "status": "partial",
   "theorems": [
    "Verif.SimTx.C63_sent_partial",
    "Verif.SimTx.C63_silence_partial",
    "Verif.SimTx.C63_disjoint_partial",
    "Verif.SimTx.C63_asserts_partial",
    "Verif.SimTx.C63_announced",
    "Verif.SimTx.C63_announced_range",
    "Verif.SimTx.C63_gap_finding"
   ],
   "note": "Proved for packets of which consecutive ones meet GapOk (the later one is not longer, or the earlier one ends at an spp boundary, or the later one starts in the spp in which the earlier one ends). Without it the claim is false: C63_gap_finding, a packet following a shorter one is set as transmitted but lost. C63_announced holds for all packets."
  },
  {
   "property": "C64",
   "status": "partial",
   "theorems": [
    "Verif.Phy.SyncWorker.C64_order_partial",
    "Verif.Phy.SyncWorker.C64_jobs",
    "Verif.Phy.SyncWorker.C64_last_step_finding"
   ],
   "note": "Main loop of the threads with the search at the granularity of steps; arbitrary detections. C64_order_partial is for one thread or for signals without a detection in the last step of a chunk; C64_last_step_finding shows that the restriction is needed: otherwise the thread skips a chunk and the program aborts. C64_jobs holds without restriction."
  },
  {
   "property": "C65",
   "status": "proved",
   "theorems": [
    "Verif.Props.C65.C65_safe",
    "Verif.Props.C65.C65_reports",
    "Verif.Props.C65.C65_end",
    "Verif.Props.C65.C65_step",
    "Verif.Props.C65.C65_example",
    "Verif.Props.C65.C65_earliest_example"
   ],
   "note": "Metrics and their average are exact rational numbers without NaN; the values of the metric are arbitrary (how they follow from the samples: C40 for the moving sums). Crosscorrelation after the coarse peak is not covered."
  },
  {
   "property": "C66",
   "status": "proved",
   "theorems": [
    "Verif.Props.C66.C66_encode",
    "Verif.Props.C66.C66_distance",
    "Verif.Props.C66.C66_decode",
    "Verif.Props.C66.C66_roundtrip",
    "Verif.Props.C66.C66_detect",
    "Verif.Props.C66.C66_candidates",
    "Verif.Props.C66.C66_distance_exact",
    "Verif.Props.C66.C66_example"
   ],
   "note": "all words of the decoder; the turbo code itself is not modelled, its output is arbitrary"
  },
  {
   "property": "C67",
   "status": "proved",
   "theorems": [
    "Verif.Phy.SymbolMap.C67_modulate",
    "Verif.Phy.SymbolMap.C67_grid",
    "Verif.Phy.SymbolMap.C67_refused",
    "Verif.Phy.SymbolMap.C67_buffer",
    "Verif.Phy.SymbolMap.C67_example"
   ],
   "note": "C67_grid with C67_buffer: for all packet configurations of a radio device class and MCS up to 9; MCS 10 and 11 are refused (C67_refused)"
  },
  {
   "property": "C68",
   "status": "partial",
   "theorems": [
    "Verif.Phy.RxFlow.C68_flow_partial",
    "Verif.Phy.RxFlow.C68_short_finding",
    "Verif.Phy.RxFlow.C68_short_iff",
    "Verif.Phy.RxFlow.C68_eight_finding",
    "Verif.Phy.RxFlow.C68_index",
    "Verif.Phy.RxFlow.C68_example"
   ],
   "note": "C68_flow_partial: all packets of up to four transmit streams whose last OFDM symbol has no PCC. The statement is false otherwise: C68_short_finding (abort if the last OFDM symbol carries PCC, exactly the packets of C68_short_iff) and C68_eight_finding (abort with eight streams). C68_index: pilots stay inside of the vector."
  },
  {
   "property": "C69",
   "status": "proved",
   "theorems": [
    "Verif.Phy.Combine.C69_received",
    "Verif.Phy.Combine.C69_exact",
    "Verif.Phy.Combine.C69_dead_antenna",
    "Verif.Phy.Combine.C69_multiplexing_finding",
    "Verif.Phy.Combine.C69_example"
   ],
   "note": "C69_received (with noise) and C69_exact for all packets with one spatial stream; C69_dead_antenna. Finding: C69_multiplexing_finding, with more than one spatial stream the receiver collects nothing (TODO in the code, outside the property). Estimate of the channel is given; where estimates come from is C68. Exact arithmetic."
  },
  {
   "property": "C70",
   "status": "partial",
   "theorems": [
    "Verif.Phy.Ofdm.C70_dims",
    "Verif.Phy.Ofdm.C70_rx_dims",
    "Verif.Phy.Ofdm.C70_rx_dims_default",
    "Verif.Phy.Ofdm.C70_rx_dims_finding",
    "Verif.Phy.Ofdm.C70_waveform",
    "Verif.Phy.Ofdm.C70_receive",
    "Verif.Phy.Ofdm.C70_stf_cells",
    "Verif.Phy.Ofdm.C70_stf",
    "Verif.Phy.Ofdm.C70_stf_finding",
    "Verif.Phy.Ofdm.C70_stf_partial",
    "Verif.Phy.Ofdm.C70_stf_received",
    "Verif.Phy.Ofdm.C70_example",
    "Verif.Phy.Ofdm.C70_stf_example",
    "Verif.Phy.Ofdm.C70_stf_finding_example"
   ],
   "note": "All OFDM symbols but the STF of numerologies above 1: proved for every configuration with integer oversampling. For that STF the code copies overlapping ranges with memcpy (C70_stf_finding); C70_stf_partial is the claim for a copy in ascending order. Fractional oversampling in the receiver: C70_rx_dims says exactly when the ends agree."
  },
  {
   "property": "C71",
   "status": "proved",
   "theorems": [
    "Verif.Phy.Codebook.C71_matrices",
    "Verif.Phy.Codebook.C71_power",
    "Verif.Phy.Codebook.C71_dac",
    "Verif.Phy.Codebook.C71_accepted",
    "Verif.Phy.Codebook.C71_symbol",
    "Verif.Phy.Codebook.C71_distinct",
    "Verif.Phy.Codebook.C71_reference",
    "Verif.Phy.Codebook.C71_rotated",
    "Verif.Phy.Codebook.C71_default",
    "Verif.Phy.Codebook.C71_nonzero",
    "Verif.Phy.Codebook.C71_nonzero_eight",
    "Verif.Phy.Codebook.C71_example",
    "Verif.Phy.Codebook.C71_symbol_example"
   ],
   "note": ""
  },
  {
   "property": "C72",
   "status": "proved",
   "theorems": [
    "Verif.Link.C72_highest",
    "Verif.Link.C72_limits",
    "Verif.Link.C72_history",
    "Verif.Link.C72_pack",
    "Verif.Link.C72_two_devices",
    "Verif.Link.C72_codebook",
    "Verif.Link.C72_codebook_finding",
    "Verif.Link.C72_history_example",
    "Verif.Link.C72_two_devices_example"
   ],
   "note": "Firmware as compiled by default. With TFW_P2P_MIMO a valid PLCF with a codebook index beyond the matrices of the mode makes the next packet abort (C72_codebook_finding)."
  },
  {
   "property": "C73",
   "status": "partial",
   "theorems": [
    "Verif.Phy.MimoEst.C73_best_partial",
    "Verif.Phy.MimoEst.C73_power",
    "Verif.Phy.MimoEst.C73_accepted_partial",
    "Verif.Phy.MimoEst.C73_antennas_finding",
    "Verif.Phy.MimoEst.C73_streams_finding",
    "Verif.Phy.MimoEst.C73_best_example"
   ],
   "note": "Proved for 1, 2 and 4 streams and antennas. With eight receive antennas (allowed by hw.cpp) or eight streams the estimator aborts (C73_antennas_finding, C73_streams_finding)."
  },
  {
   "property": "C74",
   "status": "partial",
   "theorems": [
    "Verif.Sim.Wireless.C74_link",
    "Verif.Sim.Wireless.C74_reciprocal_link",
    "Verif.Sim.Wireless.C74_superimpose",
    "Verif.Sim.Wireless.C74_execute",
    "Verif.Sim.Wireless.C74_reciprocal_partial",
    "Verif.Sim.Wireless.C74_reciprocal_finding",
    "Verif.Sim.Wireless.C74_leakage_finding",
    "Verif.Sim.Wireless.C74_profile",
    "Verif.Sim.Wireless.C74_energy",
    "Verif.Sim.Wireless.C74_period",
    "Verif.Sim.Wireless.C74_real_example",
    "Verif.Sim.Wireless.C74_link_example",
    "Verif.Sim.Wireless.C74_reciprocal_example",
    "Verif.Sim.Wireless.C74_profile_example",
    "Verif.Sim.Wireless.C74_period_example"
   ],
   "note": "Exact arithmetic, noise and path loss formula not modelled. Reciprocity between two antennas holds if one device has a single antenna (C74_reciprocal_partial) and fails for two devices with several antennas each (C74_reciprocal_finding)."
  },
  {
   "property": "C75",
   "status": "partial",
   "theorems": [
    "Verif.P2p.Stop.C75_safe_partial",
    "Verif.P2p.Stop.C75_single",
    "Verif.P2p.Stop.C75_order",
    "Verif.P2p.Stop.C75_release",
    "Verif.P2p.Stop.C75_calls",
    "Verif.P2p.Stop.C75_stop",
    "Verif.P2p.Stop.C75_on_time_finding",
    "Verif.P2p.Stop.C75_fair_example",
    "Verif.P2p.Stop.C75_run_example"
   ],
   "note": "All proved, for all interleavings, except that the FT can abort in normal operation when its beacon is called for exactly on time (C75_on_time_finding) or cannot be sent. Fairness is a hypothesis; a job is processed in one step."
  },
  {
   "property": "C76",
   "status": "partial",
   "theorems": [
    "Verif.ChScan.C76_scan",
    "Verif.ChScan.C76_aborts",
    "Verif.ChScan.C76_received_partial",
    "Verif.ChScan.C76_firmware",
    "Verif.ChScan.C76_example",
    "Verif.ChScan.C76_average_finding",
    "Verif.ChScan.C76_last_sample_finding",
    "Verif.ChScan.C76_firmware_example"
   ],
   "note": "Windows, aborts and firmware proved; missing: the average is a sum (C76_average_finding), and the assertions of the scan let the window end at a sample not yet received (C76_last_sample_finding), so C76_received_partial assumes that each sample has been published when it is read. Exact arithmetic."
  },
  {
   "property": "C77",
   "status": "partial",
   "theorems": [
    "Verif.Phy.FineSync.C77_construct",
    "Verif.Phy.FineSync.C77_peak_partial",
    "Verif.Phy.FineSync.C77_orthogonal_finding",
    "Verif.Phy.FineSync.C77_found",
    "Verif.Phy.FineSync.C77_all",
    "Verif.Phy.FineSync.C77_limit_finding",
    "Verif.Phy.FineSync.C77_found_example",
    "Verif.Phy.FineSync.C77_all_example",
    "Verif.Phy.FineSync.C77_orthogonal_example",
    "Verif.Phy.FineSync.C77_construct_example",
    "Verif.Phy.FineSync.C77_limit_example"
   ],
   "note": "An exception is a signal orthogonal to all templates (C77_orthogonal_finding), and a limit for the number of antennas below the number of templates, not the default (C77_limit_finding)."
  },
  {
   "property": "C78",
   "status": "partial",
   "theorems": [
    "Verif.Upper.Rtt.C78_order",
    "Verif.Upper.Rtt.C78_times",
    "Verif.Upper.Rtt.C78_not_late",
    "Verif.Upper.Rtt.C78_lag",
    "Verif.Upper.Rtt.C78_served_partial",
    "Verif.Upper.Rtt.C78_no_abort_partial",
    "Verif.Upper.Rtt.C78_reply",
    "Verif.Upper.Rtt.C78_round_trip",
    "Verif.Upper.Rtt.C78_stats",
    "Verif.Upper.Rtt.C78_agc",
    "Verif.Upper.Rtt.C78_pcc",
    "Verif.Upper.Rtt.C78_start_finding",
    "Verif.Upper.Rtt.C78_stuck_finding",
    "Verif.Upper.Rtt.C78_race_finding",
    "Verif.Upper.Rtt.C78_oversize_finding",
    "Verif.Upper.Rtt.C78_harq_finding",
    "Verif.Upper.Rtt.C78_protection_finding",
    "Verif.Upper.Rtt.C78_overflow_finding",
    "Verif.Upper.Rtt.C78_crc_finding"
   ],
   "note": "Proved: order and content of packets, times, contents of the answer and of a whole round trip, statistics, gain control, identities; no lag and no abort after a quiet start under normal conditions. Refuted: lag, blocking and abort after datagrams during the start, abort for large datagrams, lag without HARQ process, overrun for packets above 2000 bytes, wrong checksums counted (findings)."
  }
 ]
}
