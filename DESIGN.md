# Formal model of DECT-NR-Plus-SDR: design

Target: `maximpenner/DECT-NR-Plus-SDR` at the pinned commit in `/repo`. All paths
below are relative to `/repo/lib` (`inc/` abbreviates `include/dectnrp/`).

## 1. Approach

The code is read as text and modelled function by function in Lean 4. Nothing
is compiled or executed from `/repo`.

* `lean/Verif/Base/*`   shared vocabulary (outcomes, bytes, small lemma library)
* `lean/Verif/Model/*`  the model; every definition cites file and lines
* `lean/Verif/Spec/*`   small specifications the property theorems refer to
* `lean/Verif/Lemma/*`  helper lemmas
* `lean/Verif/Props/*`  the property theorems `Cnn_...`, with non-vacuity examples

### 1.1 Conventions

* *Outcomes.* `Res α = ok a | abort | ub`. `abort` is a failed `dectnrp_assert`
  (asserts are compiled in by default: `CMakeLists.txt:68,84`,
  `inc/common/prog/assert.hpp`), or an exception thrown out of a `noexcept`
  function. `ub` is C++ undefined behaviour: out-of-bounds access, null
  dereference, signed overflow, division by zero.
* *Integers.* Unsigned C++ integers are `Nat` with the range stated in the
  hypotheses (or explicit `% 2^n` where the code relies on truncation); signed
  64-bit times are `Int`, with explicit range hypotheses where overflow is the
  point of the theorem.
* *Bytes.* A byte buffer is a `List Nat` with all elements below 256.
* *Concurrency.* A multithreaded component is a transition system whose steps are
  the atomic operations of the code (one atomic access or one critical section
  per step); a theorem quantifies over all executions, i.e. all interleavings
  under sequential consistency. Weak memory effects are not modelled.
* *Floating point.* Where the code uses `float`/`double` for quantities that are
  exact in the model (integers, rationals, ring elements) the comment says so. Where
  rounding decides (C28, C44) the theorem holds for every rounding function with the
  stated properties (`Base/F32.lean`, `Rounding`).
* *Claims the code violates.* The statement in `properties.jsonl` is kept. A theorem
  `_negation` or `_finding` exhibits the violation, further theorems describe exactly
  when it happens, theorems with suffix `_partial` prove the claim where it holds, and
  the status is `partial`.

### 1.2 Trusted base

* Lean 4.33.0 kernel; axioms at most `propext`, `Classical.choice`, `Quot.sound`. No
  axiom is added, there is no `sorry`, `native_decide` or `bv_decide`.
  `tools/gen_manifest.py` writes a file with `#print axioms` for every theorem named in
  `MANIFEST.json`, which was run on each milestone.
* The reading of C++ into Lean (this document and the comments in the model). Every
  definition of the model cites file and lines; simplifications are stated there.
* The C++ library and compiler: `std::vector`, `std::unordered_map`, `std::optional`,
  mutexes, condition variables and atomics behave as specified; atomics are
  sequentially consistent in the model.
* Third-party code: srsRAN turbo code, rate matching and CRC are parameters (C27-C29);
  `boost::bimap` is a list of pairs (C14); moodycamel's queue is FIFO for one producer
  token (C16); volk's dot product is a parameter (C47).

### 1.3 What is modelled

Each line: module(s) under `lean/Verif/Model`, code, properties.

| module | code | properties |
|--------|------|------------|
| Feedback, Plcf, Enum | sections_part4/physical_header_field | C01, C02, C42, C43 |
| MacHeader, Mmh, Padding | sections_part4/mac_pdu, padding_ie, mmie_pool_tx | C03, C04, C05 |
| Decoder, Encoder | mac_pdu_decoder, psdef_plcf_mac_pdu, mmie, user_plane_data | C06, C07, C08, C46 |
| ClusterBeacon, NetworkBeacon, AssociationRequest, AssociationResponse, Reconfiguration, FixedMessages, Capability, LoadInfo, BroadcastIndication, ResourceAllocation, RandomAccess | sections_part4/mac_messages_and_ie | C09-C12, C45, C53-C60 |
| Identity | mac_architecture/identity | C37 |
| Queue, AppClient | application/queue, application_client | C13, C52 |
| Bimap, Callbacks, BitByte | common/adt | C14, C15, C38 |
| JobQueue, IrregularQueue, Token, Baton | phy/pool | C16-C19 |
| HarqPool | phy/harq, common/thread/lockable_outer_inner | C20 |
| BufferTx, BufferRx | radio/buffer_tx, buffer_tx_pool, buffer_rx, threads of hw_usrp | C21, C22 |
| RxPacer, Resampler | phy/rx/rx_pacer, phy/resample | C23, C47 |
| PacketSizes, Duration | sections_part3: mcs, tm_mode, numerologies, transport_block_size, cbsegm, packet_sizes, duration | C24-C26, C31 |
| Fec, Scrambling | phy/fec, harq/process_rx, fix/scrambling | C27-C29, C39 |
| Cells | sections_part3: drs, pcc, pdc; symbol loop of tx | C30 |
| Allocation, ContactList, TimeBase | mac/allocation, contact_list, ppx, pll | C32-C34, C36 |
| Channel | sections_part2/channel_arrangement | C35 |
| Movsum, Agc, GainLut | phy/rx/sync/movsum*, phy/agc, radio/gain_lut and calibration tables | C40, C41, C44 |
| P2p, P2pData | upper/p2p/procedure steady_rd, steady_ft, steady_pt | C48-C51 |
| SyncWorker | phy/pool/worker_sync, phy/rx/sync/sync_chunk (search loop), baton | C64 |
| ChunkSearch | phy/rx/sync/sync_chunk, autocorrelator_detection, autocorrelator_peak (positions; metrics arbitrary and exact) | C65 |
| Pcc | phy/fec/pcc_enc (checksum, masks, iterations; CRC-16 of the library bit by bit, turbo code arbitrary) | C66 |
| SymbolMap | phy/tx (symbol mapping, PCC, DRS, PDC, transmit diversity; srsRAN's packed modulator by its bit groups; complex numbers over any field) | C67 |
| RxFlow | phy/rx/rx_synced (order of OFDM symbols, processing stages, collection of pilots, look-up of weights; where values come from instead of the values) | C68 |
| Combine | phy/rx/rx_synced (maximum ratio combining, transmit diversity; exact complex numbers, estimate of the channel given) | C69 |
| Ofdm | phy/tx (beamforming, IFFT, cyclic prefix), phy/dft/ofdm, phy/rx/rx_synced (FFT), stf (positions, cover sequence); samples from any field with a root of unity, exact | C70 |
| Codebook | sections_part3/beamforming_and_antenna_port_mapping, phy/tx (codebook index, amplitude) | C71 |
| LinkAdapt | common/adt/expiring, phy/indicators/cqi_lut, phy/rx/rx_synced/mimo/mimo_csi, mac/feedback_plan, upper/p2p/procedure/steady_rd (worksub_tx_unicast) | C72 |
| MimoEst | phy/rx/rx_synced/mimo/estimator_mimo | C73 |
| SimChannel | simulation/wireless/link, channel, channel_awgn, channel_flat, channel_doubly, simulation/vspace (`wchannel_execute`), vspp/vspp (`spp_zero`) | C74 |
| P2pStop | upper/p2p/tfw_p2p_rd, tfw_p2p_ft and tfw_p2p_pt (`state_transitions`), procedure/resource, association, steady_ft, steady_pt (`work_irregular`), dissociation_ft, dissociation_pt, nop, phy/pool/worker_sync (start, `enqueue_irregular_job_if_due`), worker_tx_rx (push of reports) | C75 |
| ChScan | phy/rx/chscan/chscanner, chscan.hpp, upper/chscanner/tfw_chscanner | C76 |
| FineSync | phy/rx/sync/crosscorrelator, stf_template (lengths), sync_chunk (preparation and result of the fine search), phy/mix/mixer (mixing), common/ant (`get_index_of_max`) | C77 |
| Rtt | upper/rtt/tfw_rtt, application/application_server (one connection after the other), application start (`work_start`, `set_permeable`), job queue as a list | C78 |
| Vspace, SimTx | simulation/vspace, topology, hw_simulator | C61-C63 |

### 1.4 What is not modelled

Everything not cited in `lean/Verif/Model`. In particular: signal processing on
samples (estimation of channel, frequency and time offsets, STF detection metrics),
the internals of srsRAN and volk, UHD hardware access, sockets and virtual NICs, JSON
configuration, logging and statistics, noise of the simulator,
the test firmwares (`upper/tfw`), wall clock time and real-time behaviour, weak
memory ordering.

## 2. Properties

Plan per property (what is modelled, how it is proved). Status is in `MANIFEST.json`.

| id | model | proof |
|----|-------|-------|
| C01 | pack/unpack of feedback formats 1-6 on two bytes with C++ shifts and masks | per format algebra on `Nat` bit operations, all fields symbolic |
| C02 | PLCF 10/20/21 on 5/10 byte lists | same, using C01 |
| C03 | MAC header type, common headers | same; the beacon header loses network ID bits: negation with exact characterisation |
| C04 | multiplexing header on byte lists with bounds-checked reads | same |
| C05 | padding loop of `mmie_pool_tx` | induction on remaining bytes |
| C06 | decoder state machine, `decode` as step function on (buffer, written count) | simulation: running with fewer bytes is a prefix of running with more |
| C07 | same | invariant `n_cnt <= written <= size`, decreasing measure |
| C08 | encoder as concatenation of packed parts, decoder as above | induction on the list of IEs |
| C09-C12, C45 | message packing | algebra as C01; violations shown by concrete witnesses plus exact characterisation |
| C13 | ring buffer with read/write index | refinement to a list |
| C14 | two finite maps | invariant: the maps are inverse relations |
| C15 | callback table and `run` loop | invariant, recursion on a decreasing measure |
| C16 | ring buffer with counters | refinement to a list |
| C17 | slots with cached minimum | refinement to a multiset |
| C18 | threads as transition system | inductive invariant |
| C19 | registration/rotation transition system | inductive invariant |
| C20 | pool of two-level locks | invariant; rv sequence by induction |
| C21 | producers/consumer transition system | inductive invariant |
| C22 | ring memory with overhang, block writes | invariant over blocks |
| C23 | unit copy from ring into linear buffer | induction over units |
| C24 | sizes arithmetic | arithmetic for symbolic parameters, table facts by kernel evaluation of the complete table |
| C25 | same | arithmetic |
| C26 | packet sizes | arithmetic plus finite case analysis over the complete configuration table |
| C27-C29 | window arithmetic, per code block bookkeeping with an abstract decoder | arithmetic, induction over calls and attempts |
| C30 | cell index sets | arithmetic on symbolic bandwidth/length |
| C31 | duration arithmetic on bounded integers | arithmetic with explicit ranges |
| C32 | resource list | invariant |
| C33 | search loop | induction; false for unsorted allocations: negation and `_partial` for sorted ones |
| C34 | raster arithmetic | arithmetic |
| C35 | band table | complete finite table |
| C36 | maps and vector | invariant, using C14 |
| C37 | masks | negation, exact characterisation |
| C38 | byte order loops | induction on the byte count |
| C39 | bit range xor | bitwise characterisation; violation for short ranges |
| C40 | shift register and running sum over a commutative ring | invariant |
| C41 | round robin index | induction |
| C42 | tables | monotone table search |
| C43 | decoder bookkeeping | case analysis on the outcome |
| C44 | table search over rationals | induction |
| C45 | fixed-size messages | algebra as C01 |
| C46 | decoder of C06 with its header pointers | refuted; exact behaviour from the invariant of C07 |
| C47 | resampler with history and fractional state | simulation: blocks against the whole stream |
| C48 | constructors of the point-to-point firmware | arithmetic on symbolic sample rates |
| C49 | fixed point: beacons, irregular jobs, unicast | inductive invariant over all events |
| C50 | FT and PT on one clock | arithmetic on the allocations of C48 |
| C51 | user data between two application queues | composition of C13, C08 and the transmit loop |
| C52 | client thread, condition variable, queues | inductive invariant, progress |
| C53-C60 | messages and IEs with optional fields | parser monad `P`, round trip per field; violations exactly characterised |
| C61 | 2n threads, virtual space | inductive invariant; a rank bounds how far a thread may lag |
| C62 | index of edges of the complete graph | closed formula against the order of generation |
| C63 | TX thread against a queue of packets | inductive invariant on the signal so far |
| C64 | n synchronization threads, arbitrary detections per chunk and step | inductive invariant; jobs as a fold over submissions |
| C65 | one chunk, arbitrary outcome of each detection step and arbitrary metric per antenna and position (exact, no NaN), arbitrary pace of the pacer | step invariant; smoothed metric as a sum over the last positions, non-decreasing while the smoother fills; bounds of a weighted average |
| C66 | encoder up to the turbo code and decoder after it; the words of the iterations are arbitrary | checksum as a linear map, parity of its columns and all pairs of columns checked by the kernel for both lengths; induction over the iterations |
| C67 | the loop over the OFDM symbols from coded bits to transmit streams; constellations and values of the DRS arbitrary, transforms and beamforming not modelled | bit groups of all five symbol mappers; invariant over the OFDM symbols for the symbols mapped ahead; numbers of cells per OFDM symbol checked by the kernel where they depend on the PCC |
| C68 | the loops over OFDM symbols and processing stages of the receiver with the origin of every pilot and cell; sample values, weights and decoding not modelled, comparisons of distances arbitrary | invariants over stages and OFDM symbols; cells from C30; position of the PCC checked by the kernel for all bandwidths and numbers of streams |
| C69 | combining of the antennas for PCC and PDC after the transmitter of C67, channel and noise arbitrary, estimate exact; the demapper not modelled | algebra of complex numbers, sums over antennas, induction on OFDM symbols; cells from C30, C67 |
| C70 | beamforming, placement of subcarriers in the FFT, scaling, IFFT and FFT as the sums they are defined as, copying of the cyclic prefix with `memcpy` (overlap is undefined), cover sequence; resampling, mixing, rounding not modelled | invariants of the loops over antennas and streams; orthogonality of roots of unity in any field; false for the STF of numerologies above 1 (undefined copy) and for fractional oversampling in the receiver |
| C71 | the six tables of matrices, their conversion, index tables, clamping, both scalings, checks and scales of the transmitter; square roots exact | orthogonality of the columns and all other facts about the tables are decided for all matrices; power for arbitrary signals by expanding the sum over pairs of streams |
| C72 | expiring values, MCS lookup table, channel state information, feedback plan and their use for packets of the p2p firmware; SNR less its offset is a rational or not a number; the packet itself is C02 and C21 | invariant over histories by induction from the end: each expiring value is the last one set; loop invariant of the table lookup; packing and unpacking by C02; codebook index by C71 |
| C73 | steps, stages, transposed stages, sums, search and report of the MIMO estimator with the default metric; exact arithmetic, the magnitude is any function that may return NaN | stages are grids of channel cells (lemma on flattened lists); minimum and maximum loops by induction; all matrices considered have the same scale (decided for all of them) |
| C74 | links (power delay profile, sum of sinusoids, history of both directions), the three kinds of channels and steps 1 to 4 of `wchannel_execute`; exact arithmetic over any field with a function that turns angles into unit numbers, large scale gains arbitrary, no noise | closed form of the rotator by induction; time modulo the period by the periodicity of the turn; history of uses by induction with the chunks sent so far as invariant; antenna pairs enumerate the entries once |
| C75 | start, states, irregular reports, job queue, stop request and main thread of FT and PT as a transition system, one event per step of a thread; packets, beacon times and whether a beacon can be sent are free | invariant of one outstanding report with the handle of the state, by induction over events; progress in fair infinite executions by the position in the job queue, then the states, then the main thread |
| C76 | channel scans with indices into the ring buffer, times as integers, exact arithmetic with any function as square root; each sample may be read in another state of the ring buffer of C22; the state of the scanning firmware | window split at the wrap, sums by induction over partial scans; samples by `C22_window`; firmware by induction over measurements |
| C77 | lengths, mixer, crosscorrelation, choice of antenna, template and position, conversion to a global time; samples exact over any ordered field, arithmetic on metrics and indices with the error of single precision; VOLK, magnitude, cosine and sine are functions with the properties of `Lib.Good`; templates of any content | forward evaluation of the loops; loop invariant of the maximum; error bound of metric times index divided by metric; Cauchy-Schwarz with its case of equality |
| C78 | firmware of both devices, its application server, queue of datagrams (model of C13), start of the device and the workers' calls as atomic events in any order (one per access to shared state); the clock, receive time and HARQ process of each call are inputs | invariant over all runs: the sent packets are a prefix of the accepted datagrams, times and numbers, statistics, contents of the staging buffer; difference between queued and announced datagrams never shrinks |

## 3. Findings

Behaviour of the code that contradicts a claim or its documentation, each a theorem.
The notes in `MANIFEST.json` name the theorems.

* C03 beacon header loses the low byte of the network ID.
* C06 a call of the decoder after it is done aborts. C46 a common header that does not fit is reported as present.
* C10 network beacon with channel 1 or 2 only is received wrongly; dBm conversion wrong.
* C11 the sign of a requested power is ignored. C42 relayed buffer classes drift down.
* C12 network beacon period always received as code 0; some messages abort the receiver.
* C13 an empty datagram is queued though the call reports 0.
* C19 start aborts if the token is held. C20 retrieval during termination leads to two owners.
* C21 delayed wakeup; the simulator reads a released buffer. C22 time jumps misplace samples.
* C26 one maximum does not bound; one class rejected. C27 decoder leaves out a symbol of one code block.
* C29 process kept running after a correct packet. C31 negative times round the wrong way.
* C32, C33 resources of different directions overlap; unsorted resources are missed.
* C35 undefined bands. C37 short network ID 0. C38 mask beyond 32 bits. C39 short ranges.
* C40 sums off by one element. C44 tables not ascending.
* C49 overflow before the first beacon; contacts unserved. C51 a large datagram blocks the queue or aborts the peer.
* C52 abort with two connections. C53-C60 empty optionals, wrong sizes, wrong shifts.
* C61 shutdown may hang. C62 overflow beyond 65536 devices. C63 a packet after a shorter one is lost.
* C64 a packet found in the last step of a chunk by a thread without the baton aborts the program (worker_sync.cpp:127-157 skips a chunk).
* C68 a packet of one subslot whose last OFDM symbol carries PCC aborts the receiver (rx_synced.cpp:387), so does every packet with eight streams.
* C69 with more than one spatial stream nothing is collected (`run_pdc_mode_AxA_MIMO` is empty; such packets are dropped after the PCC).
* C70 the cyclic prefix of the STF is longer than the FFT for all numerologies above 1; `memcpy` is then called with overlapping ranges
  (undefined behaviour, ofdm.cpp:70-78). Copied in ascending order the result is right only because the STF has period N_DFT/4. The receiver
  truncates the oversampling to an integer (rx_synced.cpp:499-500): a packet with b=12 sent by a device with b_max=16 would be received with a
  cyclic prefix of 96 instead of 128 samples.
* C72: with `TFW_P2P_MIMO` (not defined by default) the codebook index of feedback format 5, a 6 bit field, is used for the next packet without a limit; 63 passes the checks of the PLCF and aborts the transmitter in every transmission mode (`C72_codebook_finding`).
* C73 with eight receive antennas, which hw.cpp allows, every packet received completely aborts the program: there is no matrix for one stream and eight antennas, the lookup returns the one for a single antenna and `.at(1)` throws (estimator_mimo.cpp:219, `C73_antennas_finding`); so does a packet with eight streams (`C73_streams_finding`).
* C74: between two devices with two or more antennas each the simulated channel is not reciprocal, although link.hpp says so: the entry of a pair of antennas is `tx_idx * vspprx.nof_antennas + rx_idx`, so the pair (0, 1) uses entry 1 in one direction and entry `n0` in the other (channel_flat.cpp:66-69, channel_doubly.cpp:79-80, `C74_reciprocal_finding`); and a transmit antenna leaks into all receive paths of its device, against the comment at vspace.cpp:481-487 (`C74_leakage_finding`).
* C75: the FT aborts with "time out-of-order" when the irregular call for its beacon is recognized exactly at its time: worker_sync.cpp:305-314 lets a delay of 0 pass, steady_ft.cpp:122 requires more (`C75_on_time_finding`). The other way an FT can abort there, a beacon that cannot be sent (steady_ft.cpp:131-133), is an exception of `C75_safe_partial` too. Were `PHY_POOL_JOB_QUEUE_JOB_SLOT_UNAVAILABILITY_FATAL_OR_DISCARD` not defined, a full job queue would swallow the only outstanding report and a stop would block for ever, as worker_sync.cpp:316 ignores the result; with the macro, as in the code, it aborts.
* C76: `get_rms_avg()` returns the sum of the partial RMS values, not their average (chscanner.cpp:70, `C76_average_finding`); tfw_chscanner reports values five times too large and warns of clipping too early. A window may end at `get_rx_time_passed()`, the time of the next sample, so the last sample is one not yet received (chscanner.cpp:39, `C76_last_sample_finding`); tfw_chscanner always asks for that. With a partial scan of a single sample the whole ring would be taken (`A < B` at line 100), and with a window that starts before time 0 the index would be negative; neither occurs with the durations and times in use.
* C77: if the strongest antenna is orthogonal to all templates in the search range, the metrics are zero, 0/0 is rounded and cast to an integer (crosscorrelator.cpp:247-248, `C77_orthogonal_finding`). `peak_t` gets room for `nof_antennas_limited` templates (crosscorrelator.cpp:72) but is used for as many as belong to `nof_antennas`; with `RX_SYNC_PARAM_AUTOCORRELATOR_ANTENNA_LIMIT` below that number, e.g. 1 with two antennas, each search writes out of bounds (`C77_limit_finding`); with the default limit of 8 there is always room.
* C78: a datagram received after `clear` of the queues and before `set_permeable` is written and never announced; from then on each packet carries the datagram before (`C78_start_finding`), and three of them block the device for ever (`C78_stuck_finding`). A datagram written before `clear` and announced after `set_permeable` makes the worker abort on the empty queue (`C78_race_finding`). Datagrams of more than N_TB_byte abort (`C78_oversize_finding`). Without HARQ process the transmission is counted and the datagram stays (`C78_harq_finding`). With a protection time the first datagram is lost although the watch is set back to allow it (`C78_protection_finding`). Received packets of more than 2000 bytes overrun `stage_a`; class 8.1.1.A admits them (`C78_overflow_finding`). Packets with a wrong checksum are counted and returned like others (`C78_crc_finding`).

## 4. Tests of the theorems

`tools/mutate.py` applies an edit to a scratch copy of the model and rebuilds.
`seeded/LOG.jsonl` has one line per edit: definition, edit, claim it breaks, theorems
that failed, theorems tightened afterwards.
