{
 "claims": [
  {
   "property": "C01",
   "status": "proved",
   "theorems": [
    "P1P2.C01_round_trip"
   ],
   "note": "full round trip on both platforms, any prior content of the static buffer and of the payload"
  },
  {
   "property": "C02",
   "status": "proved",
   "theorems": [
    "P1P2.C02_printed_line"
   ],
   "note": "exact text and length bound (94 < 128)"
  },
  {
   "property": "C03",
   "status": "partial",
   "theorems": [
    "P1P2.C03_exact",
    "P1P2.C03_in_bounds_partial",
    "P1P2.C03_refuted"
   ],
   "note": "violated: 65 data digits make the parser store outside the payload (C03_refuted); exact bound C03_exact; C03_in_bounds_partial is the part that holds"
  },
  {
   "property": "C04",
   "status": "proved",
   "theorems": [
    "P1P2.C04_notation"
   ],
   "note": "all spellings, comments without colon, stray digit"
  },
  {
   "property": "C05",
   "status": "partial",
   "theorems": [
    "P1P2.C05_refuted",
    "P1P2.C05_time_partial"
   ],
   "note": "violated for every line with exactly one colon: the time digits are taken as data (C05_refuted); C05_time_partial: the time stamp of such a line is understood"
  },
  {
   "property": "C06",
   "status": "partial",
   "theorems": [
    "P1P2.C06_host_partial",
    "P1P2.C06_refuted"
   ],
   "note": "holds with signed plain char (test host), violated on the target where plain char is unsigned (C06_refuted)"
  },
  {
   "property": "C07",
   "status": "partial",
   "theorems": [
    "P1P2.C07_prefix_values_partial",
    "P1P2.C07_refuted"
   ],
   "note": "proved for times below 2^63; atoll is undefined beyond (C07_refuted)"
  },
  {
   "property": "C08",
   "status": "proved",
   "theorems": [
    "P1P2.C08_bounded_list"
   ],
   "note": "refinement to a list bounded to 32 bytes, any call sequence"
  },
  {
   "property": "C09",
   "status": "proved",
   "theorems": [
    "P1P2.C09_bounded_queue"
   ],
   "note": "refinement to a bounded queue, any capacity, element type, call sequence, both constructors"
  },
  {
   "property": "C10",
   "status": "partial",
   "theorems": [
    "P1P2.C10_refuted",
    "P1P2.C10_no_pop_partial",
    "P1P2.C10_exact"
   ],
   "note": "violated after a pop (C10_refuted); C10_exact: in every history the i-th oldest element is At((n + i) mod N) after n elements were taken since construction or clear; C10_no_pop_partial: right while nothing was popped"
  },
  {
   "property": "C11",
   "status": "proved",
   "theorems": [
    "P1P2.C11_atomic"
   ],
   "note": "all interleavings at load/store granularity; the completion order is the witness order"
  },
  {
   "property": "C12",
   "status": "proved",
   "theorems": [
    "P1P2.C12_line_buffer",
    "P1P2.C12_atomic"
   ],
   "note": "sequential refinement plus all interleavings"
  },
  {
   "property": "C13",
   "status": "partial",
   "theorems": [
    "P1P2.C13_lines_partial",
    "P1P2.C13_refuted",
    "P1P2.C13_late_lf_refuted",
    "P1P2.C13_exact"
   ],
   "note": "violated: of two lines arriving between two polls the second is lost, and a late LF after CR is handed over as a line of its own; holds when at most one terminator arrives between two polls; C13_exact: exactly which lines are handed over, for any characters (NUL included) in any portions"
  },
  {
   "property": "C14",
   "status": "partial",
   "theorems": [
    "P1P2.C14_refuted",
    "P1P2.C14_exact_partial"
   ],
   "note": "violated: 128 characters without terminator block the input for ever (C14_refuted); C14_exact_partial: the next line is processed iff the line before has less than 128 characters"
  },
  {
   "property": "C15",
   "status": "proved",
   "theorems": [
    "P1P2.C15_bootloader"
   ],
   "note": "iff, every line content; in-bounds because the model's strncmp reads stop at the NUL"
  },
  {
   "property": "C16",
   "status": "proved",
   "theorems": [
    "P1P2.C16_comment_lines"
   ],
   "note": "whole state unchanged, every comment line"
  },
  {
   "property": "C17",
   "status": "partial",
   "theorems": [
    "P1P2.C17_order_partial",
    "P1P2.C17_refuted"
   ],
   "note": "order proved for every history with at most 8 waiting packets; violated beyond: the packet is silently lost (C17_refuted)"
  },
  {
   "property": "C18",
   "status": "proved",
   "theorems": [
    "P1P2.C18_send",
    "P1P2.C18_room"
   ],
   "note": "any fill level and any interrupt timing during Send"
  },
  {
   "property": "C19",
   "status": "partial",
   "theorems": [
    "P1P2.C19_refuted",
    "P1P2.C19_masked_partial"
   ],
   "note": "violated: UART interrupt between Pop and putchar_raw in the unmasked CheckTXFIFO swaps two bytes (C19_refuted); holds when popped with interrupts masked"
  },
  {
   "property": "C20",
   "status": "proved",
   "theorems": [
    "P1P2.C20_lost_output",
    "P1P2.C20_no_loss"
   ],
   "note": "every history of sends and drains, any interrupt timing; exact wire content with the loss flag"
  },
  {
   "property": "C21",
   "status": "partial",
   "theorems": [
    "P1P2.C21_clock_partial",
    "P1P2.C21_refuted"
   ],
   "note": "exact until the 32-bit millisecond counter wraps (49.7 days); jumps back 2^32 ms then (C21_refuted)"
  },
  {
   "property": "C22",
   "status": "proved",
   "theorems": [
    "P1P2.C22_amplifier"
   ],
   "note": "after every history of calls"
  },
  {
   "property": "C23",
   "status": "proved",
   "theorems": [
    "P1P2.C23_listen_before_talk"
   ],
   "note": "every execution; the drained report is the hardware's own (see C77)"
  },
  {
   "property": "C24",
   "status": "proved",
   "theorems": [
    "P1P2.C24_verified_echo"
   ],
   "note": "target platform (unsigned plain char); bytes received after the last echo byte are not looked at by the code"
  },
  {
   "property": "C25",
   "status": "proved",
   "theorems": [
    "P1P2.C25_failure",
    "P1P2.C25_differing_echo",
    "P1P2.C25_timeout",
    "P1P2.C25_flag_stays",
    "P1P2.C25_stops"
   ],
   "note": "each failure cause separately, in every state; flag stays; nothing is sent any more"
  },
  {
   "property": "C26",
   "status": "proved",
   "theorems": [
    "P1P2.C26_ends"
   ],
   "note": "explicit bound 72 ms + 4 ms per byte + (length+5) d"
  },
  {
   "property": "C27",
   "status": "proved",
   "theorems": [
    "P1P2.C27_in_bounds",
    "P1P2.C27_depends_on_bytes_only"
   ],
   "note": "no undefined behaviour and independence of the unused payload, every history with 1..32 byte messages"
  },
  {
   "property": "C28",
   "status": "partial",
   "theorems": [
    "P1P2.C28_refuted",
    "P1P2.C28_reported_partial"
   ],
   "note": "violated: status 21 (undocumented) is reported (C28_refuted); C28_reported_partial: every collision ends the transmission with the error flag and a status the main loop reports"
  },
  {
   "property": "C29",
   "status": "proved",
   "theorems": [
    "P1P2.C29_request"
   ],
   "note": "every state"
  },
  {
   "property": "C30",
   "status": "proved",
   "theorems": [
    "P1P2.C30_no_stale_bytes",
    "P1P2.C30_handover"
   ],
   "note": "all interleavings of software, DMA and PIO; C30_handover says what the bookkeeping fields mean"
  },
  {
   "property": "C31",
   "status": "proved",
   "theorems": [
    "P1P2.C31_waveform",
    "P1P2.C31_frames"
   ],
   "note": "cycle exact equality with a reference transmitter for every arrival schedule, and the same as a decomposition into idle gaps and frames"
  },
  {
   "property": "C32",
   "status": "proved",
   "theorems": [
    "P1P2.C32_dc_free",
    "P1P2.C32_frame"
   ],
   "note": "DC freedom on the pins for every run; alternation and even parity of the frame of every byte"
  },
  {
   "property": "C33",
   "status": "partial",
   "theorems": [
    "P1P2.C33_ten_bits_partial",
    "P1P2.C33_refuted"
   ],
   "note": "violated: the stop bit lasts 15 cycles between back-to-back frames (C33_refuted); the other ten bits last 16 (partial)"
  },
  {
   "property": "C34",
   "status": "proved",
   "theorems": [
    "P1P2.C34_sign_conversion"
   ],
   "note": "every arrival and read schedule"
  },
  {
   "property": "C35",
   "status": "proved",
   "theorems": [
    "P1P2.C35_shiftreg",
    "P1P2.C35_update"
   ],
   "note": "any N>0, any element type, any history; both Update variants"
  },
  {
   "property": "C36",
   "status": "proved",
   "theorems": [
    "P1P2.C36_fir"
   ],
   "note": "coefficients as truncated by the compiler at initialisation (literals in the model, cited)"
  },
  {
   "property": "C37",
   "status": "proved",
   "theorems": [
    "P1P2.C37_resample"
   ],
   "note": "any n, any stream"
  },
  {
   "property": "C38",
   "status": "proved",
   "theorems": [
    "P1P2.C38_bounded",
    "P1P2.C38_blocks_dc"
   ],
   "note": "any bounded stream; explicit settling time"
  },
  {
   "property": "C39",
   "status": "proved",
   "theorems": [
    "P1P2.C39_level"
   ],
   "note": "any stream; the classification is uniquely determined by the stated equivalences"
  },
  {
   "property": "C40",
   "status": "proved",
   "theorems": [
    "P1P2.C40_detector",
    "P1P2.C40_odd",
    "P1P2.C40_constant"
   ],
   "note": "any stream bounded by 10^8; oddness; 16 equal samples give 0"
  },
  {
   "property": "C41",
   "status": "proved",
   "theorems": [
    "P1P2.C41_no_undefined",
    "P1P2.C41_conversion"
   ],
   "note": "Runs of ADC and core 1 with arbitrary interleaving of DMA transfers and loop iterations; sample values within +-255 (what the conversion programs deliver, C41_conversion)."
  },
  {
   "property": "C42",
   "status": "proved",
   "theorems": [
    "P1P2.C42_bytes"
   ],
   "note": "Chain from the level detector on (level detector, pulse detector, UART); tolerance as in the statement; any number of bytes, gaps, start polarities. ADC, FIR filter and DC blocker are not part of this theorem (C36-C38, C41, C47)."
  },
  {
   "property": "C43",
   "status": "proved",
   "theorems": [
    "P1P2.C43_symbols"
   ],
   "note": "For every eleven symbols starting with a pulse (all 2*3^10) and every waveform in tolerance; result and error flag characterised exactly."
  },
  {
   "property": "C44",
   "status": "proved",
   "theorems": [
    "P1P2.C44_loopback"
   ],
   "note": "PIO program cycle by cycle (C31) feeding level detector, pulse detector and UART, one sample per PIO cycle; total run shorter than 2^S samples (7.7 h with 32-bit size_t, otherwise C45_refuted applies)."
  },
  {
   "property": "C45",
   "status": "partial",
   "theorems": [
    "P1P2.C45_noise_partial",
    "P1P2.C45_partial",
    "P1P2.C45_refuted",
    "P1P2.C45_refuted_rp2040"
   ],
   "note": "False: the sample counter of the UART keeps counting down while waiting, after 2^32 idle samples it reports an erroneous byte (C45_refuted). Proved up to 2^S samples, for zero detector values and for noise within 599 mV."
  },
  {
   "property": "C46",
   "status": "proved",
   "theorems": [
    "P1P2.C46_safe",
    "P1P2.C46_fixed_delay",
    "P1P2.C46_one_result_per_start"
   ],
   "note": "All parity modes, all sample streams, safety included. The converse (each result has its start) for the first 2^S samples."
  },
  {
   "property": "C47",
   "status": "proved",
   "theorems": [
    "P1P2.C47_samples",
    "P1P2.C47_differential"
   ],
   "note": "Every delivered value is the middle sample plus the average of its neighbours, scaled, as long as the consumer lags at most 254 samples."
  },
  {
   "property": "C48",
   "status": "partial",
   "theorems": [
    "P1P2.C48_partial",
    "P1P2.C48_refuted",
    "P1P2.C48_refuted_witness"
   ],
   "note": "False of the code: with a lag of 255 samples a value is computed from overwritten ring entries and no error is raised (C48_refuted, concrete run C48_refuted_witness); C48_partial: an overrun of 256 or more is always flagged."
  },
  {
   "property": "C49",
   "status": "partial",
   "theorems": [
    "P1P2.C49_partial",
    "P1P2.C49_refuted"
   ],
   "note": "C49_partial: no sample of a block is lost or doubled while the lag stays below 255; false across the end of a DMA block of 2^28 transfers: C49_refuted."
  },
  {
   "property": "C50",
   "status": "proved",
   "theorems": [
    "P1P2.C50_alternating"
   ],
   "note": "For every run of the receive side (any signal, any schedule); counts words even if the inter-core FIFO was full."
  },
  {
   "property": "C51",
   "status": "partial",
   "theorems": [
    "P1P2.C51_partial",
    "P1P2.C51_silence_is_free",
    "P1P2.C51_refuted"
   ],
   "note": "False of the code in two ways: the count of waiting samples is not reset by a byte, so line-free is reported within a packet although the line never rests for 42 samples (C51_refuted, any amplitude in the tolerance band). C51_partial: line-free is always preceded by exactly 176 waiting samples since line-busy, in total; C51_silence_is_free: silence is always reported."
  },
  {
   "property": "C52",
   "status": "proved",
   "theorems": [
    "P1P2.C52_roundtrip",
    "P1P2.C52_zero",
    "P1P2.C52_results",
    "P1P2.C52_wellformed",
    "P1P2.C52_adc_error"
   ],
   "note": "Packing round trip, zero word, results of the UART = characters in the words sent, well-formedness, ADC error told in the next word."
  },
  {
   "property": "C53",
   "status": "partial",
   "theorems": [
    "P1P2.C53_told_partial",
    "P1P2.C53_refuted",
    "P1P2.C53_refuted_for_ever"
   ],
   "note": "False of the code: a word dropped between the look at FifoErr (main.cpp:248) and its clearing (main.cpp:253) is never told (C53_refuted: complete run; C53_refuted_for_ever: every continuation without another drop). C53_told_partial: in every other case the next look tells of it, and in this case the step just before the drop had told of an earlier overflow."
  },
  {
   "property": "C54",
   "status": "partial",
   "theorems": [
    "P1P2.C54_received_partial",
    "P1P2.C54_refuted"
   ],
   "note": "C54_received_partial: exact for the messages about the bus, for all interleavings of the cores. False if lines about failed transmissions are counted: they repeat bytes (C54_refuted)."
  },
  {
   "property": "C55",
   "status": "proved",
   "theorems": [
    "P1P2.C55_errors_shown"
   ],
   "note": "for all interleavings; also says which received bytes each message carries"
  },
  {
   "property": "C56",
   "status": "partial",
   "theorems": [
    "P1P2.C56_one_line_partial",
    "P1P2.C56_refuted"
   ],
   "note": "C56_one_line_partial: up to 31 bytes. False for exactly 32 bytes, which are always reported with the overflow status (C56_refuted)."
  },
  {
   "property": "C57",
   "status": "partial",
   "theorems": [
    "P1P2.C57_watchdog_partial",
    "P1P2.C57_refuted_early",
    "P1P2.C57_refuted_late"
   ],
   "note": "C57_watchdog_partial: exact for all histories up to 500 ms before the wrap-around of the 32-bit millisecond counter. False near the wrap-around: told after 1 ms (C57_refuted_early) or not told (C57_refuted_late)."
  },
  {
   "property": "C58",
   "status": "proved",
   "theorems": [
    "P1P2.C58_host_first"
   ],
   "note": "All reachable states and all iterations."
  },
  {
   "property": "C59",
   "status": "proved",
   "theorems": [
    "P1P2.C59_pending",
    "P1P2.C59_failure_reported"
   ],
   "note": "C59_failure_reported: all reachable states; C59_pending: an error status waiting in the receive buffer is reported with the next line about the bus."
  },
  {
   "property": "C60",
   "status": "proved",
   "theorems": [
    "P1P2.C60"
   ],
   "note": "All packets of up to 31 bytes plus checksum; also that no other byte yields checksum 0."
  },
  {
   "property": "C61",
   "status": "proved",
   "theorems": [
    "P1P2.C61",
    "P1P2.C61_byte"
   ],
   "note": "All pairs of packets up to 32 bytes; bursts in transmission order; C61_byte: any corruption of one byte. Examples show that 9 bits is beyond the limit."
  },
  {
   "property": "C62",
   "status": "proved",
   "theorems": [
    "P1P2.C62"
   ],
   "note": "All histories of calls (any packets that fit the array, any clock values), no undefined behaviour."
  },
  {
   "property": "C63",
   "status": "proved",
   "theorems": [
    "P1P2.C63"
   ],
   "note": "All histories: every pending answer is a well-formed answer to a valid request that was received."
  },
  {
   "property": "C64",
   "status": "partial",
   "theorems": [
    "P1P2.C64_partial",
    "P1P2.C64_refuted"
   ],
   "note": "False: the answer to a request shorter than the echoed payload contains bytes of the previously received packet (C64_refuted). C64_partial: for requests long enough the answer is a function of the bytes, whatever happened before; whether to answer always is."
  },
  {
   "property": "C65",
   "status": "partial",
   "theorems": [
    "P1P2.C65_partial",
    "P1P2.C65_refuted"
   ],
   "note": "False for packets of at most 3 bytes, which do not clear a pending answer (C65_refuted). C65_partial: everything else, for all histories."
  },
  {
   "property": "C66",
   "status": "partial",
   "theorems": [
    "P1P2.C66_refuted",
    "P1P2.C66_partial"
   ],
   "note": "False: the address comparison is inverted; no own answer is recognised, every answer of another address is (C66_refuted, for all reachable states). C66_partial: only answers of the two types are recognised."
  },
  {
   "property": "C67",
   "status": "proved",
   "theorems": [
    "P1P2.C67",
    "P1P2.C67_quiet"
   ],
   "note": "Refinement to a separate phase machine, for all clock schedules; C67_quiet: 2.1 s without answers after a collision."
  },
  {
   "property": "C68",
   "status": "proved",
   "theorems": [
    "P1P2.C68"
   ],
   "note": "All histories and all calls."
  },
  {
   "property": "C69",
   "status": "partial",
   "theorems": [
    "P1P2.C69_refuted",
    "P1P2.C69_changed_partial"
   ],
   "note": "False: the status is ignored (C69_refuted, for every valid request and status). C69_changed_partial: a request with one byte received wrongly, whichever, is never answered."
  },
  {
   "property": "C70",
   "status": "proved",
   "theorems": [
    "P1P2.C70",
    "P1P2.C70_severity"
   ],
   "note": "All histories of reports, refreshes and ticks; reports and timer callbacks are atomic steps."
  },
  {
   "property": "C71",
   "status": "proved",
   "theorems": [
    "P1P2.C71",
    "P1P2.C71_distinct"
   ],
   "note": "All histories; the bus error pattern is undocumented, its code value is stated; C71_distinct: patterns are pairwise different."
  },
  {
   "property": "C72",
   "status": "proved",
   "theorems": [
    "P1P2.C72",
    "P1P2.C72_panel",
    "P1P2.C72_lamp_test"
   ],
   "note": "All preceding histories, all run lengths, repeated settings in between."
  },
  {
   "property": "C73",
   "status": "proved",
   "theorems": [
    "P1P2.C73_line_busy"
   ],
   "note": "any N, level, stream"
  },
  {
   "property": "C74",
   "status": "proved",
   "theorems": [
    "P1P2.C74_edge",
    "P1P2.C74_wraps"
   ],
   "note": "any sequence of up to 256 updates; C74_wraps shows the bound is needed"
  },
  {
   "property": "C75",
   "status": "partial",
   "theorems": [
    "P1P2.C75_refuted",
    "P1P2.C75_status_partial"
   ],
   "note": "violated: the overflow code is OR-ed into the status, 1|2=3 is no documented combination for a collision line (C75_refuted)"
  },
  {
   "property": "C76",
   "status": "partial",
   "theorems": [
    "P1P2.C76_refuted",
    "P1P2.C76_comment_partial"
   ],
   "note": "violated: colons inside a trailing comment are field delimiters (C76_refuted); holds for comments without colon"
  },
  {
   "property": "C77",
   "status": "partial",
   "theorems": [
    "P1P2.C77_refuted_pins",
    "P1P2.C77_buffers_empty_partial",
    "P1P2.C77_refuted"
   ],
   "note": "violated: the byte between FIFO and pin is invisible to the three status registers (C77_refuted); buffers are empty (partial); C77_refuted_pins shows the same on the interpreted PIO program"
  },
  {
   "property": "C79",
   "status": "partial",
   "theorems": [
    "P1P2.C79_never_requested_partial",
    "P1P2.C79_refuted"
   ],
   "note": "violated: the echo check runs past the payload for an empty packet (C79_refuted, at the API of the transmitter); C79_never_requested_partial: the main loop never requests an empty packet, in any history."
  },
  {
   "property": "C80",
   "status": "proved",
   "theorems": [
    "P1P2.C80_never_refused"
   ],
   "note": "all interleavings, 1..32 byte messages"
  },
  {
   "property": "C81",
   "status": "partial",
   "theorems": [
    "P1P2.C81_refuted",
    "P1P2.C81_exact_partial"
   ],
   "note": "False: from 4682 mV on the correlation of a pulse exceeds the 16 bit input of the UART and changes sign; mixed with 4681 mV pulses the frame is reported as erroneous (C81_refuted). C81_exact_partial: up to 4681 mV every waveform in tolerance is received."
  },
  {
   "property": "C82",
   "status": "proved",
   "theorems": [
    "P1P2.C82"
   ],
   "note": "All pairs of packets up to 32 bytes."
  },
  {
   "property": "C83",
   "status": "proved",
   "theorems": [
    "P1P2.C83_exact",
    "P1P2.C83"
   ],
   "note": "All pairs of packets up to 32 bytes; an example shows that 127 bits apart is not detected."
  },
  {
   "property": "C84",
   "status": "partial",
   "theorems": [
    "P1P2.C84_only_parsing_partial",
    "P1P2.C84_target_partial",
    "P1P2.C84_refuted"
   ],
   "note": "False: one host line with more than 64 hex digits makes the main loop write outside a message (C84_refuted). C84_only_parsing_partial: parsing a host line is the only place where it can happen; C84_target_partial: it does not happen on the target if all host lines have at most 64 characters of payload and at most 18 characters of time stamp."
  },
  {
   "property": "C85",
   "status": "proved",
   "theorems": [
    "P1P2.C85_sendable"
   ],
   "note": "All histories."
  },
  {
   "property": "C86",
   "status": "partial",
   "theorems": [
    "P1P2.C86_word_partial",
    "P1P2.C86_refuted",
    "P1P2.C86_same_partial",
    "P1P2.C86_refuted_answer"
   ],
   "note": "False in two ways: after a failed transmission of a one-byte packet the controller compares uninitialised bytes behind the packet (C86_refuted), and the answer to a short valid request puts uninitialised memory on the bus (C86_refuted_answer). C86_same_partial: in every other history (no packet of one or two bytes beginning with 40 started, no too short request received) nothing the device shows depends on uninitialised memory, whose content may be different in every iteration."
  },
  {
   "property": "C87",
   "status": "proved",
   "theorems": [
    "P1P2.C87_listen_first"
   ],
   "note": "All histories, given words as the receiving core builds them (C52)."
  },
  {
   "property": "C88",
   "status": "proved",
   "theorems": [
    "P1P2.C88_success_means_echo"
   ],
   "note": "All histories, platforms with unsigned plain char (the target)."
  },
  {
   "property": "C89",
   "status": "proved",
   "theorems": [
    "P1P2.C89_what_is_sent",
    "P1P2.C89_requests_answered"
   ],
   "note": "All histories of the main loop."
  },
  {
   "property": "C90",
   "status": "partial",
   "theorems": [
    "P1P2.C90_exact_partial",
    "P1P2.C90_refuted"
   ],
   "note": "False: the answer of the controller carries its own address, and the comparison wants another one, so a failed own answer never silences the controller (C90_refuted). C90_exact_partial: exactly when it is silenced."
  },
  {
   "property": "C91",
   "status": "proved",
   "theorems": [
    "P1P2.C91_lines_explained"
   ],
   "note": "All histories."
  },
  {
   "property": "C92",
   "status": "proved",
   "theorems": [
    "P1P2.C92_overflow_means_loss",
    "P1P2.C92_no_other_overflow"
   ],
   "note": "All interleavings of the two cores at the granularity of C53."
  },
  {
   "property": "C93",
   "status": "proved",
   "theorems": [
    "P1P2.C93_long_packets"
   ],
   "note": "Clock readings within 500 ms."
  },
  {
   "property": "C94",
   "status": "proved",
   "theorems": [
    "P1P2.C94_adc_error_shown"
   ],
   "note": "All histories."
  },
  {
   "property": "C95",
   "status": "proved",
   "theorems": [
    "P1P2.C95_mask_kept"
   ],
   "note": "All interleavings."
  },
  {
   "property": "C96",
   "status": "proved",
   "theorems": [
    "P1P2.C96_from_buffer"
   ],
   "note": "All lengths."
  },
  {
   "property": "C97",
   "status": "proved",
   "theorems": [
    "P1P2.C97_ends"
   ],
   "note": "All histories; iterations completed at most d apart."
  },
  {
   "property": "C98",
   "status": "proved",
   "theorems": [
    "P1P2.C98_failure_line",
    "P1P2.C98_hw_error"
   ],
   "note": "Target (unsigned plain char)."
  },
  {
   "property": "C99",
   "status": "proved",
   "theorems": [
    "P1P2.C99_lines",
    "P1P2.C99_readable"
   ],
   "note": "All histories."
  },
  {
   "property": "C100",
   "status": "proved",
   "theorems": [
    "P1P2.C100_driver"
   ],
   "note": "Arbitrary client of UARTPio interleaved with the hardware model; wire equals the accepted messages' bytes."
  },
  {
   "property": "C101",
   "status": "proved",
   "theorems": [
    "P1P2.C101_samples",
    "P1P2.C101_recovery",
    "P1P2.C101_detection"
   ],
   "note": "RxSystem (ADC ring + core-1 loop) is core 1 on the ideal samples before and after a restart; stalls >= 256 samples inside a block are detected."
  },
  {
   "property": "C102",
   "status": "proved",
   "theorems": [
    "P1P2.C102_bytes",
    "P1P2.C102_symbols"
   ],
   "note": "All waveforms within Shape.Tol (one edge sample on each side of a pulse, edges up to one sample late); RxBack is the receive chain behind the DC blocker."
  },
  {
   "property": "C103",
   "status": "proved",
   "theorems": [
    "P1P2.C103_words"
   ],
   "note": "Whole receive side from ADC codes (RxSystem) to words; amplitude 49..88 codes, code error up to 1, at least 350 codes between packets, sum of (gap+10) within a packet at most 345, ring initially zero, within one DMA block (2^28 samples). Pulses of 14 to 16 codes, up to two codes late."
  },
  {
   "property": "C104",
   "status": "proved",
   "theorems": [
    "P1P2.C104_line_per_packet",
    "P1P2.C104_interleaved"
   ],
   "note": "Words of packets give one line each; C104_line_per_packet about the main loop alone, C104_interleaved for all interleavings of the two cores without drops."
  },
  {
   "property": "C105",
   "status": "proved",
   "theorems": [
    "P1P2.C105_codes_to_lines"
   ],
   "note": "End-to-end composition of C103 and C104; hypotheses: no dropped word, watchdog silent, receiving loop keeps up and has handed over its last word."
  },
  {
   "property": "C106",
   "status": "proved",
   "theorems": [
    "P1P2.C106_fast_detector"
   ],
   "note": "The old header is dead code that no longer compiles against the current shift register; it is modelled as intended (windows, templates, Convolute)."
  },
  {
   "property": "C107",
   "status": "proved",
   "theorems": [
    "P1P2.C107_bytes"
   ],
   "note": "At the input of the level detector (samples at instants, ideal edges); the clocks of the device are shown to be within the tolerance for both readings of the ADC divider."
  },
  {
   "property": "C108",
   "status": "proved",
   "theorems": [
    "P1P2.C108_words",
    "P1P2.C108_lines"
   ],
   "note": "C103/C105 with sampling instants of an independent clock; device clocks (5000/2500/157 cycles) shown to be in tolerance; ideal edges between instants (no slew model)."
  },
  {
   "property": "C109",
   "status": "proved",
   "theorems": [
    "P1P2.C109_truth",
    "P1P2.C109_shown"
   ],
   "note": "Reports of core0 (main.cpp:227-239, 307-314) composed with the LED manager; timers are steps anywhere between the reports."
  },
  {
   "property": "C110",
   "status": "partial",
   "theorems": [
    "P1P2.C110_failures_partial",
    "P1P2.C110_wrong_byte_partial",
    "P1P2.C110_collision_hidden",
    "P1P2.C110_collision_refuted",
    "P1P2.C110_lost_refuted"
   ],
   "note": "False: a collision (status 21) is told while the transmitter still waits for the end of the packet, so the LED manager only hears of activity and the error flag is gone afterwards (C110_collision_refuted; C110_collision_hidden: in every history); lost words during a transmission likewise (C110_lost_refuted). Proved for all other failure lines and wrong bytes."
  },
  {
   "property": "C111",
   "status": "proved",
   "theorems": [
    "P1P2.C111_words",
    "P1P2.C111_lines"
   ],
   "note": "Mask in Spec/Eye.lean. The lines part assumes that the inter-core FIFO does not overflow and that the watchdog does not report (see C101, C104). A concrete transmission meets the mask (example in Props/Modem.lean)."
  },
  {
   "property": "C112",
   "status": "proved",
   "theorems": [
    "P1P2.C112_starts"
   ],
   "note": "About the PIO program run by the cycle-accurate interpreter; the DMA is any schedule of writes that respects the FIFO level."
  },
  {
   "property": "C113",
   "status": "proved",
   "theorems": [
    "P1P2.C113_words",
    "P1P2.C113_lines",
    "P1P2.C113_clock"
   ],
   "note": "The clock divider (208333/256 of 125 MHz) and the ADC conversion time (157/48 MHz) are hardware facts stated in Spec/Modem.lean; lines part under the scheduling assumptions of C104."
  },
  {
   "property": "C114",
   "status": "proved",
   "theorems": [
    "P1P2.C114_undisturbed_succeeds"
   ],
   "note": "On platforms with unsigned plain char (as the target); words as the receiving core builds them (C52)."
  },
  {
   "property": "C115",
   "status": "partial",
   "theorems": [
    "P1P2.C115_partial",
    "P1P2.C115_refuted"
   ],
   "note": "False with parity: the loop runs to 176 values but the register has 168, so an assertion always fails (C115_refuted). Holds without parity (C115_partial), where the last 8 values are not printed."
  },
  {
   "property": "C116",
   "status": "proved",
   "theorems": [
    "P1P2.C116_decodes"
   ],
   "note": "Exact for every sample sequence and parity mode; ties between phases go to the earliest."
  },
  {
   "property": "C117",
   "status": "proved",
   "theorems": [
    "P1P2.C117_line",
    "P1P2.C117_transmitting",
    "P1P2.C117_times"
   ],
   "note": "driver, DMA and the interpreted PIO program; DMA assumed to have caught up at each pull (a few of the 814 system clocks of a PIO cycle per byte)"
  },
  {
   "property": "C118",
   "status": "proved",
   "theorems": [
    "P1P2.C118_words",
    "P1P2.C118_lines"
   ],
   "note": "C117 composed with C111/C113; ClearFifo only after the last frame has begun (as the state machine calls it)"
  },
  {
   "property": "C119",
   "status": "proved",
   "theorems": [
    "P1P2.C119_no_stale_frames",
    "P1P2.C119_never_refused"
   ],
   "note": "refinement of the abstract hardware model of C30/C80 by the interpreted PIO program; at most 150 us between two cycles assumed (6.51 us on the device)"
  },
  {
   "property": "C120",
   "status": "proved",
   "theorems": [
    "P1P2.C120_device",
    "P1P2.C120_times"
   ],
   "note": "times of the words of C111/C118, with a horizon: only the codes so far need match the line (causality)"
  },
  {
   "property": "C121",
   "status": "proved",
   "theorems": [
    "P1P2.C121_alone",
    "P1P2.C121_own_lines",
    "P1P2.C121_in_time",
    "P1P2.C121_other_lines"
   ],
   "note": "closed loop: main loop (C88 model), driver+PIO (C117), line, receiver (C120) coupled by clocks; hypotheses: latencies D + lag <= 1.8 ms, silences below the counter range; a complete concrete run meets them (Verif/Props/AloneRun.lean)"
  },
  {
   "property": "C122",
   "status": "proved",
   "theorems": [
    "P1P2.C122_words",
    "P1P2.C122_main_loop",
    "P1P2.C122_interleaved",
    "P1P2.C122_lines"
   ],
   "note": "any history of the RxSystem model from power-up (C41 model); samples afterwards given by Samples/RawCarries; the part of the history since the last byte of the UART must be shorter than the counter range; C122_lines: composed with the main loop and all interleavings of the cores that drop no word (C84/C91 models)"
  },
  {
   "property": "C123",
   "status": "proved",
   "theorems": [
    "P1P2.C123_done"
   ],
   "note": "all call histories; converse (true after an undisturbed transmission): C24"
  },
  {
   "property": "C124",
   "status": "proved",
   "theorems": [
    "P1P2.C124_refines",
    "P1P2.C124_order",
    "P1P2.C124_order_reset",
    "P1P2.C124_wait",
    "P1P2.C124_wait_entered",
    "P1P2.C124_timing",
    "P1P2.C124_polarity"
   ],
   "note": "hardware model AdcDev (ADC FIFO, both DMA channels, interpreted twos_complement program); C124_refines carries every theorem about all RxSystem runs over to the hardware; C124_wait_entered refutes the comment at adc.cpp:211; C124_polarity: a reset can swap the wires (harmless: C125)"
  },
  {
   "property": "C125",
   "status": "proved",
   "theorems": [
    "P1P2.C125_swapped_wires",
    "P1P2.C125_either_polarity"
   ],
   "note": "`Codes`/`SwappedCodes` are the two connections (Spec/Raw, Spec/Flip). Proof: the samples with swapped wires are samples of the flipped line, which carries the flipped packets; their bytes are the same. C125_either_polarity covers any history before."
  },
  {
   "property": "C126",
   "status": "proved",
   "theorems": [
    "P1P2.C126_words",
    "P1P2.C126_lines"
   ],
   "note": "Composition of C124 (hardware path) and C122/C125. KeepsUp excludes the end of a DMA block during the packets themselves; Lossless is discharged for served buses by steady_run (concrete example: a reset that leaves a stale value and swaps the sign). C126_lines continues to the lines for the host."
  },
  {
   "property": "C127",
   "status": "proved",
   "theorems": [
    "P1P2.C127_words",
    "P1P2.C127_lines"
   ],
   "note": "Proved up to the words (C127_words) and the lines for the host (C127_lines), as stated: the lost sample is not at an edge of a pulse (neither it nor the one before), the loop has no backlog at the end of the block; every pulse starts and ends at most one code late. An edge exactly at the lost sample, and a backlog (all samples waiting are lost then), are outside the claim."
  },
  {
   "property": "C128",
   "status": "proved",
   "theorems": [
    "P1P2.C128_answer_started",
    "P1P2.C128_answer_sent"
   ],
   "note": "Composition of C91/C122 (the words give one line with the bytes), C89 (requests are answered at once) and C114 (undisturbed transmissions succeed). Requests shorter than the echoed part: see C64."
  },
  {
   "property": "C129",
   "status": "partial",
   "theorems": [
    "P1P2.C129_refuted",
    "P1P2.C129_later_partial"
   ],
   "note": "Refuted: the status set by the reset word stays in the collected message until the next packet ends, so its line has status 2 although its bytes are right (C129_refuted, for every packet). What holds: the packets after that one are told with status 0."
  },
  {
   "property": "C130",
   "status": "partial",
   "theorems": [
    "P1P2.C130_check",
    "P1P2.C130_lines_partial",
    "P1P2.C130_possible",
    "P1P2.C130_refuted",
    "P1P2.C130_lost_refuted",
    "P1P2.C130_safe"
   ],
   "note": "Violated: CheckRXFIFO runs unmasked in the main program as well as in the handler; an interrupt between getchar and Push lets later characters overtake, so any line can be handed over without its first character (C130_refuted). A host that does not wait loses the characters that arrive between the hand-over of a line and the clearing of the buffer (C130_lost_refuted). What holds: lines sent one at a time are handed over exactly if no interrupt strikes while a character is held (C130_lines_partial, C130_possible: such histories exist for all lines); no access leaves the buffer in any history (C130_safe); Check without interrupts is the poll of the other theorems (C130_check)."
  },
  {
   "property": "C131",
   "status": "partial",
   "theorems": [
    "P1P2.C131_told_partial",
    "P1P2.C131_true_partial",
    "P1P2.C131_refuted"
   ],
   "note": "Violated for the direction: a report of a reception that has already loaded 'transmitting' when the timer refreshes stores 'both' afterwards, so a transmission is shown although none was reported since the last refresh (C131_refuted). What holds: every report is shown by the first refresh after it or the first within the call (C131_told_partial), and whatever is shown, a report of that severity was completed since the previous refresh (C131_true_partial)."
  },
  {
   "property": "C132",
   "status": "proved",
   "theorems": [
    "P1P2.C132_typed_is_read",
    "P1P2.C132_exactly"
   ],
   "note": "Composition of C04, C13, C89, C121, C118 and C20. C132_typed_is_read (with the answers of the controller), C132_exactly (no request among the packets). Met by the run of Props/EndToEndRun.lean: 40F0 typed at one modem is read at the other."
  },
  {
   "property": "C133",
   "status": "proved",
   "theorems": [
    "P1P2.C133_answer_started"
   ],
   "note": "Composition of C118 and C128; met by a request of 18 bytes sent through the driver of one modem and answered by the main loop of the other (example at the end of Props/Asked.lean)."
  },
  {
   "property": "C134",
   "status": "proved",
   "theorems": [
    "P1P2.C134_words",
    "P1P2.C134_lines"
   ],
   "note": "Composition of C117/C118 (sender, from the driver calls to the eye on the bus) and C126 (receiver, from the conversions to words and lines after any history). KeepsUp and Lossless as in C126. Example: the receiver overruns and is reset while the first packet is sent, and hears the second one (end of Props/Joins.lean)."
  },
  {
   "property": "C135",
   "status": "proved",
   "theorems": [
    "P1P2.C135_polynomial"
   ],
   "note": "Equivalence in both directions: the checksum is a remainder, and the only byte that completes the packet to a multiple. Met by the packets captured on a bus in pico/doc/uart.md."
  },
  {
   "property": "C136",
   "status": "partial",
   "theorems": [
    "P1P2.C136_collision_noticed_partial",
    "P1P2.C136_same_length",
    "P1P2.C136_refuted"
   ],
   "note": "Proved: one packet is the beginning of the other (C136_collision_noticed_partial), so packets of the same length are the same (C136_same_length). Missing and false of the code (C136_refuted): after the last byte of its own packet a modem ignores further bytes for up to 4 ms, so a packet that is the beginning of the other one is taken for a success by both."
  },
  {
   "property": "C137",
   "status": "proved",
   "theorems": [
    "P1P2.C137_waiting_are_next",
    "P1P2.C137_every_packet_is_started"
   ],
   "note": "Composition of C26/C97 (a transmission ends), C58 (host first) and the queue of C17. Met by a bus that is stuck busy while two packets are asked for (end of Props/Drain.lean)."
  },
  {
   "property": "C138",
   "status": "proved",
   "theorems": [
    "P1P2.C138_settled_in_time",
    "P1P2.C138_every_packet_is_settled"
   ],
   "note": "Composition of C137 (started in time), C97 (ends), C88 (no failure line means echo), C59 and C98 (failure lines and whose they are). Met by a bus that is stuck busy and by a transmission that succeeds (end of Props/Account.lean)."
  },
  {
   "property": "C139",
   "status": "proved",
   "theorems": [
    "P1P2.C139_at_most_once",
    "P1P2.C139_at_most_two_lines"
   ],
   "note": "The hand-overs refine C89 (what is given to the transmitter). Two lines do occur: example at the end of Props/Once.lean."
  },
  {
   "property": "C140",
   "status": "proved",
   "theorems": [
    "P1P2.C140_rate"
   ],
   "note": "Potential function on the states of the receiver and of the busy detection. Needs size_t of at least 9 bits."
  },
  {
   "property": "C141",
   "status": "proved",
   "theorems": [
    "P1P2.C141_no_overflow"
   ],
   "note": "Joint model of the ADC, both loops and the FIFO (Model/Board.lean). A run that meets the hypotheses is device_demo in Props/RateDemo.lean."
  },
  {
   "property": "C142",
   "status": "proved",
   "theorems": [
    "P1P2.C142_device"
   ],
   "note": "C105 without the assumption that no word is dropped, on the joint model. The case of the packet 40 F0 is device_demo."
  },
  {
   "property": "C143",
   "status": "proved",
   "theorems": [
    "P1P2.C143_total",
    "P1P2.C143_prefixes"
   ],
   "note": "C143_total shows that every text falls under the specification, C143_prefixes gives the result; extends C07 (digits only). The C library semantics of atoll and strtol are part of the model (Model/Text.lean)."
  },
  {
   "property": "C144",
   "status": "proved",
   "theorems": [
    "P1P2.C144_device"
   ],
   "note": "C144_device has C142's hypotheses without the one about the watchdog; the time is less than a DMA block (14 minutes) as in C142. The concrete run is in Props/WatchDemo.lean."
  },
  {
   "property": "C145",
   "status": "proved",
   "theorems": [
    "P1P2.C145_recovers"
   ],
   "note": "C145_recovers joins C122 (recovery of the receive side) with C141 (no overflow of the FIFO) on the model of the whole device. The condition on the last word is necessary: a lost line-free word, or an overrun in silence (C129), can spoil the next line. The run after the history stays within a DMA block. Concrete run in Props/RecoverDemo.lean."
  },
  {
   "property": "C146",
   "status": "proved",
   "theorems": [
    "P1P2.C146_mask",
    "P1P2.C146_calls",
    "P1P2.C146_other_lines",
    "P1P2.C146_typed_is_read",
    "P1P2.C146_exactly"
   ],
   "note": "C146_mask (any sender within the mask), C146_calls (driver calls of the sender), C146_other_lines, C146_typed_is_read and C146_exactly: C132 with the receiver being the whole device of C144, so that neither the absence of drops nor the silence of the watchdog is assumed. Within a DMA block of 2^28 conversions (14.5 minutes). Concrete pair of modems in Props/PairDemo.lean."
  },
  {
   "property": "C147",
   "status": "proved",
   "theorems": [
    "P1P2.C147_hears"
   ],
   "note": "C147_hears joins C134 (what a receiver that joins at any time finds on the bus) with C145 (recovery of the whole device). The run after the history stays within a DMA block. Concrete pair in Props/PairHealDemo.lean."
  },
  {
   "property": "C148",
   "status": "proved",
   "theorems": [
    "P1P2.C148_divider",
    "P1P2.C148_clock",
    "P1P2.C148_bit",
    "P1P2.C148_usual"
   ],
   "note": "C148_divider (the register), C148_bit (duration of a bit), C148_clock (sender and receiver fit: the hypothesis SenderClock of C111-C147), C148_usual (125 MHz). The SDK is not in the repository: what sm_config_set_clkdiv and adc_set_clkdiv do with a float is taken from its documentation."
  },
  {
   "property": "C149",
   "status": "proved",
   "theorems": [
    "P1P2.C149_block"
   ],
   "note": "C149_block (composition of C127 with the whole device of C145). Not claimed: an edge at the lost sample, a loop that lags behind at the end of the block, a report of the watchdog. C49_refuted shows that the conversion is really lost."
  },
  {
   "property": "C150",
   "status": "proved",
   "theorems": [
    "P1P2.C150_hears"
   ],
   "note": "C150_hears (the pause at the start is one conversion longer than in C147). Not claimed: a block that ends within a frame of a real sender, whose clock is up to 0.5 per cent fast, so that its edges are not within one conversion (C127 and C149 need that)."
  },
  {
   "property": "C151",
   "status": "proved",
   "theorems": [
    "P1P2.C151_words",
    "P1P2.C151_rested"
   ],
   "note": "C151_rested; C151_words is the general form. C103 is the same within the first block. Not claimed: the loss of more samples when the loop is further behind (C101), a block that ends within a frame (C127)."
  },
  {
   "property": "C152",
   "status": "proved",
   "theorems": [
    "P1P2.C152_device"
   ],
   "note": "C152_device; the example builds such a run for every number of blocks up to 1000000 (27 years). C142 is the same within the first block. A block ends as in CutOk: the iteration of core 1 that follows its last conversion comes before the next conversion (the DMA is stopped until that iteration starts it again). Not claimed: a block that ends within a packet (C149), a loop further behind (C101)."
  }
 ]
}