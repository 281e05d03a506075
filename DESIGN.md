# Formal model of P1P2_HBS_USBCdc_Modem - design

## 1. Approach

The firmware is modelled in Lean 4 as small total functions, module by module:
`lean/Verif/Model/*.lean` (the program), `lean/Verif/Spec/*.lean` (independent specifications,
no import of the model wherever possible), `lean/Verif/Proofs/*.lean` (lemmas) and
`lean/Verif/Props/*.lean` (the property theorems `Cxx_...` with satisfiability examples).

* Undefined behaviour of C++ is a distinct outcome: fragments that can exhibit it return
  `Res α` (`ok a | ub`). Out-of-bounds array accesses and signed overflow yield `ub`.
* Fixed width matters where it matters: `int32_t` arithmetic is range checked (`i32`), conversions to
  `int16_t`/`uint8_t`/`uint32_t` wrap, `size_t` has the width of the target (32) as a parameter.
* Target-dependent C++ is a parameter (`Platform`): signedness of plain `char`, width of `long`,
  width of `size_t`. `Platform.arm` is the RP2040, `Platform.host` the unit-test host.
* Indeterminate memory (e.g. the payload of a fresh `Message`) is a universally quantified parameter.
* Interrupts and the two cores are modelled by explicit schedules.
* A property the code violates is kept in `properties.jsonl` as the user would rely on it; the violation
  is proved (`Cxx_..._refuted`, a concrete witness or a universally quantified failure) and the part that
  does hold is proved as `Cxx_..._partial`.

## 2. Plan per property

| id | modelled | proof |
|----|----------|-------|
| C01 | `Message::c_str` incl. snprintf into the 128 byte static buffer, `Message(char*)` incl. atoll/strtol | round trip by induction over digits and bytes |
| C02 | same | exact text by induction over the payload |
| C03 | `Message(char*)` with bounds-checked stores | partial: no UB iff at most 64 data digits; refuted by a 65-digit line |
| C04 | same | induction over an inductive relation "is a spelling of" |
| C05 | same | refuted by witness; partial for lines with 0 or 2 prefixes (C04) |
| C06 | same, `Platform.charSigned` | proved for signed char (partial), refuted for the target |
| C07 | atoll/strtol | induction over digit strings |
| C08 | `Append/Clear/Overflow/ctor` | refinement to a bounded list, induction over op lists |
| C09 | `FifoIrqSafe` | refinement to a bounded queue, induction over op lists |
| C10 | `At` | refuted by witness; exact in every history: the i-th oldest is at `(n + i) mod N` after `n` taken (`C10_exact`) |
| C11 | micro-steps of each FIFO call, PRIMASK, interrupt arrivals | invariant: log of completed calls replays to the current state |
| C12 | `LineReceiverIrqSafe` | refinement to a bounded list |
| C13 | `CheckRXFIFO/CheckRxLine` over arbitrary poll splits | partial: at most one line per poll; refuted for pipelined lines; exact against `Spec/Handed.lean` for any characters in any portions (`C13_exact`) |
| C14 | same | refuted: after 128 non-terminator characters no line is ever processed, for every future |
| C15-C16 | `OnLineReceived` | decision logic, for all buffers |
| C17 | `OnLineReceived/Pop` | FIFO order proved; refuted: ninth packet vanishes |
| C18,C20 | `Send/UpdateAndSend/CheckTXFIFO` | induction over the line, over histories |
| C19 | micro-step interleaving of main/handler in `CheckTXFIFO` | refuted by a schedule; partial when popped only between masking and unmasking in the schedule (as in `Send`) |
| C21 | `SetTime/GetTime`, 32-bit ms counter | proved up to the wrap, refuted beyond |
| C22-C29 | `TxState/TxStateMachine` with 64-bit us clock, `UARTPio` | invariants over all histories; potential function for C26 |
| C30 | DMA + PIO FIFO + OSR as a nondeterministic system | invariant over all interleavings |
| C31-C33 | PIO interpreter running the actual program text | per-byte symbolic execution, induction over the byte list |
| C34 | PIO interpreter, second program | same |
| C35 | `ShiftReg` | refinement to "last N inputs" |
| C36-C40,C73,C74 | the DSP blocks with checked 32-bit arithmetic | closed forms, invariants, convergence argument |
| C41 | composition of all blocks | interval invariants |
| C42-C44 | `Level`, `UARTBit`, `UART` | structural argument: value of the detector per symbol and phase, best phase, decoding |
| C45,C46 | `UART::Update` with 32-bit counter | induction; refuted for 2^32 idle samples |
| C47-C49 | `DifferentialADC::Update` with DMA ring | invariant slot = latest sample of that residue; refuted at lag 255 and at block end |
| C50-C53 | `core1_entry` event logic, word packing, two-core interleaving | invariants, witnesses |
| C54-C59 | `core0_entry` loop body | invariants over all event histories |
| C60,C61 | `GenCRC` | linearity and injectivity of the CRC step |
| C62-C69 | `StandaloneController` | decision logic + invariants |
| C70-C72 | `LEDManager`, `LEDdriver` | folds over event lists, invariants |
| C75 | `UpdateAndSend` | refuted (1\|2 = 3), partial |
| C76 | `Message(char*)` | induction over the scan for delimiters; refuted for comments with a colon |
| C77,C80,C100 | DMA, FIFO, shift register and wire as a nondeterministic system around `UARTPio` | invariant "accepted bytes = wire + in flight", over all interleavings |
| C79,C84,C85,C86 | `core0_entry` with all callees, undefined behaviour as an outcome | invariants over all histories of the loop; refuted by complete runs |
| C81,C102,C107,C111 | the whole receive chain (FIR, detector, level, UART) | interval arithmetic on the closed forms of the filters; thresholds are exact (C81: 4681 works, 4682 mV does not) |
| C82,C83 | `GenCRC` | linearity; parity of the remainder, order of x modulo the polynomial |
| C87-C90,C97-C99,C114 | main loop + transmitter + standalone controller | invariants over histories with a ghost log of actions; C114 is a progress theorem (composition of phases) |
| C91-C94,C104 | main loop, messages about the bus | ghost "what the other core told since the last line" |
| C95,C96 | interrupt mask in the queues, `Message(buf, len, time, status)` | induction over call sequences |
| C101 | `DifferentialADC::Update` with the DMA ring, restart | invariant, composition |
| C103,C105,C108 | ADC codes -> DMA ring -> core 1 -> inter-core FIFO -> core 0 -> lines | refinement in stages, all schedules that keep up |
| C106 | the older convolution detector | equality of the running sums with the convolution |
| C109,C110 | LED manager and drivers with the timer interrupts between any two steps of the loop | induction over traces |
| C112,C113 | PIO program with a FIFO filled at arbitrary times; two modems with different crystals | frame start recursion; composition of C112 with C108 |
| C117,C118,C119 | driver + DMA + interpreted PIO program (`TxDev`), the transmitter object on it (`FSys`) | simulation by a reference sender with an unbounded queue; composition with C111/C113; refinement of the abstract hardware model of C30/C77/C80 |
| C120 | times of the words of the receiving core, also for the modem hearing its own transmitter | positions of the words in the code sequence (from the C51/C111 proofs), restricted to a horizon; composition with C117 |
| C121 | modem alone on the bus: main loop, driver, PIO, line, receiver in a closed loop | invariant over iterations (`Stage`): which word can come next and when (C120), deadlines of the transmitter against these times; composition with C97, C104, C118 |
| C122 | receive side after an arbitrary history | invariants of any history (ADC registers, UART counter age, busy timer); the DC blocker's memory decays below the detector threshold within the silence; detector windows and UART come to rest; then the words of C103 for the shifted line; the lines of the host by C91's account of the main loop and C84's interleavings |
| C123 | `Done()` over all call histories | invariant of the last accepted message, its offset and the bytes received since |
| C124 | ADC FIFO, both DMA channels, the interpreted sign conversion, `Stop`/`Start`/`Reset`/`Update` operation by operation with hardware events in between | invariant of codes entered, on their way and stored; refinement to the ring model of C41-C122; timing of one conversion by symbolic execution |
| C125 | the same receive side, the bus connected the other way round | negated samples satisfy the hypotheses of C103/C122 for the flipped line and the flipped packets, whose bytes are the same |
| C126 | hardware path of C124 in front of the receive side | a run in which the loop keeps up and nothing overflows is a schedule of C122 (`dev_schedule`), the values stored are the conversions, alternately negated, after at most 13 left over from the history; then C125; `C126_lines` goes on to the host with C122_interleaved |
| C127 | a DMA block that ends during the packets | the loss of a sample between two edges leaves the values of a line one code shorter: pulses of 15 codes or a pause shorter by one (`cut_line`), within the tolerance of C122 (pulses of 14 to 16 codes); the state behind the restart is that of a new block that continues the ring (`block_next`); `C127_lines` goes on to the host |
| C128 | main loop, controller and transmitter | the words of the request give exactly one line, in the iteration of the word that ends it (`line_at_end`, from C91/C122); then C89 and C114 |
| C129 | words of a reset in silence, then packets | refuted for every packet by C91 (`told_after_reset`); the later packets are told with status 0 |
| C130 | `Check` of the host interface step by step, the UART interrupt between any two steps | invariant of what was typed, stored, held and handed over; refuted by explicit runs for every line |
| C131 | LED manager calls split into load and store, the timers between them | induction over traces; refuted by an explicit one |
| C132 | two complete modems and their hosts' text | composition of C04, C13, C89, C121, C118, C20; a concrete run |
| C133 | driver of one modem, receiver, main loop and controller of the other | composition of C118 and C128; a concrete run |
| C134 | driver of one modem, hardware receive path and both cores of the other, after any history | composition of C117/C118 and C126: the eye of the later packets, counted from the time of joining; a concrete run |
| C135 | `GenCRC` | invariant of the shift register: quotient and remainder after every bit; uniqueness as the generator is monic; the packets captured in pico/doc/uart.md |
| C115,C116 | `PrintShiftreg`, `FindBestPhase`, `ExtractData`, `ExtractDataAndParity` | symbolic execution of the loops on arbitrary samples |
| C136 | main loops of two modems, any histories | the invariant of C24 cut at the hand-over: what is heard afterwards begins with the packet; counterexample: a packet that is the beginning of the other |
| C137 | main loop, host queue and transmitter | invariant: the transmitter is idle or ends by a deadline; induction over the iterations with the queue as a list; a bus that is never free as a case |
| C138 | main loop, host queue and transmitter | the first iteration after which the transmitter is idle again; C97 bounds it, C59/C88/C98 say what the host was told; attribution by induction over the iterations; two concrete histories |
| C139 | main loop and transmitter | invariant: handed over plus awaiting is a subsequence of started; potential function for the number of lines; concrete histories with one hand-over and with two lines |
| C140 | receive core | potential: each sample pays 3, each word costs 692; invariant on receiver state, counter and idle counter |
| C141 | whole device (Model/Board.lean) | the potential of C140 plus the contents of the FIFO and the conversions waiting, against the conversions owed by the main loop |
| C142 | whole device | projection of a run of the device to a run of the receive side (C103) and one of the main loop (C104), with C141 for the drops |
| C143 | prefix texts | relation DecNumber/HexNumber (ISO C grammar of numbers, Spec/Number.lean); decomposition of the text, totality of the relation |
| C144 | whole device with clock | invariant of the run: each word not yet taken came at most 3024 conversions ago, the bus is busy since the start or since a word taken which is followed by a line-free word within a packet's time; so busy for less than 0.4 s |
| C145 | whole device after any history | projections of the history to the receive side (C122) and to the main loop; bound of C140 for any history gives the FIFO bound |
| C146 | two devices: the typed lines of A to the text of B | C132 up to the wire, mask to codes (C111), whole device B (C141, C144), printing (C99) |
| C147 | two devices, receiver with any history | `joined` (the packets after the pause, from C134), mask to codes (C111), C145 |
| C148 | rates set at the start, floats as fractions with any rounding within half a unit | error bounds of two roundings and of cutting off; linear arithmetic on products |
| C149 | steps of both cores and conversions (Model/Board.lean) over the end of a block | the run is cut into the two blocks, each is brought into the form of C127 (`board_parts`), budget argument of C145 over the whole run |
| C150 | two whole modems in real time (C147) and the end of a block (C149) | a lost sample in a silence makes the gap before the next frame shorter by one (`raw_cut`); the rest is the common part of C127 and C149 (`cut_words`, `cut_block`) |
| C151 | the receive side from power-up over any number of blocks | induction over the blocks (`blocks_run`): the samples processed are those of a line from which the lost ones are cut out (`heardAt`), they follow its levels (`heard_mv`), and cutting silence out only shortens gaps (`splice`); then as C103 |
| C152 | the whole device from power-up over any number of blocks | induction over the blocks (`long_parts`): a run of the device contains a run of the receive side over complete blocks (`blockEvents`) and a run of the FIFO and the main loop that agree on the words; then C151 and C104 |

Nothing in the list is dropped as inexpressible.

## 3. Trusted base

* Lean 4.33.0 kernel. Axioms: every theorem depends on no more than `propext`, `Classical.choice` and
  `Quot.sound` (checked with `#print axioms`); none is added. No compiled evaluation is used: closed
  computations are done with `decide` / `decide +kernel`, i.e. by kernel reduction.
* The faithfulness of the model to the C++/PIO text. Every definition cites file and lines.
* The semantics assumed for the C++ library and the RP2040 (section 4).
* `Basic.lean` (`Res`, range checked arithmetic, `toI16` ...) and the specifications in `Spec/`: they are
  what the theorem statements are made of.

What is modelled, file by file (`/repo/pico/src`):

| source | model | remarks |
|--------|-------|---------|
| message.cpp/.hpp | Message, Text | complete; text functions of the C library as assumed below |
| fifo_irqsafe.hpp, line_receiver_irqsafe.hpp | Fifo, Irq | complete; Irq has the same calls as micro-steps with PRIMASK |
| host_uart.cpp | Host, HostRace | HostRace: the receive side step by step with the interrupt handler; without pin and baud rate setup |
| tx_state.hpp, tx_statemachine.hpp | Tx | complete |
| uart_pio.cpp | UartPio, TxDev, TxFine | DMA and FIFO registers as a nondeterministic system; in TxDev/TxFine the PIO is the interpreted program |
| p1p2_uart_tx.pio, twos_complement.pio | Pio | instruction-level interpreter running the transcribed program text |
| shiftreg.hpp, dcblock, fir_filter, resample, level_detect, line_busy, uart_bit_detect_fast, uart_edge_detect | Dsp | complete |
| uart_bit_detect.hpp | OldDetect | dead code, which no longer compiles (constructor arguments); modelled as intended |
| uart.cpp | Uart | complete |
| adc.cpp | Adc, AdcDev | Adc: `Update`, `Error`, `Reset`, `DMARestart` on an abstract DMA ring; AdcDev: with the ADC FIFO, both DMA channels and the sign conversion program, proved to refine it; not the register setup |
| standalone.cpp | Standalone | complete |
| led_driver.hpp, led_manager.hpp | Led, LoopLeds, LedRace | the timer callbacks do not interrupt each other |
| main.cpp | Core1 (`core1_entry`), Core0 (`core0_entry`), Board (both cores, ADC and FIFO joined) | complete except banner and start-up |

## 4. Not modelled, and assumptions

* Hardware initialisation: constructor of `DifferentialADC` (ADC, DMA and PIO setup, `irq_dma_handler`, which only
  acknowledges), `p1p2_uart_tx_program_init`, `twos_complement_program_init`, pin and slew rate setup (the dividers set are modelled: C148),
  `multicore_launch_core1`, the banner, destructors, the boot loader entry itself (that the command reaches it is modelled).
* C library: `isspace`, `isxdigit`, `atoll`, `strtol`, `snprintf` (truncation to the buffer size), `time_reached`,
  `to_ms_since_boot` (32-bit truncation) behave as documented; behaviour that is undefined by the standard
  (`atoll` out of range) is `ub`.
* RP2040: memory accesses of one core are sequentially consistent, the inter-core FIFO has 8 words and drops nothing by itself,
  DMA transfers to the ring in order; the receive path theorems say for which schedules ("keeps up") they hold.
  PIO: one instruction per clock (the divider is 208333/256 of 125 MHz, see C148; the exact numbers are in `Spec/Modem.lean`),
  autopull and side-set as in the data sheet, `pull` of the next byte and DMA write in the same cycle are both allowed orders.
* The analogue front end: theorems about the bus quantify over the ADC codes; the mask or tolerance they need is part of the
  statement (`Spec/Rx`, `Spec/Shape`, `Spec/Clock`, `Spec/Timed`, `Spec/Eye`).
* The USB CDC side of stdio: `putchar_raw` delivers to an output list; `getchar_timeout_us(0)` gives what arrived.
* LED timer callbacks are atomic with respect to the main loop's calls, except in `LedRace` (C131), where the timer strikes between the load and the store of a call.
* Sleeping (`__wfe`, `best_effort_wfe_or_timeout`) is an iteration that finds nothing to do; how long it lasts is part of the schedule. What wakes the receiving core is not modelled: the interrupts of
  adc.cpp:129-134 are enabled by a constructor that runs on core 0, so on the text of this repository core 1 depends on events core 0 sends from within the SDK. That it wakes in time is the hypothesis "keeps up".
* Compiler optimisation and the timing of core 0/1 code are not modelled: time is an input of every loop iteration, only monotonic.

## 5. Disagreements with the documentation found

Each is a theorem `Cxx_..._refuted`.

* C03/C84: a host line with more than 64 hex digits writes past the payload.
* C05: with exactly one prefix, the digits of the time stamp become data. C76: colons in a comment are delimiters.
* C06: on the target plain `char` is unsigned, so characters from 0x80 index outside the hex digit logic.
* C10: `FifoIrqSafe::At` ignores the read pointer. C13/C14/C17: pipelined or overlong host lines and the ninth packet are lost.
* C19: an interrupt between `Pop` and `putchar_raw` swaps output bytes. C21/C57: 32-bit millisecond counter.
* C28/C75: status 21 and OR-ed statuses are not documented. C33: back-to-back frames are 175 cycles long, not 176.
* C45: after 2^32 idle samples a byte is invented. C48/C49: an overrun of exactly 255 samples is missed; the end of a DMA block.
* C51: the idle counter is not cleared by a byte. C53: a race loses an overflow. C56: 32 byte packets.
* C64/C65/C66/C69/C86/C90: standalone controller: stale bytes in answers, short packets do not clear, inverted address comparison,
  status ignored, uninitialised bytes compared.
* C77: the byte being shifted out is invisible. C79: the API accepts an empty packet and reads out of bounds.
* C81: from 4682 mV the correlation overflows `int16_t`. C110: collisions and lost words are not shown by the LEDs.
* C115: `PrintShiftreg` reads 8 values too many with parity.
* C124: the wait at the end of a DMA block is entered, contrary to the comment at adc.cpp:211; a reset can swap the sign of the wires.
* C136: bytes after the last one of the own packet are not compared, so a longer packet of another sender that begins with the own one is not noticed as a collision.
