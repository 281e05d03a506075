{"id": "C01", "title": "Host line round trip", "statement": "For every message the modem can emit (at most 32 data bytes, time below 2^63 ms, status below 2^31), parsing the text line that was printed for it yields exactly the same time, status, length and data bytes.", "quantifier": "all times, statuses and byte sequences of length 0..32", "why_tests_cant": "2^63 times x 2^31 statuses x 256^32 payloads; unit tests use three literals", "anchors": ["pico/src/message.cpp: Message::c_str", "pico/src/message.cpp: Message::Message(char*)", "pico/doc/uart.md"]}
{"id": "C02", "title": "Printed line has the documented shape and fits its buffer", "statement": "The text printed for a message is exactly: the time in decimal without leading zeros, ':', the status in lower-case hex with at least two digits, ':', then two lower-case hex digits per data byte in order; printing never truncates and never writes outside the 128 byte line buffer.", "quantifier": "all messages with at most 32 bytes, any 64-bit time, any 32-bit status, any previous content of the reused line buffer", "why_tests_cant": "truncation and overrun depend on the extreme field widths and on the history of the static buffer", "anchors": ["pico/src/message.cpp: Message::c_str"]}
{"id": "C03", "title": "Parsing a line never writes outside the message", "statement": "Parsing any NUL-terminated line the line buffer can hold never stores outside the 32 byte payload of the message object.", "quantifier": "all lines of up to 127 characters", "why_tests_cant": "tests use payloads of at most 3 bytes; the failing lines are those with more than 64 data digits", "anchors": ["pico/src/message.cpp: Message::Message(char*)", "pico/src/host_uart.cpp: HostUART::OnLineReceived"]}
{"id": "C04", "title": "Every documented notation of a packet parses to that packet", "statement": "For every packet and every way of writing it - upper or lower case digits, spaces between any two digits, optional trailing ';' or '#' comment, with two prefixes (each possibly empty) or with none - parsing yields exactly the packet bytes; a trailing single digit adds no byte.", "quantifier": "all byte sequences up to 32 bytes, all spacings and letter cases, all comments", "why_tests_cant": "unbounded number of spellings", "anchors": ["pico/src/message.cpp: Message::Message(char*)", "pico/doc/uart.md"]}
{"id": "C05", "title": "A line with one prefix keeps the prefix out of the data", "statement": "uart.md allows a line with one prefix: for 'time:data' the data bytes are those after the ':' and the time digits are not taken as data.", "quantifier": "all lines with exactly one ':'", "why_tests_cant": "tests contain no line with exactly one colon", "anchors": ["pico/src/message.cpp: Message::Message(char*)", "pico/doc/uart.md"]}
{"id": "C06", "title": "Characters that are not hex digits contribute no data", "statement": "A character in the data field that is neither a hex digit, a space nor a comment mark is skipped: it adds nothing to the packet, on the target (ARM) as on the test host.", "quantifier": "all data fields, both signednesses of plain char", "why_tests_cant": "the behaviour depends on the signedness of plain char, which differs between the unit-test host and the target", "anchors": ["pico/src/message.cpp: Message::Message(char*) decoded = -1"]}
{"id": "C07", "title": "Parsed prefixes", "statement": "For every line with two prefixes, the time is the decimal value of the first prefix and the status the hexadecimal value of the second (0 when empty), independent of what follows; out-of-range values never corrupt the other fields.", "quantifier": "all prefixes made of digits", "why_tests_cant": "value ranges are astronomically large; saturation differs between 32 and 64 bit long", "anchors": ["pico/src/message.cpp: Message::Message(char*)"]}
{"id": "C08", "title": "Receive packet buffer is a bounded list", "statement": "Any sequence of append, clear and overflow queries on a message behaves as a list bounded to 32 bytes: appends beyond 32 are ignored, clear empties it and resets the status but not the time, overflow is reported exactly when 32 bytes are held, and no access leaves the payload.", "quantifier": "all operation sequences from any constructed message", "why_tests_cant": "histories are unbounded", "anchors": ["pico/src/message.cpp: Message::Append, Clear, Overflow, Message(time,status,data,length)"]}
{"id": "C09", "title": "Interrupt-safe FIFO is a bounded queue", "statement": "For every capacity N>0 and element type, any sequence of Push/Pop/Length/Empty/Full/Clear calls, starting from either constructor, returns exactly what a first-in first-out queue of capacity N returns, and no access leaves the storage array.", "quantifier": "all capacities, element types and operation sequences", "why_tests_cant": "wrap-around depends on the whole history", "anchors": ["pico/src/fifo_irqsafe.hpp: FifoIrqSafe"]}
{"id": "C10", "title": "FIFO positional read is oldest-first", "statement": "At(i) returns the i-th oldest stored element, for every i below the current length.", "quantifier": "all histories and positions", "why_tests_cant": "the unit test only reads a freshly initialised FIFO, where the read offset is 0", "anchors": ["pico/src/fifo_irqsafe.hpp: FifoIrqSafe::At"]}
{"id": "C11", "title": "FIFO operations are atomic with respect to interrupts", "statement": "However an interrupt handler that uses the FIFO is interleaved with the instructions of a FIFO call in the main program, every call behaves as if it ran alone at one instant: there is a sequential order of all calls that explains all results and the final content.", "quantifier": "all schedules of interrupt arrivals at instruction granularity, all programs of main and handler", "why_tests_cant": "interleavings cannot be enumerated on the host; the test stubs out interrupt masking", "anchors": ["pico/src/fifo_irqsafe.hpp: save_and_disable_interrupts, restore_interrupts", "pico/src/host_uart.cpp: on_uart_irq"]}
{"id": "C12", "title": "Host line buffer keeps the received characters", "statement": "Any sequence of Push/Length/Empty/Full/Clear/At/Data behaves as an append-only buffer bounded to N: characters are kept in arrival order, a full buffer refuses and keeps its content.", "quantifier": "all capacities and operation sequences", "why_tests_cant": "histories are unbounded", "anchors": ["pico/src/line_receiver_irqsafe.hpp: LineReceiverIrqSafe"]}
{"id": "C13", "title": "Every complete host line is processed exactly once", "statement": "Every non-empty line of at most 127 characters that the host sends, terminated by CR, LF or CRLF, is handed to the line handler exactly once, unmodified and in order, whatever the timing of the polls.", "quantifier": "all byte streams and all splits of the stream into polls", "why_tests_cant": "arrival timing relative to the 1-5 ms poll loop is not controllable in a test", "anchors": ["pico/src/host_uart.cpp: HostUART::CheckRXFIFO, CheckRxLine, Check"]}
{"id": "C14", "title": "Host input recovers from an overlong line", "statement": "After a line of any length, the next properly terminated line is processed.", "quantifier": "all line lengths, including 128 characters and more", "why_tests_cant": "needs a specific long history followed by an unbounded future", "anchors": ["pico/src/host_uart.cpp: HostUART::CheckRxLine, CheckRXFIFO", "pico/src/line_receiver_irqsafe.hpp: Push"]}
{"id": "C15", "title": "Bootloader is entered exactly on its command", "statement": "The device reboots into the USB bootloader if and only if the line starts with ';!BLD!;'; the check reads no byte beyond the terminating NUL.", "quantifier": "all lines", "why_tests_cant": "all possible lines", "anchors": ["pico/src/host_uart.cpp: HostUART::OnLineReceived"]}
{"id": "C16", "title": "Comment and empty lines have no effect", "statement": "A line that is empty or starts with '#' or ';' (other than the bootloader command) changes neither the clock nor the queue of packets to send nor anything else.", "quantifier": "all such lines, all states", "why_tests_cant": "unbounded set of lines and states", "anchors": ["pico/src/host_uart.cpp: HostUART::OnLineReceived"]}
{"id": "C17", "title": "Host packets are queued in order and never dropped silently", "statement": "Packets accepted from the host are handed to the transmitter in arrival order; a packet that cannot be queued is reported to the host.", "quantifier": "all sequences of received lines and pops", "why_tests_cant": "depends on unbounded histories of producer and consumer", "anchors": ["pico/src/host_uart.cpp: HostUART::OnLineReceived, Pop, HasData"]}
{"id": "C18", "title": "Outgoing lines are framed", "statement": "Whatever the fill level, sending a message queues a prefix of 'line CR LF' behind what is already queued, never disturbs queued bytes, and queues all of it whenever enough space is free; an empty output queue always has enough space for any message. What leaves towards the host is exactly what was queued, in order.", "quantifier": "all messages, all fill levels, all sequences of sends and hardware drains", "why_tests_cant": "fill level depends on the unbounded history of drains", "anchors": ["pico/src/host_uart.cpp: HostUART::Send, UpdateAndSend, CheckTXFIFO"]}
{"id": "C19", "title": "Output byte order survives interrupts", "statement": "The bytes reach the host UART in the order in which they were queued, wherever the UART interrupt strikes.", "quantifier": "all interrupt arrival points between taking a byte from the queue and writing it to the UART", "why_tests_cant": "needs a specific instruction-level interleaving", "anchors": ["pico/src/host_uart.cpp: HostUART::CheckTXFIFO, on_uart_irq, Check, Send"]}
{"id": "C20", "title": "Lost output is signalled", "statement": "If any byte of an outgoing line could not be queued, the next message sent carries the overflow status bit, exactly once per loss episode; if nothing was lost, the status of a message is sent unmodified.", "quantifier": "all histories of sends and drains", "why_tests_cant": "unbounded histories", "anchors": ["pico/src/host_uart.cpp: HostUART::UpdateAndSend, Send"]}
{"id": "C21", "title": "Host clock", "statement": "After the host sets the time to t, the reported time is t plus the milliseconds elapsed since, for as long as the device runs.", "quantifier": "all set times and elapsed times", "why_tests_cant": "the 32-bit millisecond counter wraps after 49.7 days", "anchors": ["pico/src/host_uart.cpp: HostUART::SetTime, GetTime"]}
{"id": "C22", "title": "Transmit amplifier is powered only while transmitting", "statement": "At every moment the amplifier shutdown pin is asserted whenever the transmitter is idle or still waiting for a free line, and released in every other phase.", "quantifier": "all histories of requests, updates and clock values", "why_tests_cant": "histories are unbounded", "anchors": ["pico/src/tx_statemachine.hpp: TxStateMachine::ChangeState, Update", "pico/src/uart_pio.cpp: UARTPio::EnableShutdown"]}
{"id": "C23", "title": "Listen before talk", "statement": "Bytes are handed to the bus hardware only after the amplifier has been powered for at least 32 ms, and every update since the power-up decision saw the bus free; at the power-up decision the bus was free and the transmit hardware reported itself drained.", "quantifier": "all histories of requests, updates and clock values", "why_tests_cant": "timing histories are unbounded", "anchors": ["pico/src/tx_statemachine.hpp: TxStateMachine::Update", "pico/src/tx_state.hpp: TxState", "pico/src/defines.hpp"]}
{"id": "C24", "title": "Success means a verified echo", "statement": "If the transmitter returns to idle without having raised an error for the message, then every byte of the message was received back error-free, exactly once, in order and with the same value.", "quantifier": "all messages of 1..32 bytes and all histories of bus events", "why_tests_cant": "adversarial event orders", "anchors": ["pico/src/tx_statemachine.hpp: TxStateMachine::Update, Error"]}
{"id": "C25", "title": "Every failure is flagged and stops the transmission", "statement": "A differing echo byte, a receive error, a timeout in any phase, an unexpectedly busy bus while powering up, an unexpectedly free bus while checking data, or a hardware error raises the error flag in that same update and the transmitter does not continue sending the message; the flag stays until read or until the next message starts.", "quantifier": "all histories", "why_tests_cant": "fault sequences are unbounded", "anchors": ["pico/src/tx_statemachine.hpp: TxStateMachine::Update, Error"]}
{"id": "C26", "title": "A transmission always ends", "statement": "For every message of 1..32 bytes and every behaviour of the bus, if updates come at least every d microseconds then the transmitter is idle again within a bound that depends only on the length and d.", "quantifier": "all bus behaviours, all update schedules with gap at most d", "why_tests_cant": "liveness over infinite behaviours", "anchors": ["pico/src/tx_statemachine.hpp: TxStateMachine::Update", "pico/src/tx_state.hpp: TimeoutForState, IsTimeoutError"]}
{"id": "C27", "title": "Echo check stays inside the message", "statement": "For every history of messages of 1..32 bytes, checking the echo never reads beyond the message bytes: no out-of-range access, and the observable behaviour depends on nothing but the message bytes.", "quantifier": "all histories of updates for every message accepted by the transmitter", "why_tests_cant": "requires adversarial event sequences; the unit test itself uses an empty message", "anchors": ["pico/src/tx_statemachine.hpp: TxStateMachine::Update TxMsg.Data[TxOffset]"]}
{"id": "C28", "title": "A collision is reported with the documented status", "statement": "When the echo differs from the transmitted byte the status reported to the host is 1 (STATUS_ERR_BUS_COLLISION), as documented.", "quantifier": "all histories ending in a differing echo byte", "why_tests_cant": "tests never check the status value", "anchors": ["pico/src/tx_statemachine.hpp: RxMsg.Status = 21", "pico/src/message.hpp: STATUS", "pico/doc/uart.md"]}
{"id": "C29", "title": "A request during a transmission has no effect", "statement": "Requesting a transmission while another one is running changes nothing; when idle the request loads the message and clears any stale error and echo.", "quantifier": "all states", "why_tests_cant": "all states", "anchors": ["pico/src/tx_statemachine.hpp: TxStateMachine::WakeAndTransmit"]}
{"id": "C30", "title": "No stale bytes on the powered bus", "statement": "The bytes the hardware shifts out after a message has been handed over are a prefix of that message, never remains of an earlier aborted one.", "quantifier": "all interleavings of DMA/PIO progress with updates, all aborts", "why_tests_cant": "hardware progress is asynchronous", "anchors": ["pico/src/uart_pio.cpp: UARTPio::Send, ClearFifo, Transmitting, DataWaiting", "pico/src/tx_statemachine.hpp: TxStateMachine"]}
{"id": "C31", "title": "Transmitted waveform", "statement": "For every byte sequence, the pin waveform produced by the transmit PIO program is, byte after byte: start pulse, eight data bits LSB first (a '1' is no pulse, a '0' a half-bit pulse of alternating polarity), even parity, stop.", "quantifier": "all byte sequences, all idle gaps", "why_tests_cant": "all sequences; hardware needed", "anchors": ["pico/src/p1p2_uart_tx.pio", "pico/doc/Pio0.md"]}
{"id": "C32", "title": "Transmitted frames are DC free with even parity", "statement": "In every frame the pulses alternate in polarity starting positive, their number is even (so positive and negative pulses cancel), and data plus parity bit contain an even number of ones.", "quantifier": "all bytes", "why_tests_cant": "holds only if it holds for every input, state and history; tests sample a few", "anchors": ["pico/src/p1p2_uart_tx.pio", "pico/src/main.cpp: PARITY_EVEN comment"]}
{"id": "C33", "title": "Transmit bit timing", "statement": "Every bit of every frame, including the stop bit, lasts exactly 16 PIO cycles.", "quantifier": "all byte sequences", "why_tests_cant": "cycle counts of every path through the PIO program", "anchors": ["pico/src/p1p2_uart_tx.pio", "pico/doc/Pio0.md"]}
{"id": "C34", "title": "ADC sign conversion program", "statement": "For every sequence of 8-bit samples the second PIO program delivers, in order, 16-bit words that are alternately the negated and the plain sample value.", "quantifier": "all sample sequences", "why_tests_cant": "hardware needed", "anchors": ["pico/src/twos_complement.pio", "pico/doc/Pio1.md"]}
{"id": "C35", "title": "Shift register shows the last N samples", "statement": "For every N>0 and every history, position i of the register is the i-th oldest of the last N inputs (initial content before that), the value pushed out is the one N inputs ago, and no access leaves the 2N buffer.", "quantifier": "all N, histories and positions", "why_tests_cant": "wrap-around depends on history", "anchors": ["pico/src/shiftreg.hpp: ShiftReg"]}
{"id": "C36", "title": "FIR filter", "statement": "The filter output is the 7-tap convolution of the last 7 samples with the fixed symmetric coefficients, scaled by 2^-15 rounding down; no intermediate overflows for |sample| <= 50000.", "quantifier": "all sample histories", "why_tests_cant": "holds only if it holds for every input, state and history; tests sample a few", "anchors": ["pico/src/fir_filter.cpp: FIRFilter::Update", "pico/src/shiftreg.hpp: Convolute"]}
{"id": "C37", "title": "Resampler keeps every (n+1)-th sample", "statement": "For every n and every input stream the outputs are exactly the inputs at positions 0, n+1, 2(n+1), ...", "quantifier": "all n, all streams", "why_tests_cant": "holds only if it holds for every input, state and history; tests sample a few", "anchors": ["pico/src/resample.hpp: Resample::Update"]}
{"id": "C38", "title": "DC blocker", "statement": "For inputs bounded by 16000 the DC blocker never overflows and its output stays within twice the bound plus one; for a constant input the output eventually is 0 or -1 and stays there.", "quantifier": "all bounded input histories, all states", "why_tests_cant": "limit behaviour and worst-case histories", "anchors": ["pico/src/dcblock.cpp: DCblock::Update"]}
{"id": "C39", "title": "Level hysteresis", "statement": "A sample is passed unattenuated exactly while a pulse is detected: detection of a polarity starts at the first sample at or beyond +-1400 mV while none is detected and ends at the first sample inside 600 mV of that side; everything else is attenuated to 26/256; the two polarities never follow each other without an undetected sample between.", "quantifier": "all sample histories", "why_tests_cant": "holds only if it holds for every input, state and history; tests sample a few", "anchors": ["pico/src/level_detect.hpp: Level::Update"]}
{"id": "C40", "title": "Pulse detector", "statement": "The detector output is determined by the last 16 samples: positive (negative) pulse correlation minus the energy outside the pulse when it reaches the threshold, else 0; it is odd (negating all inputs negates all outputs), 0 for every constant input, and never overflows for |sample| <= 10^8.", "quantifier": "all sample histories", "why_tests_cant": "holds only if it holds for every input, state and history; tests sample a few", "anchors": ["pico/src/uart_bit_detect_fast.cpp: UARTBit::Update, UARTBit::UARTBit"]}
{"id": "C41", "title": "Receive chain never overflows", "statement": "For every sequence of ADC sample words the conversion programs can deliver, no signed overflow and no out-of-range access happens anywhere in the receive chain ADC - FIR - resampler - DC blocker - level - pulse detector - UART.", "quantifier": "all infinite sample sequences", "why_tests_cant": "worst-case sample sequences", "anchors": ["pico/src/main.cpp: core1_entry", "pico/src/adc.cpp: DifferentialADC::Update"]}
{"id": "C42", "title": "Every in-tolerance frame is decoded", "statement": "For every byte and every waveform whose pulse samples lie between lo and hi mV (lo >= 1400, hi within 4/3 of lo minus margin, hi <= 4681) and whose other samples lie within +-599 mV, the receiver delivers exactly that byte without error.", "quantifier": "all bytes, all waveforms in the tolerance band", "why_tests_cant": "uncountably many waveforms; tests use one amplitude", "anchors": ["pico/src/uart.cpp: UART::Update, FindBestPhase, ExtractDataAndParity", "pico/src/level_detect.hpp", "pico/src/uart_bit_detect_fast.cpp"]}
{"id": "C43", "title": "Corrupted frames are flagged", "statement": "For every sequence of eleven symbols starting with a pulse, within the same tolerance, the receiver reports an error exactly if the parity is wrong, a pulse repeats the previous polarity, or the stop symbol is a pulse.", "quantifier": "all 2*3^10 symbol sequences, all waveforms in tolerance", "why_tests_cant": "holds only if it holds for every input, state and history; tests sample a few", "anchors": ["pico/src/uart.cpp: UART::ExtractDataAndParity, FindBestPhase"]}
{"id": "C44", "title": "The modem can receive what it transmits", "statement": "For every byte sequence, feeding the waveform of the transmit PIO program (scaled to any amplitude in tolerance) to the receive chain from the level detector on yields exactly that byte sequence with no error.", "quantifier": "all byte sequences, all amplitudes in tolerance", "why_tests_cant": "arbitrarily long sequences", "anchors": ["pico/src/p1p2_uart_tx.pio", "pico/src/uart.cpp", "pico/src/uart_bit_detect_fast.cpp", "pico/src/level_detect.hpp"]}
{"id": "C45", "title": "A silent line yields nothing", "statement": "As long as the line is idle the receiver reports neither a byte nor an error, for any duration.", "quantifier": "all idle durations", "why_tests_cant": "the failure needs 2^32 idle samples (7.8 hours)", "anchors": ["pico/src/uart.cpp: UART::Update WAIT_FOR_START fallthrough counter--"]}
{"id": "C46", "title": "One result per detected start, at a fixed delay", "statement": "After a start is detected the receiver delivers exactly one result, exactly 168 samples (152 without parity) after the start sample, decoded only from the samples since the start, whatever follows; every register read is in range.", "quantifier": "all sample values", "why_tests_cant": "holds only if it holds for every input, state and history; tests sample a few", "anchors": ["pico/src/uart.cpp: UART::Update, FindBestPhase, ExtractData, ExtractDataAndParity, PrintShiftreg"]}
{"id": "C47", "title": "Differential sample", "statement": "While the consumer lags by less than 255 samples, the n-th delivered value is gain-scaled (average of samples n and n-2) plus sample n-1, i.e. always channel 1 minus channel 0 at one instant, whatever the ring-buffer position.", "quantifier": "all sample streams, all lags, all positions", "why_tests_cant": "holds only if it holds for every input, state and history; tests sample a few", "anchors": ["pico/src/adc.cpp: DifferentialADC::Update, SetGain", "pico/doc/ADC.md"]}
{"id": "C48", "title": "ADC overrun is detected", "statement": "Whenever a delivered value was computed from an overwritten ring-buffer slot, the error flag is raised.", "quantifier": "all lags", "why_tests_cant": "requires exact timing", "anchors": ["pico/src/adc.cpp: DifferentialADC::Update overrun check"]}
{"id": "C49", "title": "Every ADC sample is delivered once", "statement": "Without overrun every sample transferred by the DMA is delivered exactly once, including at the end of a DMA block.", "quantifier": "all histories across DMA restarts", "why_tests_cant": "blocks are 2^28 samples long", "anchors": ["pico/src/adc.cpp: DifferentialADC::Update, DMARestart"]}
{"id": "C50", "title": "Line busy and line free events alternate", "statement": "The receive core signals line-free and line-busy strictly alternating, starting with line-free, for every signal.", "quantifier": "all receive histories", "why_tests_cant": "holds only if it holds for every input, state and history; tests sample a few", "anchors": ["pico/src/main.cpp: core1_entry LineIsBusy"]}
{"id": "C51", "title": "Line free means a full byte time of continuous silence", "statement": "Line-free is signalled only after the receiver has been waiting for a start for at least 11 bit times without interruption.", "quantifier": "all receive histories", "why_tests_cant": "needs packets of more than 25 bytes", "anchors": ["pico/src/main.cpp: core1_entry LineIdleCounter"]}
{"id": "C52", "title": "Inter-core words are lossless", "statement": "Every received byte and every busy/free/ADC-error event produces a non-zero word, and unpacking a packed word gives back all fields.", "quantifier": "all field values", "why_tests_cant": "holds only if it holds for every input, state and history; tests sample a few", "anchors": ["pico/src/main.cpp: CoreInterchangeData"]}
{"id": "C53", "title": "Inter-core overflow is always reported", "statement": "Whenever the receive core drops a word because the inter-core FIFO is full, a line with the overflow status is sent to the host afterwards.", "quantifier": "all interleavings of the two cores", "why_tests_cant": "needs a specific interleaving of two cores", "anchors": ["pico/src/main.cpp: FifoErr"]}
{"id": "C54", "title": "Received bytes reach the host exactly once, in order", "statement": "The concatenation of the data of all packets reported to the host, plus the bytes still being collected, is exactly the sequence of received bytes, for every event history.", "quantifier": "all histories of inter-core events and clock values", "why_tests_cant": "histories are unbounded", "anchors": ["pico/src/main.cpp: core0_entry RxMsg"]}
{"id": "C55", "title": "Receive errors are never hidden", "statement": "Every reported packet that contains a byte received with an error has a non-zero status.", "quantifier": "all histories", "why_tests_cant": "holds only if it holds for every input, state and history; tests sample a few", "anchors": ["pico/src/main.cpp: core0_entry RxMsg.Status"]}
{"id": "C56", "title": "Packets that fit are reported as one intact line", "statement": "A packet of at most 32 error-free bytes, delimited by line-free events, is reported as exactly one line with status 0.", "quantifier": "all packets of 1..32 bytes", "why_tests_cant": "boundary at exactly 32 bytes", "anchors": ["pico/src/main.cpp: core0_entry", "pico/src/message.cpp: Overflow"]}
{"id": "C57", "title": "Busy-line watchdog", "statement": "While the bus stays busy the host is told (status 4) no earlier than 500 ms after it became busy and at the first check more than 500 ms after, at any uptime.", "quantifier": "all clock values", "why_tests_cant": "32-bit millisecond wrap-around", "anchors": ["pico/src/main.cpp: core0_entry LINE_BUSY_TIMEOUT_MS"]}
{"id": "C58", "title": "Host packets have priority", "statement": "A transmission is started only when the transmitter is idle; a queued host packet is always taken before a pending controller answer.", "quantifier": "all states", "why_tests_cant": "holds only if it holds for every input, state and history; tests sample a few", "anchors": ["pico/src/main.cpp: core0_entry"]}
{"id": "C59", "title": "A failed transmission is reported to the host", "statement": "Whenever the transmitter raised an error, the next loop iteration sends the host a line with a non-zero status, unless the failure is a receive error which the receive path reports.", "quantifier": "all histories", "why_tests_cant": "holds only if it holds for every input, state and history; tests sample a few", "anchors": ["pico/src/main.cpp: core0_entry TxFailure"]}
{"id": "C60", "title": "Packet checksum is self-checking", "statement": "Appending the checksum of any packet to the packet yields a packet whose checksum is zero.", "quantifier": "all packets", "why_tests_cant": "all byte sequences", "anchors": ["pico/src/standalone.cpp: GenCRC"]}
{"id": "C61", "title": "Checksum detects bit errors", "statement": "Any single corrupted bit, and any burst of up to 8 consecutive bits, in a packet of any length changes the checksum.", "quantifier": "all packets, all error positions and patterns", "why_tests_cant": "all byte sequences", "anchors": ["pico/src/standalone.cpp: GenCRC"]}
{"id": "C62", "title": "The controller answers exactly the valid requests", "statement": "An answer becomes pending if and only if the controller is operating and the received packet has more than 3 bytes, is a request to the current address of type 0x30 or 0x31, and ends with its correct checksum.", "quantifier": "all packets, all states", "why_tests_cant": "holds only if it holds for every input, state and history; tests sample a few", "anchors": ["pico/src/standalone.cpp: Receive, NeedToHandlePacket, GenerateAnswer"]}
{"id": "C63", "title": "Answers are well-formed", "statement": "Every answer has the answer command, the own address and the request type, echoes the request payload (with the LAN adapter id for type 0x31), has 18 resp. 16 bytes and ends with its correct checksum.", "quantifier": "all requests", "why_tests_cant": "holds only if it holds for every input, state and history; tests sample a few", "anchors": ["pico/src/standalone.cpp: GenerateAnswer, TxAnswer"]}
{"id": "C64", "title": "Answers depend only on the request", "statement": "Two packets with the same bytes produce the same answer, whatever was received before.", "quantifier": "all pairs of states and equal packets", "why_tests_cant": "depends on stale buffer content", "anchors": ["pico/src/standalone.cpp: GenerateAnswer"]}
{"id": "C65", "title": "Lifetime of a pending answer", "statement": "An answer is pending only while operating, and until it is taken, another packet is received, a collision is reported or operation is suspended; taking it clears it.", "quantifier": "all operation sequences", "why_tests_cant": "holds only if it holds for every input, state and history; tests sample a few", "anchors": ["pico/src/standalone.cpp: HasTxData, TxAnswer, Receive, Check, BusCollision", "pico/src/standalone.hpp"]}
{"id": "C66", "title": "Own answers are recognised", "statement": "Every packet produced by the controller is recognised as its own, and packets from other addresses are not.", "quantifier": "all answers the controller can produce", "why_tests_cant": "the function has no test", "anchors": ["pico/src/standalone.cpp: IsTxAnswer"]}
{"id": "C67", "title": "Controller phases", "statement": "The controller stays 100 ms silent, then scans for at least 2 s, then operates for 10 min, and starts over; it never answers while silent or scanning.", "quantifier": "all clock schedules", "why_tests_cant": "10 minute timers", "anchors": ["pico/src/standalone.cpp: Check"]}
{"id": "C68", "title": "Controller address", "statement": "The address is always 0xF0 or 0xF1 and changes exactly when, while scanning, a checksum-correct answer of type 0x30 from that very address is received.", "quantifier": "all histories", "why_tests_cant": "holds only if it holds for every input, state and history; tests sample a few", "anchors": ["pico/src/standalone.cpp: Receive"]}
{"id": "C69", "title": "Erroneous packets are not answered", "statement": "A packet that was received with a parity or framing error is never answered.", "quantifier": "all packets with non-zero status", "why_tests_cant": "needs a parity error with matching checksum", "anchors": ["pico/src/standalone.cpp: Receive", "pico/src/main.cpp: ctrl.Receive(&RxMsg)"]}
{"id": "C70", "title": "LED severity", "statement": "At each 500 ms refresh the LEDs show the most severe event class reported since the previous refresh (internal/bus error over transmission error over activity), and receive and transmit activity are combined; activity never masks an error.", "quantifier": "all sequences of events between refreshes", "why_tests_cant": "holds only if it holds for every input, state and history; tests sample a few", "anchors": ["pico/src/led_manager.hpp: LEDManager"]}
{"id": "C71", "title": "LED patterns", "statement": "The pattern shown for each state is the documented one.", "quantifier": "all states", "why_tests_cant": "holds only if it holds for every input, state and history; tests sample a few", "anchors": ["pico/src/led_manager.hpp: Update", "pico/doc/leds.md"]}
{"id": "C72", "title": "LED blink rates", "statement": "A slowly blinking LED changes exactly every 500 ms, a fast blinking one every 100 ms, a steady one never, for any run length and any preceding history.", "quantifier": "all histories of settings and ticks", "why_tests_cant": "holds only if it holds for every input, state and history; tests sample a few", "anchors": ["pico/src/led_driver.hpp: LEDdriver"]}
{"id": "C73", "title": "Energy based busy detector", "statement": "The detector reports busy exactly when more than N/8 and at most 5N/8 of the last N samples exceed the level in magnitude.", "quantifier": "all N, levels and histories", "why_tests_cant": "holds only if it holds for every input, state and history; tests sample a few", "anchors": ["pico/src/line_busy.hpp: LineBusy"]}
{"id": "C74", "title": "Edge detector", "statement": "After a reset and up to 256 updates the phase is the index of the first maximal positive probability (0 if none).", "quantifier": "all input sequences of up to 256 samples", "why_tests_cant": "holds only if it holds for every input, state and history; tests sample a few", "anchors": ["pico/src/uart_edge_detect.hpp: UARTEdge"]}
{"id": "C75", "title": "Status in a line is a documented code", "statement": "The status of every line sent to the host is the status that was set for it or the overflow code.", "quantifier": "all messages and overflow histories", "why_tests_cant": "needs an overflow coinciding with an error", "anchors": ["pico/src/host_uart.cpp: UpdateAndSend m.Status |= STATUS_ERR_OVERFLOW", "pico/doc/uart.md"]}
{"id": "C76", "title": "A trailing comment has no effect", "statement": "Text after a ';' or '#' in the data field of a line changes nothing: the line is parsed exactly as the line without the comment.", "quantifier": "all lines with a comment, all comment texts", "why_tests_cant": "comment texts are arbitrary; the parser gives a meaning to ':' wherever it occurs", "anchors": ["pico/src/message.cpp: Message::Message(char*)", "pico/doc/uart.md"]}
{"id": "C77", "title": "The transmit hardware is really drained when it says so", "statement": "When the transmit hardware reports that it is not transmitting, no byte of an earlier message is or will be put on the bus.", "quantifier": "all interleavings of the three status reads with DMA, PIO FIFO and PIO program", "why_tests_cant": "the status is composed of three registers read one after the other while the hardware moves on", "anchors": ["pico/src/uart_pio.cpp:UARTPio::Transmitting", "pico/src/p1p2_uart_tx.pio"]}
{"id": "C79", "title": "Requesting an empty packet is harmless", "statement": "Requesting the transmission of a packet without data bytes sends nothing and ends without accessing memory outside the packet.", "quantifier": "all bus behaviours after the request", "why_tests_cant": "depends on what is received afterwards", "anchors": ["pico/src/tx_statemachine.hpp:WakeAndTransmit", "pico/src/tx_statemachine.hpp:Update"]}
{"id": "C80", "title": "A transmission is never refused because the hardware is still busy", "statement": "As long as only packets of 1 to 32 bytes are requested, the transmit hardware object never reports an error: when the transmitter hands a message over, the hardware has finished copying the previous one, so the message is taken.", "quantifier": "all interleavings of software calls, DMA and PIO progress; all histories of requests", "why_tests_cant": "hardware progress is asynchronous to the transmitter's own timing", "anchors": ["pico/src/uart_pio.cpp: UARTPio::Send, DataWaiting, Error", "pico/src/tx_statemachine.hpp: TxStateMachine::Update"]}
{"id": "C81", "title": "Signals up to the ADC's full scale are decoded", "statement": "For every byte and every waveform whose pulse samples lie within one third of each other and anywhere up to the full scale of the ADC (4972 mV), the receiver delivers exactly that byte without error.", "quantifier": "all bytes, all amplitudes the ADC can represent", "why_tests_cant": "tests use one amplitude; the failure needs pulses on both sides of 4681 mV", "anchors": ["pico/src/uart.cpp: UART::Update (int16_t symbol_prob)", "pico/src/uart_bit_detect_fast.cpp: UARTBit::Update"]}
{"id": "C82", "title": "Checksum detects every odd number of bit errors", "statement": "Two packets of the same length that differ in an odd number of bits have different checksums.", "quantifier": "all pairs of packets of up to 32 bytes", "why_tests_cant": "2^512 pairs of packets", "anchors": ["pico/src/standalone.cpp: StandaloneController::GenCRC"]}
{"id": "C83", "title": "Checksum detects double bit errors", "statement": "Two packets of the same length that differ in exactly two bits have the same checksum exactly when the two bits are a multiple of 127 bit positions apart; in particular two wrong bits less than 127 positions apart are always noticed.", "quantifier": "all pairs of packets of up to 32 bytes, all pairs of positions", "why_tests_cant": "all packet contents and all pairs of positions", "anchors": ["pico/src/standalone.cpp: StandaloneController::GenCRC"]}
{"id": "C84", "title": "The main loop never has undefined behaviour", "statement": "Whatever the host sends, whatever comes from the bus and from the transmit hardware and whenever it comes, no iteration of the main loop ever reads or writes outside an array or does anything else that is undefined.", "quantifier": "all histories of iterations: characters from the host, words from the receiving core, hardware answers, clock readings, content of uninitialised memory", "why_tests_cant": "unbounded histories and all host input", "anchors": ["pico/src/main.cpp: core0_entry", "pico/src/host_uart.cpp: HostUART::Check", "pico/src/message.cpp: Message::Message(const char *)"]}
{"id": "C85", "title": "Only packets that fit are given to the transmitter", "statement": "In every history of the main loop, every packet it gives to the transmitter has at least 1 and at most 32 bytes.", "quantifier": "all histories of the main loop", "why_tests_cant": "all host lines, all requests on the bus, all orders", "anchors": ["pico/src/main.cpp: core0_entry lines 327-336", "pico/src/host_uart.cpp: HostUART::Pop", "pico/src/standalone.cpp: StandaloneController::TxAnswer"]}
{"id": "C86", "title": "Behaviour does not depend on uninitialised memory", "statement": "What the main loop does depends only on its inputs, not on the initial content of uninitialised variables (the word of the other core, the payload of messages).", "quantifier": "all histories, all contents of uninitialised memory", "why_tests_cant": "a test sees one content of memory", "anchors": ["pico/src/main.cpp: core0_entry (Core1Data)", "pico/src/message.hpp: Message", "pico/src/standalone.cpp: StandaloneController::IsTxAnswer"]}
{"id": "C87", "title": "Listen before talk in the main loop", "statement": "Whenever the main loop hands a packet to the transmit hardware, it is the last packet given to the transmitter, and for at least 32 ms (since the driver was switched on, in an earlier iteration) everything the receiving core told said that the bus is free; nothing else was done with the hardware or started meanwhile.", "quantifier": "all histories of the main loop", "why_tests_cant": "all interleavings of bus events, host input and clock readings", "anchors": ["pico/src/main.cpp: core0_entry", "pico/src/tx_statemachine.hpp: TxStateMachine::Update", "pico/src/tx_state.hpp"]}
{"id": "C88", "title": "No failure line means the packet was on the bus", "statement": "If the main loop starts to transmit a packet and no line about a failed transmission is given to the host up to the iteration after the transmitter is idle again, and nothing was received with an error meanwhile, then the packet was handed to the transmit hardware and all its bytes were received back from the bus, in order and with nothing in between.", "quantifier": "all histories of the main loop, all packets", "why_tests_cant": "all timings of echo, bus state and hardware answers", "anchors": ["pico/src/main.cpp: core0_entry", "pico/src/tx_statemachine.hpp: TxStateMachine"]}
{"id": "C89", "title": "What is transmitted and why", "statement": "The messages whose transmission the main loop starts are exactly the packets sent by the host (in order, each at most once, and none skipped unless the queue of 8 was full) and the answers of the standalone controller, each to a different valid request that was reported to the host, in order; while the controller operates, a valid request at the end of a packet is answered at once or is pending.", "quantifier": "all histories of the main loop", "why_tests_cant": "all interleavings of host input, bus events and clock readings", "anchors": ["pico/src/main.cpp: core0_entry", "pico/src/standalone.hpp: StandaloneController"]}
{"id": "C90", "title": "A failed answer silences the controller", "statement": "If the transmission of an answer of the standalone controller fails, the controller becomes silent (it assumes another controller on the bus).", "quantifier": "all histories of the main loop", "why_tests_cant": "depends on the history of collisions and on which packet was sent last", "anchors": ["pico/src/main.cpp: core0_entry", "pico/src/standalone.hpp: StandaloneController::Collision"]}
{"id": "C91", "title": "Every line about the bus is explained", "statement": "Every line given to the host about the bus is explained by what the receiving core told since the previous such line: its bytes are exactly the bytes told and its status is 0 without error, 2 / 3 after an ADC overrun / wrong byte, 2 if words were lost or 32 bytes were collected, 4 if the bus is busy for too long.", "quantifier": "all histories of the main loop", "why_tests_cant": "all sequences of words, errors and clock readings", "anchors": ["pico/src/main.cpp: core0_entry"]}
{"id": "C92", "title": "An overflow line means a loss", "statement": "The main loop tells an overflow of the inter-core FIFO at most once for every word that really could not be handed over; every other line with the overflow status is due to an overrun of the ADC or to a packet of more than 31 bytes.", "quantifier": "all interleavings of the two cores", "why_tests_cant": "concurrency of the two cores on the overflow flag", "anchors": ["pico/src/main.cpp: core0_entry, core1_entry"]}
{"id": "C93", "title": "Long packets", "statement": "A packet of any length received without errors is given to the host completely and in order: in lines of 32 bytes with the overflow status and a last line with the remaining 1 to 31 bytes with status 0.", "quantifier": "packets of any length, any timing within 500 ms", "why_tests_cant": "unbounded packet length", "anchors": ["pico/src/main.cpp: core0_entry", "pico/src/message.hpp: Message::Append"]}
{"id": "C94", "title": "Errors of the ADC are shown", "statement": "Of every stretch of received data in which the ADC was overrun or a byte was wrong, the line given to the host has a status that is not 0.", "quantifier": "all histories of the main loop", "why_tests_cant": "all positions of the error relative to packets", "anchors": ["pico/src/main.cpp: core0_entry"]}
{"id": "C95", "title": "The queues leave the interrupt mask alone", "statement": "A call of the interrupt-safe queue or line buffer leaves interrupts enabled or disabled as they were: between calls the mask is what the program set last; interrupts disabled by the caller stay disabled. During a call no interrupt is taken.", "quantifier": "all interleavings of calls and interrupts", "why_tests_cant": "interrupt timing", "anchors": ["pico/src/fifo_irqsafe.hpp: FifoIrqSafe", "pico/src/host_uart.cpp: HostUART"]}
{"id": "C96", "title": "Messages made from a buffer", "statement": "Making a message from a buffer copies the first bytes, at most 32, with the given time and status, and reads and writes nothing else, whatever length is asked for.", "quantifier": "all buffers and lengths", "why_tests_cant": "all lengths, memory safety", "anchors": ["pico/src/message.cpp: Message::Message(time, status, data, length)"]}
{"id": "C97", "title": "Transmissions by the main loop end", "statement": "After the main loop started to transmit a packet, the transmitter is idle again at the latest 72 ms + 4 ms per byte (plus the loop time per phase) later, whatever happens on the bus.", "quantifier": "all histories of the main loop, all loop periods", "why_tests_cant": "unbounded behaviours of the bus", "anchors": ["pico/src/main.cpp: core0_entry", "pico/src/tx_statemachine.hpp: TxStateMachine::Update", "pico/src/tx_state.hpp"]}
{"id": "C98", "title": "What the line about a failed transmission says", "statement": "The line about a failed transmission has the first bytes of the packet that was being transmitted, and its status tells the cause: 1 / 4 the bus was busy / free when the transmission was given up, 5 error of the transmit hardware, 21 a byte was heard that was not sent (it is the last in the line). An error of the transmit hardware during a transmission always ends it and is told with the next iteration.", "quantifier": "all histories of the main loop", "why_tests_cant": "all interleavings of failures", "anchors": ["pico/src/main.cpp: core0_entry", "pico/src/tx_statemachine.hpp: TxStateMachine::Update"]}
{"id": "C99", "title": "Every line can be printed and read back", "statement": "Every message the main loop gives to the host has at most 32 bytes and one of the statuses 0, 2, 3, 4 (bus) or 1, 4, 5, 21 (failed transmission); it is printed as documented in at most 94 characters, and reading the line with the parser gives the same packet.", "quantifier": "all histories of the main loop, all times", "why_tests_cant": "all histories and contents", "anchors": ["pico/src/main.cpp: core0_entry", "pico/src/message.cpp: Message::c_str, Message::Message(char*)", "pico/src/host_uart.cpp: HostUART::UpdateAndSend"]}
{"id": "C100", "title": "The sender driver sends each accepted message completely and refuses the others", "statement": "Whatever messages a client hands to the bus transmitter and whenever it does so, the bytes put on the wire are, in order, the bytes of the accepted messages and nothing else, complete once the hardware is idle; a message handed over while the previous copy is still under way is refused as a whole, puts nothing on the wire, and the next error query (and only one) reports it.", "quantifier": "all sequences of sends, error queries and hardware steps, all message contents", "why_tests_cant": "all interleavings of the client with DMA and the shift register", "anchors": ["pico/src/uart_pio.cpp: UARTPio::Send, UARTPio::Error", "pico/src/uart_pio.hpp: UARTPio"]}
{"id": "C101", "title": "A stall of the receiving core is detected, reported, and recovered from", "statement": "As long as the receiving core keeps within 254 samples of the converter it processes exactly the converter's samples in order; a stall of 256 or more samples inside one DMA block makes the next look restart the converter and the following report carry the ADC error; after a restart the core again processes exactly the fresh samples, starting with the first one after the restart.", "quantifier": "all schedules of DMA transfers and loop iterations, all sample values, all previous histories", "why_tests_cant": "all interleavings of DMA and core 1", "anchors": ["pico/src/main.cpp: core1_entry", "pico/src/adc.cpp: ADC::Update, ADC::Start, ADC::Error"]}
{"id": "C102", "title": "Pulses with finite edges are received", "statement": "For any bytes with any start polarities and gaps, and any waveform whose pulses have one sample of arbitrary height on either edge (edges may be late by one sample), tops within given limits and bounded residues elsewhere, these limits being within a stated tolerance, the receiver delivers exactly these bytes in order, without error; for any eleven symbols with start pulse and stop bit it delivers the byte of the data bits and its error flag tells exactly parity errors and repeated polarities.", "quantifier": "all byte sequences, polarities, gaps, waveforms in tolerance", "why_tests_cant": "infinitely many waveforms", "anchors": ["pico/src/main.cpp: core1_entry", "pico/src/level_detect.hpp", "pico/src/uart_bit_detect_fast.hpp", "pico/src/uart.hpp: UART::Update"]}
{"id": "C103", "title": "From ADC codes to inter-core words: packets are received exactly", "statement": "If, from the start on, the bus carries any sequence of packets (any bytes, 11 bit times between packets, small gaps within a packet, constant start polarity within a packet, pulses of 14 to 16 codes that are up to two codes late) and nothing else, with an amplitude of 49 to 88 ADC codes around any offset and an error of up to one code in each conversion, then for every schedule of DMA transfers and loop iterations that keeps up, the receiving core hands to the other core, per packet and in order, line free, line busy, and the bytes of the packet without errors, and nothing else.", "quantifier": "all packet sequences, byte values, gaps, offsets, amplitudes and conversion errors in tolerance, all schedules", "why_tests_cant": "infinitely many signals and schedules; the claim spans ADC driver, differential conversion, FIR, decimation, DC blocker, level and pulse detectors, UART and busy detection", "anchors": ["pico/src/main.cpp: core1_entry", "pico/src/adc.cpp: ADC::Update", "pico/src/fir_filter.cpp", "pico/src/resample.hpp", "pico/src/dcblock.cpp", "pico/src/level_detect.hpp", "pico/src/uart_bit_detect_fast.cpp", "pico/src/uart.cpp"]}
{"id": "C104", "title": "One line per packet", "statement": "If the receiving core hands over the words of a sequence of packets of 1 to 31 bytes (line free, line busy, bytes; line free at the end), no word is dropped and the bus-busy watchdog does not report, then once the main loop has taken them the host has been given exactly one line for each packet, in order, with status 0 and exactly its bytes.", "quantifier": "all sequences of packets, all interleavings of the two cores, all host input, transmissions, clock readings and uninitialised memory", "why_tests_cant": "needs induction over packets and over the interleaving of two cores; the number of iterations between words is unbounded", "anchors": ["pico/src/main.cpp: core1_entry, main"]}
{"id": "C105", "title": "From ADC codes to host lines", "statement": "If the bus carries packets of at most 31 bytes (well separated, amplitude 49 to 88 codes, every ADC code off by at most one), the receive loop keeps up, no inter-core word is dropped and the watchdog is silent, the host is given exactly one line per packet, in order, status 0, with exactly the packet's bytes.", "quantifier": "all packets, offsets, amplitudes, ADC errors of one code, DMA/loop schedules, interleavings of the cores, host traffic", "why_tests_cant": "ranges over all signals and schedules through ADC, DMA, filters, decoder, both cores", "anchors": ["pico/src/main.cpp: core1_entry", "pico/src/adc.cpp: ADC::Update", "pico/src/fir_filter.cpp", "pico/src/resample.hpp", "pico/src/dcblock.cpp", "pico/src/level_detect.hpp", "pico/src/uart_bit_detect_fast.cpp", "pico/src/uart.cpp", "pico/src/main.cpp: main", "pico/src/message.hpp"]}
{"id": "C106", "title": "The fast pulse detector computes what the convolution detector computes", "statement": "For every sequence of samples within the range the filter chain can produce, the two numbers the recursive (running-sum) pulse detector returns for each sample equal the two numbers the original detector gets by convolving the last 16 samples with its three templates, and neither overflows.", "quantifier": "all sample sequences of any length with values in -2340..2340", "why_tests_cant": "a running sum can drift after any number of samples; equality must hold at every step of every sequence", "anchors": ["pico/src/uart_bit_detect.hpp: UARTBit", "pico/src/uart_bit_detect_fast.cpp: UARTBitFast::Update", "pico/src/shiftreg.hpp: Convolute"]}
{"id": "C107", "title": "The sender's clock may differ from the receiver's", "statement": "For every sequence of bytes sent at arbitrary times, with arbitrary phase to the sampling, by a sender whose bit time T and pulse width W differ from 16 and 8 sample periods P by 9|T-16P|+|W-8P| <= P (about 0.66 %), with levels in the receiver's tolerance, the receiver behind the filters delivers exactly those bytes without error.", "quantifier": "all byte sequences, start times and polarities, sample values within the level limits, clock ratios within the tolerance, phases", "why_tests_cant": "phases and clock ratios form a continuum, and drift interacts with every position of every frame", "anchors": ["pico/src/uart.cpp: UART::Update, UART::ExtractDataAndParity", "pico/src/uart_bit_detect_fast.cpp: Update", "pico/src/level_detect.hpp: LevelDetect::Update", "pico/src/adc.cpp: DifferentialADC::DifferentialADC"]}
{"id": "C108", "title": "A sender with its own clock, from ADC codes to host lines", "statement": "If the sender's bit time T and pulse width W differ from 32 and 16 ADC conversion periods P by 9|T-32P|+(16P-W) <= 2P with W <= 16P (met by the device's clocks), packets are sent at arbitrary times with at least eleven bit times between them, and every ADC code is that of the bus level at its sampling time up to an error of one code (amplitude 49 to 88), then the receiving core hands over exactly the words of the packets, and, if no word is dropped and the watchdog is silent, the host is given exactly one status-0 line per packet with its bytes.", "quantifier": "all packets, send times, phases, clock ratios in tolerance, offsets, amplitudes, code errors, DMA/loop schedules, interleavings", "why_tests_cant": "continuum of phases and clock ratios times all schedules", "anchors": ["pico/src/adc.cpp: DifferentialADC::DifferentialADC, ADC::Update", "pico/src/main.cpp: core1_entry, main", "pico/src/uart.cpp: UART::Update", "pico/src/uart_bit_detect_fast.cpp", "pico/src/dcblock.cpp", "pico/src/fir_filter.cpp"]}
{"id": "C109", "title": "The LEDs tell the truth about the main loop", "statement": "In every history of the device, with the timer interrupts at any points: after the refresh at the end of each 500 ms period the power LED is on or blinks fast; it blinks fast only if there was trouble during the period (wrong byte, ADC overrun, bus busy for too long, and while the transmitter is idle a full inter-core FIFO, a transmit hardware error or a transmission given up); the RX LED is lit only if a byte was taken from the bus and blinks fast only if one was wrong; the TX LED is lit only if the transmitter was at work or gave up. Conversely each such trouble, byte or transmission completely within the period is shown.", "quantifier": "all histories of the main loop (host input, bus words, clock readings, hardware answers) and all interleavings with the LED timers", "why_tests_cant": "the timers interrupt anywhere and the displayed state depends on the whole period", "anchors": ["pico/src/main.cpp: core0_entry", "pico/src/led_driver.hpp: LEDdriver", "pico/src/led_manager.hpp: LEDManager"]}
{"id": "C110", "title": "Every trouble told to the host is shown by the LEDs", "statement": "If the device tells the host about an error (collision, lost bytes, bus busy for too long, no echo, hardware error) in an iteration within a LED period, the power LED blinks fast after the refresh at the end of the period.", "quantifier": "all histories of the main loop and all interleavings with the LED timers", "why_tests_cant": "depends on the phase of the transmitter at the time of the error and on the interleaving of the LED timer", "anchors": ["pico/src/main.cpp: core0_entry", "pico/src/tx_statemachine.hpp: TxStateMachine::Error, IsTransmitting", "pico/src/led_manager.hpp: LEDManager"]}
{"id": "C111", "title": "Pulses within a mask are received without error", "statement": "If every pulse on the bus covers its window of 14 conversion periods in a regular grid of 32 and takes at most 16 (edges may jitter and the sender may have its own clock), the amplitude is within range and the ADC codes are those of the levels up to an error of one, then the receiving core produces exactly the words of the packets, and the host is given one line for each packet with status 0 and its bytes.", "quantifier": "all packets, all waveforms within the mask, all ADC errors of one code, all DMA/loop schedules that keep up, all interleavings of the two cores", "why_tests_cant": "continuum of edge positions, errors and schedules", "anchors": ["pico/src/adc.cpp", "pico/src/adc.hpp", "pico/src/uart.hpp", "pico/src/main.cpp: core1_entry, core0_entry"]}
{"id": "C112", "title": "When each frame starts on the wire", "statement": "Whenever the DMA writes bytes to the transmit FIFO (as long as there is room), the frame of each byte starts in the cycle after it is written, but not before the second cycle after reset and not before 175 cycles after the start of the frame before; it takes 173 cycles, in all other cycles the line is idle and the busy flag clear.", "quantifier": "all bytes and all write schedules", "why_tests_cant": "must hold for every timing of the DMA writes relative to the state machine", "anchors": ["pico/src/p1p2_uart_tx.pio", "pico/src/uart_pio.cpp"]}
{"id": "C113", "title": "From one modem to another", "statement": "If one modem sends packets (the bytes of each written in time, with enough silence between packets), the bus carries its pin levels, and the crystals of the two modems differ by at most 500 ppm, then the other modem tells its host exactly one line for each packet, in order, with status 0 and its bytes.", "quantifier": "all packets up to 31 bytes, all write schedules in time, all phases and clock mismatches up to 500 ppm, all ADC errors of one code, all schedules of the receiver that keep up", "why_tests_cant": "the two devices run with independent clocks: continuum of phases, all schedules", "anchors": ["pico/src/p1p2_uart_tx.pio", "pico/src/adc.cpp", "pico/src/uart.hpp", "pico/src/main.cpp: core1_entry, core0_entry"]}
{"id": "C114", "title": "An undisturbed transmission succeeds", "statement": "If the main loop starts to transmit a packet, the bus becomes free (and the hardware drained) within 34 ms, stays free for the 32 ms of power-up, becomes busy within 2 ms after the packet was handed over, the bytes of the packet are heard without error and at most 4 ms apart and the bus then becomes free again, then at the end the transmitter is idle, the hardware was asked exactly to power up, send this packet, clear and power down, nothing else was started, and the host is told of no failure.", "quantifier": "all histories of the main loop, all packets, all timings within the limits", "why_tests_cant": "all timings and all splittings into iterations; converse of C88", "anchors": ["pico/src/main.cpp: core0_entry", "pico/src/tx_statemachine.hpp: TxStateMachine::Update", "pico/src/tx_state.hpp: TxState"]}
{"id": "C115", "title": "The debugging output of the receiver stays in its register", "statement": "Printing the shift register of the receiver reads nothing outside the register, at any time and in every parity mode, and shows the samples of the frame just taken.", "quantifier": "all parity modes, all histories of samples", "why_tests_cant": "an out-of-bounds read need not show; must hold in every state", "anchors": ["pico/src/uart.cpp: UART::PrintShiftreg", "pico/src/uart.hpp: UART_BUFFER_LEN", "pico/src/shiftreg.hpp: ShiftReg::At"]}
{"id": "C116", "title": "What the receiver makes of any samples", "statement": "Once a pulse arrives while the receiver waits for a start bit, exactly one result follows after a fixed number of samples, whatever the samples are; it is the meaning of the symbols (pulse up, pulse down, none) read every 16 samples from the first of the eight phases that fits best: the byte has a one for each missing pulse, and the frame is bad exactly if the number of ones in data and parity bit is wrong, there is a pulse in the stop bit, or a polarity repeats.", "quantifier": "all parity modes, all sample sequences, all histories before the pulse", "why_tests_cant": "all sequences of 168 samples; tests only feed well-formed or randomly disturbed frames", "anchors": ["pico/src/uart.cpp: UART::FindBestPhase, UART::ExtractData, UART::ExtractDataAndParity", "pico/src/uart.cpp: UART::Update"]}
{"id": "C117", "title": "What the pins show when a client uses the transmit driver", "statement": "Whatever messages a client hands to the transmit driver and whenever it clears the FIFO, the pins show, cycle by cycle, the frames of the bytes of the accepted messages in order, each starting in the cycle after the call or 175 cycles after the frame before, as if the driver had an unbounded queue; clearing drops what waits but never cuts a frame; a message is refused iff it is longer than 32 bytes or the one before is still being copied, and the next error query (only) tells so; the driver says it is transmitting exactly while a message is being copied, bytes wait, or a frame is on its way.", "quantifier": "all clients, all message contents, all interleavings of calls, DMA transfers and PIO cycles in which the DMA keeps up", "why_tests_cant": "hardware interleavings cannot be scheduled by a test", "anchors": ["pico/src/uart_pio.cpp: UARTPio::Send, ClearFifo, Error", "pico/src/p1p2_uart_tx.pio"]}
{"id": "C118", "title": "From the driver calls of one modem to the host lines of another", "statement": "If one modem hands messages of 1 to 31 bytes to its transmit driver, each after a silence of about 1.2 ms at least, none is refused, and a second modem on the same bus, with a crystal that differs by at most 500 ppm, tells its host exactly one line for each message, in order, with status 0 and its bytes.", "quantifier": "all messages, all schedules of DMA and PIO of the sender that keep up, all phases, all ADC errors of one code, all schedules of the receiver that keep up", "why_tests_cant": "two devices with independent clocks and asynchronous hardware", "anchors": ["pico/src/uart_pio.cpp: UARTPio::Send", "pico/src/p1p2_uart_tx.pio", "pico/src/adc.cpp", "pico/src/uart.hpp", "pico/src/main.cpp: core1_entry, core0_entry"]}
{"id": "C119", "title": "No stale frame on the bus after a hand-over, down to the pins", "statement": "With aborted transmissions, repeated requests and asynchronous hardware, the pins show nothing but complete frames and idle line, and the bytes of the frames that start after a message was handed over to the transmit hardware are a prefix of that message; no message is ever refused by the driver.", "quantifier": "all histories of requests and updates, all interleavings with DMA transfers and PIO cycles", "why_tests_cant": "hardware progress is asynchronous", "anchors": ["pico/src/uart_pio.cpp: UARTPio", "pico/src/p1p2_uart_tx.pio", "pico/src/tx_statemachine.hpp: TxStateMachine::Update"]}
{"id": "C120", "title": "When the receiver tells what it hears", "statement": "The receiving core tells line-free, line-busy and bytes as the signal comes, not later: line-free 2 to 376 codes (of 3.26 us) after the last frame, line-busy 25 to 33 codes after a frame begins, each byte 359 to 367 codes after its frame begins (which takes 348), whatever comes later on the line. In particular a modem that listens to its own transmitter hears each byte at these times after the cycle in which the PIO begins its frame, also while the rest of the message is not yet sent.", "quantifier": "all packets, gaps, phases, ADC errors of one code, crystal tolerances, all schedules of DMA and interrupts that keep up, all points in time; for the own transmitter: all runs so far in which calls come apart and clears come late", "why_tests_cant": "bounds on times for every waveform, schedule and cut-off point", "anchors": ["pico/src/adc.cpp: DifferentialADC::Update, DifferentialADC::Reset", "pico/src/main.cpp: core1_entry", "pico/src/fir_filter.cpp", "pico/src/dcblock.cpp", "pico/src/level_detect.hpp: LevelDetect::Update", "pico/src/uart_bit_detect_fast.cpp", "pico/src/uart.cpp: UART::Update", "pico/src/line_busy.hpp", "pico/src/uart_pio.cpp: UARTPio"]}
{"id": "C121", "title": "A modem alone on the bus transmits every packet", "statement": "If nobody else drives the bus and the modem hears its own transmitter, then no transmission ever fails: the host is told of no failed transmission, the transmit driver refuses nothing, and every packet given to the transmitter goes out completely (amplifier on, all bytes, FIFO cleared, amplifier off), in order, with 32 ms of silence before each. Once the transmitter is idle, the modem has told its own host exactly one line per packet with status 0 and its bytes, and so has any other modem that only listens. With a main loop that takes words within D and goes round within delta, a packet is through after 72 ms + 4 ms per byte (plus delta per phase).", "quantifier": "all host input, all packets, all interleavings of main loop, receiving core, ADC DMA, transmit DMA and PIO within the stated latencies, all crystal tolerances up to 500 ppm, phases and ADC errors of one code, runs of any length", "why_tests_cant": "a feedback loop of two cores, two DMA channels, the PIO and the analog line with independent clocks; a single unlucky alignment of a timeout and an echo would make a transmission fail", "anchors": ["pico/src/main.cpp: core0_entry, core1_entry", "pico/src/tx_statemachine.hpp: TxStateMachine::Update", "pico/src/tx_state.hpp", "pico/src/uart_pio.cpp", "pico/src/p1p2_uart_tx.pio", "pico/src/adc.cpp", "pico/src/uart.cpp: UART::Update"]}
{"id": "C122", "title": "Reception recovers after any disturbance", "statement": "Whatever the receiver went through before (noise, collisions, half packets, overruns and resets of the ADC, the end of a DMA block, a full FIFO between the cores): once the line has been silent for 60 bit times (1920 codes, 6.25 ms) and the loop keeps up, every packet that follows is told to the other core exactly once, in order and correctly (line busy, its bytes, line free), with nothing in between; what the disturbance left behind is over before them and the line has been reported free. The host is then given exactly one line for each of these packets, in order, with status 0 and its bytes, after lines about the history (provided no word is dropped between the cores, the watchdog does not report, and, if the line was already taken for free, the last word before told so: a word about an ADC reset after it would taint the status of the next line).", "quantifier": "all histories of DMA transfers and loop iterations of any length and with any samples from power-up on, all packets after the silence, amplitudes from 49 to 88 codes, offsets, either polarity of the sampling, one code of error, all schedules that keep up; the UART counter must not wrap (a byte or the start within 2^32 samples); for the lines: all histories of the main loop and all interleavings of the two cores", "why_tests_cant": "the state left behind by an arbitrary unbounded history (filters, DC blocker, detectors, UART, busy timer) must be forgotten in bounded time", "anchors": ["pico/src/adc.cpp: DifferentialADC::Update, DifferentialADC::Reset", "pico/src/main.cpp: core1_entry", "pico/src/fir_filter.cpp", "pico/src/dcblock.cpp", "pico/src/level_detect.hpp: LevelDetect::Update", "pico/src/uart_bit_detect_fast.cpp", "pico/src/uart.cpp: UART::Update", "pico/src/line_busy.hpp", "pico/src/main.cpp: main"]}
{"id": "C123", "title": "Done() is never true early", "statement": "TxStateMachine::Done() is true only if a message has been accepted and, since then, at least as many bytes were received without error as the message has, after the message was handed to the hardware; before the first message it is false.", "quantifier": "all histories of calls of the transmit state machine, all messages, all times", "why_tests_cant": "holds at every point of every call history", "anchors": ["pico/src/tx_statemachine.hpp: TxStateMachine::Done, Update, WakeAndTransmit"]}
{"id": "C124", "title": "No sample is lost, doubled or reordered between the ADC FIFO and the receiver", "statement": "Between resets, the codes taken from the ADC FIFO reach the sample ring each exactly once, in order and alternately negated and plain (also across the end of a DMA block), with at most nine on their way; after a reset at most one stale value precedes them and which of the two wires is negated may have changed. With a bus that grants each channel one access per conversion no conversion is lost. At the end of a DMA block the first channel has at most one transfer left and the wait for it ends without error. Whatever the hardware does between the operations of Update and Reset, the receiver does not run into undefined behaviour, and everything it tells is a function of the values stored in the ring, all between -256 and 255.", "quantifier": "all histories of conversions, DMA bus grants, clock cycles of the state machine and loop iterations, with any hardware events between the operations of Update, Stop and Start (Prompt: at the end of a block a pending transfer is served while Update waits, and less than a block of samples passes before the count is read again)", "why_tests_cant": "interleaving of four independent pieces of hardware (ADC FIFO, two DMA channels, PIO) with the program; no test sees the hardware", "anchors": ["pico/src/adc.cpp: DifferentialADC::Update, DifferentialADC::Reset, DifferentialADC::Stop, DifferentialADC::Start, DifferentialADC::DMARestart", "pico/src/twos_complement.pio", "pico/src/main.cpp: core1_entry"]}
{"id": "C125", "title": "Which way round the bus is connected does not matter", "statement": "The two wires of the bus may be swapped: for the same packets on the bus two modems, one connected each way, tell their host core the same words in the same order (busy, bytes, free), whatever their amplitudes, errors and schedules. The same holds after any history of the receive side, also one that ends with a reset which changed the wire that is negated.", "quantifier": "all packet sequences, all codes within one of the ideal ones for either connection, all amplitudes from 49 to 88, all schedules in which the loop keeps up, all histories before", "why_tests_cant": "ranges over all waveforms, polarities and histories of the receiver; the polarity of the pulses alternates within a test waveform, so no sample shows both connections", "anchors": ["pico/src/uart_bit_detect_fast.cpp: UARTBit::Update", "pico/src/uart.cpp: UART::Update", "pico/src/dcblock.cpp: DCblock::Update", "pico/src/adc.cpp: DifferentialADC::Reset", "pico/src/main.cpp: core1_entry"]}
{"id": "C126", "title": "Conversions of the ADC to words for the host core, after any history of the hardware", "statement": "After any history of conversions, bus grants, iterations, overruns, resets and ends of DMA blocks: if the bus is then silent for 1920 conversions and carries packets, no FIFO overflows and the loop keeps up, then the words for the other core are exactly those of the packets, in order and once: line busy, the bytes, line free; before them there may be a rest of the history, which is over. If moreover no word is lost between the cores and the watchdog does not report, the host is given exactly one line per packet, in order, with status 0 and its bytes.", "quantifier": "all histories of the ADC, DMA channels, state machine and loop (hardware events between the operations of Update and Reset), all packet sequences, all codes within one of the ideal ones, all later interleavings in which nothing overflows", "why_tests_cant": "the interleavings of ADC, two DMA channels, PIO and program are not controllable in a test, and the state left by a history is arbitrary", "anchors": ["pico/src/adc.cpp: DifferentialADC::Update, DifferentialADC::Reset, DifferentialADC::DMARestart", "pico/src/twos_complement.pio", "pico/src/main.cpp: core1_entry", "pico/src/fir_filter.cpp", "pico/src/dcblock.cpp", "pico/src/level_detect.hpp: LevelDetect::Update", "pico/src/uart_bit_detect_fast.cpp", "pico/src/uart.cpp: UART::Update", "pico/src/line_busy.hpp", "pico/src/main.cpp: main"]}
{"id": "C127", "title": "A packet survives the end of a DMA block", "statement": "A DMA block of the ADC ends every 2^28 samples (15 minutes) and the last sample of a block is lost, at any time, also within a packet. If the loop of the receiving core had processed all earlier samples and there is no edge of a pulse at the lost sample or the one before, the words for the other core are the same as if nothing had been lost: per packet line busy, its bytes without error, line free, in order and exactly once, after any earlier history. If moreover no word is lost between the cores and the watchdog does not report, the host is given exactly one line per packet, in order, with status 0 and its bytes.", "quantifier": "all histories, packet sequences, samples within one of the ideal ones, amplitudes 49 to 88, pulses that start and end at most one sample late, positions of the end of the block, schedules before and after it that keep up", "why_tests_cant": "the end of a block occurs once in 2^28 samples; its position within a packet, the packet and the schedule are arbitrary", "anchors": ["pico/src/adc.cpp: DifferentialADC::Update, DifferentialADC::DMARestart", "pico/src/main.cpp: core1_entry", "pico/src/fir_filter.cpp", "pico/src/dcblock.cpp", "pico/src/level_detect.hpp: LevelDetect::Update", "pico/src/uart_bit_detect_fast.cpp", "pico/src/uart.cpp: UART::Update"]}
{"id": "C128", "title": "A request on the bus is answered on the bus", "statement": "If the standalone controller is operating, the transmitter idle and no packet of the host waits, then a valid request to the controller's address that arrives on the bus (words of the receiving core: line busy, its bytes, line free; at least as long as the echoed part, at most 31 bytes) is answered: with the word that ends the packet the answer to exactly this request is given to the transmitter, and if the course is undisturbed the transmit hardware is asked exactly to power up, send the answer, clear its FIFO and power down, and no failure is told.", "quantifier": "all histories of the main loop (host input, earlier packets, transmissions, errors), all requests, all distributions of the words over iterations, all undisturbed courses", "why_tests_cant": "requests, histories and the distribution of words over iterations are unbounded", "anchors": ["pico/src/main.cpp: main", "pico/src/standalone.cpp: Receive, HasTxData, TxAnswer", "pico/src/tx_statemachine.hpp: TxStateMachine::WakeAndTransmit, TxStateMachine::Update"]}
{"id": "C129", "title": "An overrun of the ADC in silence does not spoil the next packet", "statement": "A packet that is received without error is told to the host with status 0, also if the ADC was overrun and reset before, while the bus was silent.", "quantifier": "all histories, packets and times between the overrun and the packet", "why_tests_cant": "the overrun may be arbitrarily long before the packet and needs a stall of the receiving core", "anchors": ["pico/src/main.cpp: main", "pico/src/main.cpp: core1_entry"]}
{"id": "C130", "title": "Host lines survive the UART interrupt", "statement": "A host that sends one line at a time (text of at most 126 characters ended by CR, LF or CR LF; the next line begins when the previous one has been dealt with) has every line handed to the line handler exactly once, unmodified and in order, whenever the characters arrive and wherever the UART interrupt strikes in the polling code; no access leaves the line buffer.", "quantifier": "all lines, all arrival times of their characters, all interleavings of the interrupt handler with the polling code", "why_tests_cant": "the outcome depends on the instruction at which the interrupt strikes", "anchors": ["pico/src/host_uart.cpp: HostUART::Check", "pico/src/host_uart.cpp: HostUART::CheckRXFIFO", "pico/src/host_uart.cpp: HostUART::CheckRxLine", "pico/src/host_uart.cpp: on_uart_irq", "pico/src/line_receiver_irqsafe.hpp: LineReceiverIrqSafe"]}
{"id": "C131", "title": "LEDs report truthfully with the timer inside a report", "statement": "With the refresh timer striking at any instruction of the functions that report activity and errors: every report is shown (itself or something more severe) by the first refresh after it, or by the first refresh that struck during the report; and what a refresh shows was reported since the previous refresh.", "quantifier": "all sequences of reports, refreshes and blink ticks, all points inside a report at which the timer strikes", "why_tests_cant": "depends on the timer striking between a load and a store", "anchors": ["pico/src/led_manager.hpp: LEDManager"]}
{"id": "C132", "title": "What one host types, the other host reads", "statement": "If the host of a modem types lines in the documented notation, each denoting a packet of 1 to 31 bytes (the next line after the previous one was read, fewer than eight packets waiting at any time), and the modem is alone on the bus with modems that only listen, then once nothing waits any more the host of a listening modem has read exactly one line per packet, in order, in the documented format with status 0 and the bytes typed - plus one line for each answer the first modem's controller gave to a valid request among them; if there is no such request, exactly the packets typed.", "quantifier": "all lines and notations, all packets, all histories of the first modem, all interleavings of cores, DMA and interrupts on both modems, all clock offsets within tolerance", "why_tests_cant": "end to end over two devices with independent clocks and arbitrary schedules", "anchors": ["pico/src/host_uart.cpp: HostUART", "pico/src/message.hpp: Message", "pico/src/main.cpp: main", "pico/src/main.cpp: core1_entry", "pico/src/tx_statemachine.hpp: TxStateMachine", "pico/src/uart_pio.cpp: UARTPio", "pico/src/uart.cpp: UART"]}
{"id": "C133", "title": "A request on the wire is answered", "statement": "If one modem hands messages of 1 to 31 bytes to its transmit driver, each after a silence of about 1.2 ms at least, and the last of them is a valid request to the standalone controller of a second modem on the same bus (crystals within 500 ppm), then, if that controller is operating, its transmitter is idle, no packet of its host waits and no inter-core word is lost, the iteration of its main loop that takes the word ending the packet gives the answer to exactly this request to the transmitter.", "quantifier": "all messages, all clock offsets within tolerance, all interleavings of cores, DMA and interrupts, all earlier histories of both modems that meet the conditions", "why_tests_cant": "two devices with independent clocks, arbitrary schedules", "anchors": ["pico/src/uart_pio.cpp: UARTPio", "pico/src/uart.cpp: UART", "pico/src/main.cpp: main", "pico/src/main.cpp: core1_entry", "pico/src/standalone.cpp: StandaloneController"]}
{"id": "C134", "title": "A modem that was disturbed, or joins late, hears another one after the next pause", "statement": "One modem hands messages of 1 to 31 bytes to its transmit driver from power-up on. Another modem has any history (just switched on, a stall of its loop, an overflow of its ring, a reset of its ADC, disturbances and foreign traffic). If from some moment on, in a pause of the sender, the bus carries only what the pins of the sender show, and the pause lasts another 6.3 ms (1922 codes), then the words of the receiving core for every later message are exactly line busy, the bytes, line free, in order and once; and if no word is lost between the cores and the watchdog does not report, the host of the receiver is given exactly one line for each later message, in order, with status 0 and its bytes, after lines about the history.", "quantifier": "all sequences of messages and pauses of the sender, all interleavings of its driver calls, DMA and PIO cycles, all clocks within tolerance, all moments of joining, all histories of the hardware and both cores of the receiver, all codes within one of the ideal ones, all later schedules in which nothing overflows", "why_tests_cant": "two devices with independent clocks; the state the history left, the moment of joining and the schedules are arbitrary", "anchors": ["pico/src/uart_pio.cpp: UARTPio", "pico/src/p1p2_uart_tx.pio", "pico/src/adc.cpp: DifferentialADC::Update, DifferentialADC::Reset", "pico/src/uart.cpp: UART", "pico/src/main.cpp: main", "pico/src/main.cpp: core1_entry"]}
{"id": "C135", "title": "The checksum is the CRC-8 with generator x^8+x^7+x^4+x^3+x+1", "statement": "For every packet of at most 32 bytes, read as a polynomial over GF(2) in the order in which its bits are sent, the checksum the standalone controller computes is the remainder of the division by x^8+x^7+x^4+x^3+x+1: a byte is the checksum if and only if the packet followed by it is a multiple of this polynomial.", "quantifier": "all packets of every length up to 32 bytes, all checksum bytes", "why_tests_cant": "2^256 packets; the divisibility is a statement about all of them", "anchors": ["pico/src/standalone.cpp: StandaloneController::GenCRC"]}
{"id": "C136", "title": "Of two modems that send different packets at the same time, at least one notices", "statement": "If two modems on one bus, each with any history, transmit packets at the same time, hear the same bytes after handing over, and neither tells its host of a failed transmission (and neither receives anything with an error), then the packets are the same.", "quantifier": "all histories of both main loops, all packets, all timings, all bytes on the bus", "why_tests_cant": "pairs of arbitrary histories, schedules and packets", "anchors": ["pico/src/tx_statemachine.hpp: TxStateMachine::Update", "pico/src/main.cpp: main"]}
{"id": "C137", "title": "Every packet of the host is started in time, whatever happens on the bus", "statement": "If each iteration of the main loop takes at most d, the packets of the host that wait are the next ones to be started, in the order of the queue, and n waiting packets have been started after (n+1) times (200 ms + 39 d) at the latest, whatever happens on the bus. Hence, if fewer than eight packets wait at any time, every packet the host asks for is started in bounded time.", "quantifier": "all histories of the main loop, all behaviours of bus, host and transmit hardware, all loop times", "why_tests_cant": "liveness over unbounded behaviours of the bus", "anchors": ["pico/src/main.cpp: core0_entry", "pico/src/host_uart.cpp: HostUART::Pop", "pico/src/tx_statemachine.hpp: TxStateMachine::Update"]}
{"id": "C138", "title": "Every packet of the host is settled in time", "statement": "If each iteration of the main loop takes at most d, then whatever happens on the bus every packet that is started is settled within 200 ms + 39 d and before the next one is started: the host has got a line with an error status whose bytes are the beginning of the packet, or a byte was received with an error meanwhile, or the packet was handed to the transmit hardware and all its bytes were heard on the bus in order with nothing in between. Hence n waiting packets are all started, in order, and settled after (n+2) times that (plus d) at the latest.", "quantifier": "all histories of the main loop, all behaviours of bus, host and transmit hardware, all loop times", "why_tests_cant": "liveness and attribution over unbounded behaviours of the bus", "anchors": ["pico/src/main.cpp: core0_entry", "pico/src/host_uart.cpp: HostUART::Pop", "pico/src/tx_statemachine.hpp: TxStateMachine::Update"]}
{"id": "C139", "title": "No packet is transmitted twice or out of order, and a failed one is told of at most twice", "statement": "The packets handed to the transmit hardware are among the packets the host asked for, each at most once and in the order of the lines, and the answers of the controller to valid requests, each request at most once and in order. Between the start of a packet and the start of the next one the host gets at most two lines about a failed transmission (two only if the bus does not become free after a collision).", "quantifier": "all histories of the main loop, all behaviours of bus, host and transmit hardware", "why_tests_cant": "all histories; a retransmission or a second hand-over would need one particular interleaving", "anchors": ["pico/src/main.cpp: core0_entry", "pico/src/tx_statemachine.hpp: TxStateMachine::Update, TxStateMachine::Wake"]}
{"id": "C140", "title": "The receive core cannot flood the main loop with words", "statement": "Whatever the bus carries, noise and overruns of the samples included: in every stretch of its operation in which the receive core is given n samples it hands over at most (2747 + 3 n) / 692 words to the main loop (about four at once, then one for 230 samples, 0.75 ms), plus one for each overrun of the ADC.", "quantifier": "all sample values, all earlier histories, all stretches", "why_tests_cant": "all signals: bytes, garbage, line-busy and line-free events may follow each other in any order the receiver allows", "anchors": ["pico/src/main.cpp: core1_entry", "pico/src/uart.cpp: UART::Update"]}
{"id": "C141", "title": "Real time: the FIFO between the cores does not overflow", "statement": "If the receive core is never more than 254 conversions behind, and in every stretch of the history the main loop looks into the FIFO once for 230 conversions (0.75 ms), apart from 906 conversions (2.9 ms), then no word is ever dropped, FifoErr is never set and the FIFO never holds more than 8 words, whatever the bus carries.", "quantifier": "all signals, all interleavings of conversions, iterations of the receive core and parts of iterations of the main loop, all inputs of the main loop", "why_tests_cant": "a worst case over all signals and all schedules", "anchors": ["pico/src/main.cpp: core0_entry, core1_entry", "pico/src/adc.cpp: DifferentialADC::Update"]}
{"id": "C142", "title": "From the codes of the ADC to the lines for the host, on the whole device", "statement": "If the bus carries packets of at most 31 bytes, the receive core is never more than 253 conversions behind and the main loop is fast enough (C141), then, once everything converted has been processed, the host was given exactly one line for each packet, in order, with status 0 and its bytes; nothing is assumed about drops, the state of the FIFO or the words exchanged in between (the watchdog must not report, and the time is less than a DMA block).", "quantifier": "all packets, all levels allowed by the bus, all interleavings that are fast enough", "why_tests_cant": "all signals and all interleavings", "anchors": ["pico/src/main.cpp: core0_entry, core1_entry", "pico/src/adc.cpp: DifferentialADC::Update", "pico/src/uart.cpp: UART::Update"]}
{"id": "C143", "title": "Prefixes with blanks, signs, 0x and junk", "statement": "Whatever is written in the two prefixes of a line, the time is the signed decimal number at the start of the first (leading white space skipped, anything behind the digits ignored, no digits meaning 0), modulo 2^64, and the status is the signed hexadecimal number at the start of the second (an optional 0x skipped), forced into the range of long and reduced to 32 bits; the data bytes are those spelled after the second colon. Undefined behaviour occurs exactly when the time does not fit 64 bits signed.", "quantifier": "all texts without colon as time and status prefix, all packets of at most 32 bytes in all notations, both platforms", "why_tests_cant": "all texts", "anchors": ["pico/src/message.cpp: Message::Message(char*)"]}
{"id": "C144", "title": "The watchdog stays silent: the whole device in real time", "statement": "As C142, but with no assumption on what the device does: if packets of at most 31 bytes are on the bus, the receive core is never more than 253 conversions behind, the main loop is fast enough (C141) and the microsecond clock advances by at most 20 microseconds for a conversion (it is 3.255) give or take 0.1 seconds, then the bus-busy watchdog never reports, and the host is given exactly one line for each packet, in order, with status 0 and its bytes.", "quantifier": "all packets, all levels allowed by the bus, all interleavings that are fast enough, all clock readings that do not run away, all starting times below 46 days", "why_tests_cant": "all signals, interleavings and clock readings", "anchors": ["pico/src/main.cpp: core0_entry (line_is_busy, line_busy_since), core1_entry", "pico/src/adc.cpp: DifferentialADC::Update", "pico/src/uart.cpp: UART::Update"]}
{"id": "C145", "title": "The whole device recovers from everything", "statement": "After any history of the whole device (any samples, overruns and resets of the ADC, words dropped between the cores, host traffic, transmissions, watchdog reports), at a moment at which the inter-core FIFO is empty and, if the receiver takes the bus for free, the last word taken said so: if the bus is then silent for 1920 conversions (6.25 ms) and carries packets of at most 31 bytes, the receive core is never more than 253 conversions behind and the main loop is fast enough, then no word is dropped and the host is given, after lines about the history, exactly one line for each packet, in order, with status 0 and its bytes (unless the watchdog reports).", "quantifier": "all histories of the device, all packets, levels and interleavings that are fast enough", "why_tests_cant": "all histories, signals and interleavings", "anchors": ["pico/src/main.cpp: core0_entry, core1_entry", "pico/src/adc.cpp: DifferentialADC::Update, Reset", "pico/src/uart.cpp: UART::Update"]}
{"id": "C146", "title": "Two whole modems, in real time", "statement": "Modem A is alone on the bus with listeners and its host types lines that denote packets of 1 to 31 bytes; modem B hears the bus with a clock of its own and runs all of its parts (ADC and DMA, receive core, FIFO between the cores, main loop with watchdog) in any interleaving, as long as its receive core is never more than 253 conversions behind, its main loop is fast enough and its clock does not run away. Then no word is dropped inside B, the watchdog of B does not report, and when everything has been processed the host of B reads one line with status 0 for each packet typed at A, in order, and between them at most answers of the controller of A.", "quantifier": "all histories of A, all lines typed, all clocks within tolerance, all levels within tolerance, all interleavings of the parts of B that are fast enough", "why_tests_cant": "all inputs, clocks, signals and interleavings of two devices", "anchors": ["pico/src/main.cpp: core0_entry", "pico/src/main.cpp: core1_entry", "pico/src/host_uart.cpp: HostUART", "pico/src/message.hpp: Message", "pico/src/tx_statemachine.hpp: TxStateMachine", "pico/src/uart_pio.cpp: UARTPio", "pico/src/adc.cpp: DifferentialADC::Update", "pico/src/uart.cpp: UART"]}
{"id": "C147", "title": "A whole device that was disturbed, or joins late, hears another one after the next pause", "statement": "A receiver that has run for any time and in any way (overruns and resets of the ADC, dropped words, host traffic, its own transmissions), or is just switched on, and whose FIFO between the cores is empty, hears a sender with a clock of its own: if the sender pauses for 6.3 ms and then hands messages of at most 31 bytes to its driver, and the receive core of the receiver is never more than 253 conversions behind and its main loop is fast enough, then no word is dropped in the receiver and its host is given, after lines about the history, exactly one line for each message after the pause, in order, with status 0 and its bytes (unless the watchdog reports).", "quantifier": "all histories of the receiver, all schedules of the sender, clocks, levels and interleavings that are fast enough", "why_tests_cant": "all histories, clocks, signals and interleavings of two devices", "anchors": ["pico/src/main.cpp: core0_entry", "pico/src/main.cpp: core1_entry", "pico/src/adc.cpp: DifferentialADC::Update, Reset", "pico/src/uart.cpp: UART::Update", "pico/src/uart_pio.cpp: UARTPio", "pico/src/p1p2_uart_tx.pio"]}
{"id": "C148", "title": "Whatever the system clock is, the rates set at the start fit", "statement": "With any system clock of 12 MHz to 2^32 Hz, the divider the transmitter computes at the start (in single precision, however rounded, with the versions of the SDK that cut off and those that round) is right within one unit of 1/256; with a system clock of at most 1 GHz a bit lasts 1/9600 s within two cycles of the system clock. A transmitter with that divider and a receiver whose conversions take what its ADC is set to (157 cycles of 48 MHz) fit together if their crystals differ by at most 500 ppm, whatever the phase. With 125 MHz the divider is 208333/256.", "quantifier": "all system clocks, all roundings of the floating point operations, all phases, all differences of the crystals up to 500 ppm", "why_tests_cant": "a test runs with one system clock and one pair of crystals", "anchors": ["pico/src/p1p2_uart_tx.pio: p1p2_uart_tx_program_init", "pico/src/adc.cpp: DifferentialADC::DifferentialADC", "pico/src/defines.hpp"]}
{"id": "C149", "title": "The whole device shows a packet on which a block of the DMA ends", "statement": "Every 2^28 conversions (about 14.6 minutes) the DMA of the receiver has to be restarted, and one conversion is lost. If the device, after any history of conversions, iterations and commands, has come to a quiet moment and silence, both cores keep up (at least one iteration in 230 conversions, with a slack of 906), and the block ends at any time from then on, even within a packet, then no word between the cores is dropped and the host is given exactly one line for each packet, in order, with status 0 and its bytes, if no pulse starts or ends at the lost conversion or the two next to it, all samples are processed at the end of the block, and the watchdog does not report.", "quantifier": "all histories, all interleavings of the cores, all commands of the host, all packets of at most 31 bytes, all lines within the tolerances, all places of the end of the block", "why_tests_cant": "it takes 14.6 minutes to reach one end of a block, and it has to fall on a given conversion of a packet", "anchors": ["pico/src/adc.cpp: DifferentialADC::Update, Reset", "pico/src/main.cpp: core1_entry, core0_entry"]}
{"id": "C150", "title": "A whole modem hears another one while a block of its DMA ends in a pause", "statement": "Every 2^28 conversions (about 14.6 minutes) the receiving modem loses a conversion. If that happens while the bus is silent (in the 352 conversions before the lost one, which is less than a pause between messages, and the two after it), it has no effect: a whole modem with any history, which listens from a pause on, gives its host exactly one line for each later message of another whole modem, in order, with status 0 and its bytes, and no word between its cores is dropped, if both its cores keep up and the watchdog does not report.", "quantifier": "all histories of the receiver, all runs of the sender and of the receiver, all phases and differences of their clocks within the tolerance, all messages of at most 31 bytes, all pauses in which the block may end", "why_tests_cant": "it takes 14.6 minutes to reach the end of a block, and it has to fall on every place of every pause", "anchors": ["pico/src/adc.cpp: DifferentialADC::Update, Reset", "pico/src/main.cpp: core1_entry, core0_entry", "pico/src/tx_statemachine.hpp", "pico/src/uart_pio.cpp", "pico/src/p1p2_uart_tx.pio"]}
{"id": "C151", "title": "The receiver stays exact for as long as it runs, over any number of DMA blocks", "statement": "From power-up on, for any number of DMA blocks of 2^28 conversions (14.6 minutes each): if the bus is silent when a block ends (for 700 conversions before those that are lost and two after them, about 2.3 ms), then the receive core hands over exactly the words of all the packets on the bus, in order and nothing else: line free, line busy, the bytes. The end of a block costs the one to 255 conversions the loop has not processed by then and nothing more; losses do not accumulate. More generally the words are those of the line without the lost conversions, if no level changes around the losses.", "quantifier": "all numbers of blocks, all packets and pauses, all delays of edges within the tolerance, all errors of single codes, all schedules of transfers and iterations that keep up (at most 254 behind)", "why_tests_cant": "it takes 14.6 minutes to reach the end of a block and the claim is about any number of them", "anchors": ["pico/src/adc.cpp: DifferentialADC::Update, DMARestart", "pico/src/main.cpp: core1_entry"]}
{"id": "C152", "title": "The whole device gives the host exactly one line per packet for as long as it runs, over any number of DMA blocks", "statement": "From power-up on, for any number of DMA blocks of 2^28 conversions (14.6 minutes each) and without any assumption on what happens inside the device: if the bus is silent when a block ends (from 955 conversions, 3.1 ms, before its end to the second conversion after it), the receive core is never more than 253 conversions behind and the main loop looks into the queue often enough, then the host is given exactly one line for each packet on the bus, in order, with status 0 and the bytes of the packet, in every interleaving of the conversions and the two cores: no packet is lost, invented, damaged or doubled at the end of any block.", "quantifier": "all numbers of blocks, all packets of at most 31 bytes and pauses, all delays of edges within the tolerance, all errors of single codes, all interleavings of conversions and the steps of both cores within the two bounds on their speed", "why_tests_cant": "it takes 14.6 minutes to reach the end of a block and the claim is about any number of them and all interleavings of three actors", "anchors": ["pico/src/adc.cpp: DifferentialADC::Update, DMARestart", "pico/src/main.cpp: core0_entry, core1_entry", "pico/src/uart.cpp: UART::Update"]}
