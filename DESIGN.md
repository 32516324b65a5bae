# Formal model of viaems in Lean 4

Source: `/repo` (C, read as text, never built or run here). Model and proofs: `/verif/lean`.
Properties: `properties.jsonl`. Status of each: `MANIFEST.json`. Mutation log: `seeded/LOG.jsonl`.

## 1. Trusted base

* Lean 4.33.0's kernel, and Mathlib's definitions (`ℚ`, `ℤ`, `Int.log`, floor) as statements.
* Axioms: only `propext`, `Classical.choice`, `Quot.sound`. `Verif/Audit.lean` runs
  `#print axioms` on every property theorem.
* The reading of the C source. Nothing checks the model against the running firmware: each
  definition cites the file and lines it was read from.
* C semantics assumed: unsigned arithmetic wraps at 32 bits, `int` is 32-bit two's complement
  and the unsigned-to-signed conversion in `time_before` is the usual modular one (gcc, clang),
  IEEE-754 binary32 `float`, round to nearest even, no fast-math reassociation and no fused
  multiply-add.
* Hardware: DMA plays slot k of a buffer at tick first_time + k; capture registers hold the tick
  of the edge; GPIO set/reset words behave as documented. These are not modelled further.
* Peripheral behaviour taken from data sheets and reference manuals, stated as definitions in
  `Spec/Capture` (capture and overcapture flags), `Spec/Interrupts` (mask bit), `Spec/Adc` (which
  SPI word answers which command) and `Model/Flash` (erase gives ones, programming clears bits).
* `contrib/tinycbor` is empty in this checkout. Its functions are modelled by their documented
  contract where the console uses them: a value is a tree (`Spec/Cbor`); encoding appends the
  shortest RFC 8949 encoding of an item, and keeps counting but stores nothing once an item does not
  fit (`Model/Wire`). The bit pattern of a float is a parameter of the encoder. What the accessors
  find in a complete request is a parameter too (`parse` in `Model/ConsolePass`); C90 takes an
  RFC 8949 decoder for it (`readRequest`).

## 2. Modelling choices

**Time.** `timeval_t` is `uint32_t` (platform.h), so `BitVec 32`. TICKRATE is 4 000 000 on every
target. "True" time in specifications is an unbounded `Nat`/`Int`, its stamp is its residue.

**Undefined behaviour and failure.** Model functions return `Except Fault α` where the C could
leave its domain: `oob`, `divZero`, `floatToInt`, `assertFail`, `diverge`, `nullDeref`. Assertions
are kept (the hosted and test builds keep them; the stm32 and gd32 builds compile them out, and
there the code behind a failed assertion runs on: each such place is named at the property).
Loops without an obvious bound carry a fuel that is larger than any run that could finish.

**Floats.** `Fl` is `nan`, an infinity, or a finite rational. The arithmetic is parameterised by a
rounding function with stated laws (`FloatFmt`). There are two instances: exact rationals and
binary32. Theorems are stated for every `FloatFmt` when they do not depend on exactness
(so they hold of the real binary32 code, including NaN), for binary32 when they are about
rounding itself, and for exact arithmetic when the English property is a formula. Not modelled:
the sign of zero (no modelled code divides by a value that can be -0 with an observable
difference), NaN payloads, float exceptions.

**Globals.** `config`, decoder, callback queue, event log become explicit state.
`current_time()` is a parameter `now`, frozen during one call; in code that reads the clock
twice this is a simplification and is noted at the definition.

**Concurrency.** Code run with interrupts masked is one atomic step. Interleavings of the
buffer-swap interrupt with scheduling code are all sequences of those atomic steps.

**Layout.** `Verif/Base` (bits, floats), `Verif/Model` (one file per C file), `Verif/Spec`
(specifications that do not mention the model), `Verif/Proofs` (lemmas), `Verif/Props`
(property theorems, each with an `example` that its hypotheses can be met).

## 3. Modelled and not modelled

| File in /repo | Model | Not modelled |
|---|---|---|
| util.c | `Model/Util`: time comparison, conversions, clamp_angle | `#ifdef UNITTEST` |
| table.c | `Model/Table`: cell search, both interpolations, validity check | |
| scheduler.c | `Model/Callback` (queue, timer callback), `Model/Sched` (events, schedule_*), `Model/EventTimer` | tests |
| decoder.c | `Model/Decoder`: four wheels, expiry, init; `Model/AngleRead`: `current_angle` with interrupts between its reads | statistics counters |
| calculations.c | `Model/Calc`: ignition, fueling, cuts, tip-in, limiter | |
| tasks.c | `Model/Tasks`: pump, boost, idle, CEL, emergency shutdown | |
| sensors.c | `Model/Sensors`: conversion, fault, lag, window, knock | reading `current_time` in between |
| config.c | `Model/Config`, `Model/Default`: structure, config_valid, shipped tables and wheel | sensor calibration tables that no theorem uses |
| console.c | `Model/EventLog`, `Model/ConsoleIo` (read/write buffers), `Model/Console` (tree, requests, feed), `Model/Structure` (structure answer), `Model/ConsoleTrace` (what interrupts find during a request), `Model/Wire` (encoding, response buffer), `Model/ConsolePass` (a pass of the main loop) | tags and chunked text; how the reset into the bootloader is done |
| sim.c | `Model/Sim`: test wheel; `Model/TestBench`: start, change and end of the test | a callback in the middle of a request |
| platforms/common/stm32_sched_buffers.c | `Model/Buffers` | DMA register programming |
| platforms/common/ad7888_adc.h, tlv2553_adc.h, max11632_adc.h | `Model/Adc` | SPI/DMA set-up |
| platforms/hosted.c | `Model/Hosted`, `Model/Interrupts` | threads, sockets, sleeping, replay files |
| platforms/gd32f4/*, stm32f4-discovery.c | `Model/Capture` (trigger ISR), `Model/Interrupts`, `Model/Flash`, timers in `Model/EventTimer` and, access by access, `Model/TimerRegs`, `Model/Adc`, `Model/Inputs` (frequency and pulse width inputs, edge selection), `Model/Usb` (reception), `Model/UsbRx` (the gd32's reception, interrupt by interrupt), `Model/UsbTx` (sending, with the gd32 USB library under contrib), `Model/Port` (levels of the output port, set_output), `Model/Halt` (gd32 shutdown before saving), `Model/Pwm` | clocks, enumeration and libopencm3 of the USB stack, peripheral set-up |
| whole trigger path | `Model/Engine`: triggers, expiry, timer callbacks, buffer swaps, calculation and scheduling as steps of one state machine | other main-loop tasks change its settings only through explicit steps |
| benchmark.c, py/, flash scripts | none | all (tools) |

Simplifications that matter, besides those noted at the definitions:

* `current_time()` is read once per critical section. On hosted, a section that spans a tick of the
  timebase is therefore not covered (C21).
* An interrupt is one atomic step. Races inside one (a capture edge between the read of the
  capture register and the clearing of its flag) are modelled only for the trigger ISR (C63) and
  for the setting of the event timer (C91).
* `handle_emergency_shutdown` and `invalidate_scheduled_events` called from the main loop are
  atomic per entry, not as a whole (C17, C30).
* With asserts compiled out (stm32, gd32), code behind a failed assertion continues. Every theorem
  that speaks of `assertFail` shows either that it does not happen or a history in which it does.
* `1 << pin` is a total shift. Pins of 31 and more, which the console does not reject for outputs,
  are undefined behaviour in C and not covered.

## 4. How each property is proved

| id | model | proof |
|---|---|---|
| C01 | time functions on `BitVec 32` | residues of unbounded times; omega |
| C02 | conversions over `Fl` | monotone for every `FloatFmt`; exactness on the 2^24 integers and error bounds for binary32 |
| C03 | `clamp_angle` with fuel | loop invariants; exact: congruence mod max; termination range; divergence witness |
| C04 | `axis_find_cell_lower` | loop invariant on (x1,len) |
| C05, C06 | interpolation | segment algebra over exact; error bounds and index faults for every format |
| C07 | `config_valid` | safety where it holds, a counterexample for each gap |
| C08, C09 | callback queue | invariant by induction over operations; refinement to a sorted queue |
| C10 | callback timer with hosted and compare-timer semantics | invariant, or witness schedule |
| C11-C18 | per-entry atomic operations and `schedule_*_event` | invariant over all operation sequences; wrap-safe window hypotheses explicit |
| C19, C20 | double buffer with slots | refinement to "set of (tick, pin)" |
| C21 | hosted swap | invariant over ticks |
| C22 | `rpm_cut` | history characterisation by induction |
| C23-C26, C60 | calculations.c | decision logic; algebra over exact; rounding bounds |
| C27-C30 | tasks.c | state machines over histories |
| C31-C37 | sensors.c | algebra; history inductions; Goertzel recurrence over the exact format |
| C38-C45 | decoder.c | invariants over trigger histories; wheel simulation relation (`Spec/Wheel`, `Spec/Even`, `Spec/Cam`) |
| C46 | event log | refinement to a queue, for every interleaving of producer and consumer |
| C47, C48 | console I/O | induction over chunkings |
| C49-C52, C62 | console tree | structural induction over paths and the node tree; get/set laws; `Spec/Request` |
| C53 | `decode_half` | all 65536 patterns by structure |
| C54, C63 | trigger ISR with capture flags | case analysis on flags; histories of edges and handler runs |
| C55, C65 | ADC tables and rates | finite tables, quantified over measurements; exact algebra |
| C56 | sim.c and decoder | simulation relation with the 36-1 wheel |
| C57 | interrupt mask counter vs plain flag | counter invariant; witness for the plain flag |
| C58, C64 | save/load | round trip over word lists; prefixes of the write as crash points |
| C59 | `Model/Engine` | invariant `EngSafe` (interval bounds on every float, history spacing, paired events) over all step sequences |
| C61 | `Model/Engine` | invariant: invalid decoder implies nothing armed |
| C66, C67 | expiry time of the missing-tooth wheel | wheel simulation with time bounds; reset histories |
| C68 | decoder.c | frame lemmas over histories |
| C69 | USB reception between packet callback and console_read | invariant "delivered ++ held = sent" over all interleavings; race witnesses |
| C70-C72 | input capture set-up and interrupts | register-level case analysis; histories of edges; rounding bounds |
| C73 | `Model/Buffers` with the port | invariant: level of a pin = (start played and stop not played), over all pulse histories |
| C74 | set_output, one register access at a time | induction over interleavings with DMA writes |
| C75 | PWM timer with preload | rounding bounds; induction over counts and commands |
| C76 | `Model/Engine` against an unbounded real clock and a crank angle `θ t` (`Spec/Spark`) | invariant: every live end edge is the stamp of a real tick at which the crank is at the commanded angle; float error bounds for the computed time; C19 and C40; on a wheel with a cam the decoder is followed through teeth and pulses by induction (`Proofs/CamPlan`; even wheel: `Proofs/EvenPlan`) |
| C77 | `Model/Decoder.currentAngle` against a crank angle `θ t` | float error bounds of the elapsed degrees and of the clamp loop; refuted for the stopped engine by a run from boot |
| C78 | `Model/Engine` | induction over runs: no step but a decoded trigger changes the speed; run from boot |
| C79 | `Model/Engine` against the real clock and a crank angle `θ t` (`Spec/Injection`) | invariant over runs: the two edges of a live pulse are stamps of real ticks a commanded width apart, the start timed by C76's float bounds, and a start that was handed over was driven by an earlier buffer; concrete runs from boot; the same on a wheel with a cam (`Props/CamEngine`) and on an even wheel with a cam (`Props/EvenEngine`) |
| C66, C76, C79 on a wheel | whole firmware and a real wheel (`Spec/WheelRun`): captures in order, each handled within 64 µs, no overruns, the timer interrupt reads the clock | `Proofs/EngDecode`: the decoder of the firmware is the decoder fed with the teeth, since the expiry callback is never due before the next tooth is handled; then the theorems about the wheel and about the pins |
| C80 | `Model/Sched`, `Model/Buffers`, `Model/Port` | invariant over port histories: both edges in the same state for the same tick; level of the pin by induction over the slots |
| C81 | `Model/Halt` (gd32 shutdown, one register access at a time, then the DMA stops) on `Model/Port` | invariant over interleavings of the shutdown's accesses with DMA writes; C73 |
| C82 | `Model/Console`; `Proofs/Resize`: the writes and resizes any set can do | one induction over the tree of settings for any value and path (`render_any`), then over the history of requests |
| C83 | `Model/Console` (all nodes), `Spec/Restore` | induction over the tree: `Back` says what a node needs so that its dump sets it (`Proofs/Restore`, `Proofs/RestoreTree`), `Apart` that paths do not share storage (`Proofs/Apart`) |
| C84 | `Model/Console`, table of names in `Spec/Named` | the node a path leads to is computed for each entry (`named_dump`), sets by C49 and `follow_replace_ne` |
| C85 | `Model/Console` `processRequest` | cases on the method; `render_reads`: reading writes nothing, by induction over the tree |
| C86 | `Model/Engine`, `Spec/Firing` | an invariant of the phases of one output over all steps and swaps (`Proofs/Beat*`): at rest, armed for cycle m, handed over, over; each cycle has a tooth from which the output cannot be missed (`wheel_plan`), also when the advance changes by less than the distance between two teeth; uniqueness by a second invariant (`Proofs/BeatOnce`); the same on a wheel with a cam, the order of teeth and pulses given by `Spec/CamRun`, demo run of 25 triggers (`Props/CamEngineDemo`); and on an even wheel with a cam (`Spec/EvenRun`), demo run of 25 triggers (`Props/EvenEngineDemo`, `Props/EvenFuelDemo`); and on an even wheel without a cam (C102) |
| C87 | `Wire` (CBOR encoder with its 16384-byte buffer), `Structure` (the whole structure answer), `rawRequest` | size bound per node of the tree by induction over `render`; exact size of the encoding; witnesses by computation |
| C88 | `structureWires`, `consoleTree`; `Describes` in `Spec/Describes` | relation between a description and a renderer, proved for each helper and each renderer |
| C89 | `Model/ConsolePass` (a whole pass of `console_process`), `Spec/Reader` (a CBOR decoder), `Spec/Stream` (what is said) | encode then decode is the identity (`Proofs/Reader`), every answer has a value for every key by induction over the tree of renderers (`Proofs/Whole`), sizes of events, descriptions and feed messages; induction over the passes |
| C90 | `Spec/Dialogue` (a client's requests and the exchange), `Model/ConsolePass`, `Spec/Reader` | the check that a message is complete accepts exactly the encoding (`Proofs/Scan`); induction over the calls that receive, inverting C89's `Talk`; C84/C49 for what is read back |
| C91 | `Model/TimerRegs` (counter, compare register, enable bit and flag, access by access) | closed form of n ticks; invariant relating flag, compare register and the head of the queue; C08 for the queue |
| C92 | the whole engine (`Model/Engine`) with real time, as for C86 | the invariant of C86, made generic in what is known of a pulse; a pulse that has begun keeps its start and its end follows the width; demo run of 18 teeth; the same on a wheel with a cam and on an even wheel with or without a cam |
| C93 | `Model/Console`, `Model/Sensors`; `Spec/Tuning`: the frequency of a bin, power of a tone | `Proofs/Tuning`: every renderer keeps that both filters match their settings, the hook of the knock object establishes it; a tone in the middle of a bin cancels in every other bin |
| C94 | `Model/Sched`; `Spec/Duty`: the calls of a cycle at a steady speed | case analysis of the event's states, induction over the calls; the computed starts of a concrete cycle in binary32 |
| C95 | `Model/TestBench` (console and statics of sim.c) | `Proofs/Holds`: what rendering keeps; the one renderer that writes the speed runs at most once in a request; induction over histories |
| C96 | `Model/UsbTx` (driver, USB library and endpoint), `Spec/UsbPackets` | five phases of a transfer as an invariant; each round of interrupt and token brings a packet |
| C97 | `Model/Sensors`, `Model/AngleRead` against `Spec/WindowRun` (windows by the crank angle counted over cycles) | C35's run, induction from the right over the samples with the open window and the last window over; refuted for 720 of 720 for every run |
| C98 | `Model/ConsoleTrace`: the tree of `Model/Console` over a configuration that remembers all its former contents | `render_erase`: without the memory it is the same request; inductions over the tree (`Proofs/ConsoleTrace`) for what every store keeps, for gets, and along a path for a single setting |
| C99 | `Model/UsbRx`: receive FIFO, transfer state of the library, `usbd_ep_recev` split at its stores, interrupt routine | invariant over the phases of a reception for all separated runs; two race witnesses |
| C100 | `Model/Engine` with `Spec/CutRun` (when a limiter cuts, runs during which it does) | a pass over the outputs cancels all; then only swaps change the outputs, and the buffers run empty in two |
| C101 | `Model/Engine`, `Spec/Firing`, `Spec/Pulses` | `Proofs/BeatHeld`: an invariant for one pulse under way (its start is handed over and its end is pending, or its end has been handed over and the output is past its cycle), kept by scheduling, by rescheduling and by swaps; `Proofs/HeldCore` derives it from the hypotheses of C86 and C92 for any list of triggers |
| C102 | `Model/Decoder` (even wheel without a cam) | induction over teeth with an invariant of count, history and angle (`FreeAt`); the stuck state as an invariant of any further triggers; whole-engine versions of C66, C76, C79, C86, C92 and C101 for this wheel (`Proofs/FreePlan`, `Props/FreeEngine`), demo runs of 23 teeth (`Props/FreeEngineDemo`, `Props/FreeFuelDemo`) |
| C103 | `Model/Engine`, `Model/Calc`, `Spec/Command` | the hypotheses of C86, C92 and C101 on calculated values are derived from the inputs: the decoder's plan bounds the measured speed at every trigger (`SpeedIn`), the calculation gives values in the commanded bands (`Commands`), and no cut is raised; the advance of each run is read off the run itself (`whole_path`), or from the speed alone on wheels with a cam (`steady_runs`). Demo: the shipped tables command 31 degrees, 2574 µs and 3250 to 3300 µs at every speed of the band (`Proofs/CommandRun`), and the eight runs of C86 and C92 meet the hypotheses (`Props/CommandDemo`) |
| C104 | `Model/Engine`, `Spec/PowerOn` | a run from boot is split at the trigger at which the decoder becomes valid: before it no output is scheduled (`lost_same`: not even the trigger that makes the decoder valid schedules anything in the same step), so nothing is driven (`Asleep.silent`); from it on the cores of C86, C92 and C101 apply with every output at rest, the decoder's report being right at that tooth already (`free_follows` with `m0 = R - 1`). The runs of `FreeEngineDemo` and `FreeFuelDemo` meet the hypotheses from their boot on (`Props/PowerOnDemo`) |
| C105 | `interp1`, `interp2`, `calculateIgnition` in any float format | error bound operation by operation against the same lookup in exact arithmetic, then C05/C06 |
| C106 | `calculateFueling` in any float format | count of roundings, multiplicative bounds `X (1-2^-24)^k ≤ x` and `x (1-2^-24)^k ≤ X`, induction over the operations by hand |
| C107 | `convertLinear`, `processLag`, `sensorConvert` in any float format, histories of readings | error of one step, invariant `error ≤ M/2^14 + 2^-80`, induction over the history |
| C108 | `interp1`, `interp2`, `calculateIgnition` in any float format | slopes add up over the segments; one axis at a time for surfaces; plus C105 |
| C109 | `sensorConvert` on equal readings in any float format | geometric series in exact arithmetic plus C107; a fixed point of the rounded filter as counterexample |
| C110 | `convertWindowed` in any float format, histories of readings | invariant on the open window, error of the sum at most k (M/2^11 + 2^-80), induction over the history |

Mutation tests: `seeded/LOG.jsonl`. Each line is an edit of the model in a scratch copy and what
failed. Where a definition's edit survived, the line names the theorem that was added or tightened.

## 5. Disagreements between code and property

Each is a theorem about the model with a concrete witness. "UB" means undefined behaviour in C.

**Tables and configuration**

* Looking up at or above the last breakpoint reads the entry after the last one: out of bounds
  when the table is full (`C05_full_table_reads_oob`), NaN when that entry equals the breakpoint
  (`C05_top_nan`), `C05_full_false`, `C06_full_false`. table.c interp lookup.
* `config_valid` accepts null timing and dwell tables, and empty, full and NaN axes, and does not
  look at several tables (`C07_null_timing`, `C07_null_dwell`, `C07_unchecked_tables`,
  `C07_empty_axis`, `C07_accepted_full_axis`, `C07_accepted_nan_axis`). The result is only used in
  an `assert` that the firmware compiles out.
* `clamp_angle` does not terminate for large or infinite angles in binary32
  (`C03_binary32_diverges`, `C03_inf_diverges`).
* The float to integer conversion in the time functions is UB for zero speed and for long times
  (`C02_undefined_at_zero`, `C02_time_from_us_undefined`).

**Scheduling**

* An ignition event whose start can no longer move keeps the armed start, while the stop moves, also
  to before the start (`C12_full_false`, `C12_ignition_witness`: cranking from 200 to 400 rpm).
  Cancelling such an event removes only its start (`C14_full_false`).
* A zero width gives both edges the same tick (`C12_zero_width`); see C80 below for the pin.
* The 90 degree rule is forgotten when the recomputed stop lies before the last stop
  (`C15_full_false`); a growing fuel width moves the stop by more than 180 degrees
  (`C15_fuel_180_full_false`).
* Disabling an armed output leaves it armed (`C18_full_false`).
* Reconfiguring the pin of a committed edge leaves a stale bit in the DMA buffer, played in every
  later round (`C20_full_false`, `C20_permanent`).
* Between the first and second buffer swap after power-up, the earliest schedulable time is one
  window too early: an edge armed in that window is never played (`C19_boot_gap`).
* hosted fires a callback due at a multiple of 128 twice (`C10_hosted_full_false`). Compare timers
  are never switched off: 2^32 ticks after the last callback the interrupt finds an empty queue
  (`C10_compare_full_false`), and without asserts writes `callbacks[-1]`
  (`C10_empty_queue_writes_oob`).

**Calculations, sensors and tasks**

* Zero injections per cycle divide by zero in the duty check (`C23_zero_injections`); individual
  cut flags keep their old value when an earlier cut applies (`C23_stale_flag`).
* The pump starts again one clock wrap (17.9 min) after the last trigger (`C27_full_false`).
* A raw value outside the fault bounds is replaced but never reported (`C33_full_false`).
* A windowed sensor with a total width of zero, settable from the console, hangs the firmware
  (`C35_zero_width_hangs`).
* AD7888 boards report rates of change of 9/14 of the real ones (`C65_ad7888_wrong`); frequency
  inputs report them as if sampled 5000 times a second (`C65_frequency_false`).

**Decoder**

* The tooth that gains synchronisation of a missing-tooth wheel does not store its time, so angles
  until the next tooth are computed from a stale time (`C40_full_false`, `C68_full_false`); same
  for an even wheel between the cam pulse that synchronises it and the next tooth
  (`C68_cam_stale`). It also arms no expiry (`C43_full_false`).
* The first teeth after boot can look like a gap (`C40_boot_false_sync`); tolerances of 1/2 and more
  make a gap and a normal tooth indistinguishable (`C40_wide_tolerance`).
* With an averaging window of 0 (shipped) or 1 an even wheel never synchronises
  (`C41_window_needed`).
* The flag "cam pulse seen" survives a loss of synchronisation: the phase can be wrong by 360
  degrees afterwards (`C42_full_false`).
* Tooth counts and required triggers above the history size are read out of bounds
  (`C44_limits_needed`); the console accepts them.
* The stall timeout uses the speed measured at the last gap: a wheel slowing down within the
  tolerance of each tooth is taken for a stopped one (`C66_full_false`).
* A wheel that stops before it was synchronised, rests for more than a minute and starts again
  gives an average speed of 0 and then UB in the stall timeout (`C67_full_false`, shipped wheel).
* The built-in test wheel has its second gap hard-coded at event 36 (`C56_full_false`).

**Console**

* The age of a partial request is measured from the start of an earlier one (`C48_full_false`).
* A path that goes on after a setting gets or sets it (`C49_full_false`, `C50_full_false`); a list
  below an axis resizes it (`C49_resize_full_false`); numbers from 2^31 are ignored
  (`C49_uint_full_false`), negative and wide integers wrap (`C49_negative_full_false`,
  `C49_wide_full_false`); a knock frequency of NaN is UB (`C49_knock_full_false`).
* An unknown method is answered without `success`, a request without method with two
  (`C62_full_false`, `C62_twice_full_false`).

**Platforms**

* enable_interrupts on gd32 and stm32 is unconditional: an inner critical section unmasks the outer
  one (`C57_gd32_full_false`, `C57_stm32_full_false`); gd32 writes the flash unmasked after an
  emergency shutdown with an armed output (`C57_save_config_unmasked`).
* stm32 loses the last word of a configuration of exactly 0x2001 words (`C58_stm32_full_false`).
* Power loss between erase and the last word loses the stored configuration
  (`C64_full_false`); nothing detects the mixture at the next start.
* A trigger edge between the read of the capture register and the clearing of its flag is lost
  (`C63_stm32_full_false`); gd32 ignores overcapture (`C63_gd32_full_false`).

* gd32: a USB packet that arrives while console_read is between its test and the re-arming of the
  endpoint is overwritten, or makes the copy exceed the request buffer (`C69_gd32_full_false`,
  `C69_gd32_overrun_full_false`); stm32 discards a packet that its 1024-byte buffer has no room for
  (`C69_stm32_full_false`).
* gd32f4_sched.c:86 names CH2NP where CH1NP is meant: input 1 set to both edges captures falling
  edges only, and channel 2 gets a reserved polarity (`C70_gd32_full_false`,
  `C70_gd32_reserved`). A frequency input on a trigger channel is delivered as a trigger
  (`C70_gd32_freq`); stm32 delivers edges on unused inputs (`C70_stm32_full_false`).
* The first edge of a frequency input gives a valid reading with a meaningless period
  (`C71_first`); a period of more than a second on the pulse width input is reported modulo the
  timer's range (`C71_slow`, `C71_full_false`). The frequency input on the trigger timer has no
  timeout (`C72_full_false`).
* A coil whose stop was moved to before its committed start stays on (`C73_full_false`,
  `C73_coil_left_on`). Changing the polarity of a resting output leaves its pin active until its
  next pulse (`C73_polarity`).
* gd32 set_output reads, changes and writes back the port: an edge that the DMA writes in between
  is undone (`C74_gd32_full_false`).
* gd32 set_pwm does not limit the duty, which comes from a user table: outside 0 to 100 UB
  (`C75_gd32_full_false`); NaN is UB on both boards (`C75_nan`).
* The decoder becomes valid on the tooth that synchronises it, without taking over the time of that
  tooth: outputs scheduled on it are timed from the last tooth of the previous synchronised period, or from
  time 0, and may spark anywhere (`C76_full_false`: 270 degrees off at 4000 rpm).  The same holds of injections
  (`C79_full_false`).
* The stall timeout does not reset the reported speed. After the engine stops, the console reports its last speed,
  boost control uses it, and the angle given to windowed sensors goes on turning (`C77_full_false`, `C78_kept`,
  `C78_full_false`).
* A dwell or fuel pulse of zero puts both edges of an output in one slot of the buffer, where setting wins over
  clearing: an active-high coil or injector is switched on and stays on until its next pulse of positive width
  (`C80_on`, `C80_stays_on`, `C80_full_false`).
* gd32: saving the configuration with the engine turning stops the output DMA without switching the ignition outputs
  off. A coil that is charging stays on until the flash is written (`C81_coil_on`, `C81_full_false`).
* A list without entries sent as the values of an axis (`["tables", "dwell", "horizontal-axis", "values"]`) is accepted and sets `num` to 0; the next lookup in the table reads `values[-1]` (`C82_full_false`). src/console.c:841-850 limits the length from above only.
* **C83**: the console answers with lists of unknown length (`cbor_encoder_create_array` with `CborIndefiniteLength`), but only a list with a length sets the number of values of an axis (src/console.c `render_table_axis_values`). A configuration read and sent back byte for byte therefore leaves a shorter axis short; the rest of its values is dropped without an error (`C83_full_false`). A client must give the lengths.
* **C84**: `fixed-value` of a sensor is the sensor's current reading (`input->value`), so restoring a dump overwrites the present readings until the next sample, and for a sensor that is not `const` the dump shows the reading and not a setting.
* **C85**: no violation found. The answer to a bootloader request is written into a buffer that is sent only after `platform_reset_into_bootloader` has returned, so where that function does not return the host gets no answer.
* **C86**: no violation found within its hypotheses. A cycle can be skipped where they fail: when the dwell and the handling of a tooth together take more than about 560 degrees of crank, or when the sparks come closer than `min_fire_time_us` allows. When the advance falls by more than the distance between two teeth from one tooth to the next, or at all between a tooth and the cam pulse after it, an output armed for the next cycle can be called back to this one; its stop is then moved and its start is not (the violation of C12).
* **C92**: no violation found within its hypotheses. A cycle can be skipped where they fail: a pulse so wide that no tooth comes between the end of one injection and the start of the next is not armed in time.
* C87: the answer to a request is encoded into a buffer of 16384 bytes, and if it does not fit nothing is sent (console.c:1583-1588). With five tables of 24 by 24 values, which the firmware accepts, a get of `["tables"]` needs 16877 bytes and a get of everything 21323, so neither is ever answered and a client that reads the configuration this way waits for ever. A set of all tables in one request of 3937 bytes is carried out but not answered. A "bootloader" request is not answered on the microcontrollers because the reset comes before the write.
* `schedule_event_timer` clears the compare flag before it writes the compare register. If the old
  compare time comes in between, the callback that is being put off runs at once: the decoder's
  timeout can run at a tooth that came in time, and sync is lost (`C91_full_false`).
* The timer interrupt reads the compare flag without asking whether the compare interrupt is enabled.
  If from power-on the engine does not turn for a clock wrap (17.9 min), the first edge on a trigger
  input runs the callback timer with an empty queue, which writes in front of the callback array
  (`C91_idle_full_false`).
* C93: `knock_configure` takes the bin `floor(f / width) + 1` instead of the nearest one (`C93_full_false`). At 50000 samples a second an input set to 6250 Hz listens for 7031 Hz, and a tone of exactly 6250 Hz gives no response at all (`C93_deaf`, with exact arithmetic and exact pi). The default of 7000 Hz, and the only one tested, happens to be rounded well.
* C94: the callback at the end of an injection, meant to let injections "use close to 100% duty cycle without having to wait until the next trigger" (src/scheduler.c:229-232), has no effect: at that moment the predicted end is still that of the pulse that has just ended (`C94_callback`). An injection too wide for a tooth to come between its end and the next start is delivered only in every other cycle: 23.5 ms at 5000 rpm is skipped (`C94_full_false`), half the fuel without any sign.
* **C95**: holds. Changing the speed of a running test moves the next tooth to 2.5 ms after the request (`C95_request`), at most speeds a jump in the middle of the wheel; C56 is for a constant speed.
* **C96**: `usbd_int_reset` flushes only FIFO 0 and leaves DIEPFEINTEN as it is. When the cable is plugged in again in the middle of a message, selecting the configuration puts the rest of that message into the FIFO, and the host gets it in place of the next message (`C96_full_false`). The message that is being written when the configuration is first selected is dropped whole. A wakeup sets the status to configured whatever it was.
* C97: a windowed sensor whose capture window is as wide as the cycle (capture width 720, total width 720, as one sets to average over a cycle) never closes its window: the code looks for an angle of at least 720 after bringing it below 720. The reading is frozen for as long as the engine turns (`C97_frozen`, `C97_full_false`). Also, a reading of the angle that goes back by a degree at the end of a window (possible at every tooth when the speed changes) reports the few samples after it in place of the window's mean (second example beside it).
* C98: sets are not atomic for interrupts. New values for the axis of a table are stored one at a time while the trigger interrupt looks values up: sending 20, 22, 24, 26 for the dwell axis 5, 10, 14, 18 makes the axis 20, 10, 14, 18 for a moment, a lookup at any voltage fails `assert(axis->values[0] <= value)`/`value <= last` and, with assertions compiled out, gives the dwell of the highest voltage (`C98_full_false`), although the configurations before and after are fine.
* C99: `console_read` arms the endpoint on every poll, even while a packet is being received, and `usbd_ep_recev` is not protected from the USB interrupt. If it runs between the interrupt that copies a packet and the one that reports it, the packet is reported with length 0 and lost (`C99_full_false`); if the copy falls between its stores, the address stays advanced by the packet, and the next packet is written behind the 64-byte `rxbuffer` (`C99_overrun_full_false`).
* **C101** holds within its hypotheses. The witness of C12 shows what goes wrong without them: when the advance or the dwell moves far enough between two teeth the end can be put before the start and the coil stays on until the next cycle.
* **C102**: on an even wheel without a cam the teeth since the last synchronisation are counted also while there is none, the count is set back only by gaining or losing it, and a count above `num_triggers` forbids it (`decoder.c:86-90`). If as many teeth as a cycle has pass before the speed is accepted, for instance while cranking slower than `trigger_min_rpm`, the decoder cannot synchronise any more until the wheel has stopped for long enough that the expiry callback resets it (`C102_stuck`, `C102_full_false`: 4-tooth wheel, five teeth just below the slowest speed). With `required_triggers_rpm` above `num_triggers` it never synchronises (`C102_required`). With an averaging window of a whole cycle it does not synchronise after start either, because while the history fills up the window is one interval longer than the history and reads a time that was never written, and afterwards the count is too high (`C102_wide_false`).
* **C103** holds within its hypotheses. With the shipped tables the calculated advance is not constant even where the table is: rounding moves it by 2^-19 degrees from one speed to the next. This is why the theorems allow a band.
* **C104** holds, but only for the even wheel without a cam: it is the one decoder that sets the time of the last trigger at the tooth that synchronises it (decoder.c:173). The other three leave it at the value it had before, so that the outputs of the first tooth are timed from time zero (C68, C76).
* C105: no defect. The weights of a cell are within 2^-22 of the exact ones for every breakpoint spacing, because lookup value and breakpoints are floats and the differences are rounded relatively; the subtraction `second - first` of the one-dimensional lookup costs no more.
* C106: no defect. 26 roundings reach the pulse before the corrections are added; 273.15 is not a float, which costs three of them at -145 °C.
* C107: no defect. The bound needs a lag of at most 99 per cent: at a lag of 100 the filter has no contraction.
* C108: no defect besides the full axis of C05 and C06.
* **C109** is false in single precision: the lag filter stalls below (or above) a steady reading when one step, a hundredth of the distance at a lag of 99 per cent, is less than the rounding. Proved witness: 99.99918 instead of 100, for ever. The distance is at most 2^-14 of the range, so it does no harm in practice.
* C110: no defect. The sum of 4096 readings costs up to 2^-11 of the range, twelve bits of the 24: the mean of a long window at low speed is no better than the 12 bits of the converter.

Seen while reading, not stated as theorems: decode_even_no_sync counts pulses on the second input as teeth; console docs give lag as 0 to 1 and
the code takes percent; the knock bin is `floor(f / width) + 1`; already submitted start edges may
still fire after an emergency shutdown; a missing dead-time table counts as 1.0 ms.
