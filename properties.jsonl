{"id": "C01", "title": "32-bit time comparisons agree with true time across wrap-around", "statement": "For two instants of real (unbounded) time less than 2^31 ticks apart, time_before and time_before_or_equal on their 32-bit stamps give the real order; time_diff gives the real elapsed ticks whenever that is under 2^32; time_in_range is true exactly when the instant lies between the two ends, for any instant within one wrap of the first end.", "quantifier": "all pairs/triples of instants of unbounded time within the stated distances, hence every wrap count", "why_tests_cant": "the 2^32 x 2^32 stamp pairs and every wrap count cannot be enumerated; the tests try a handful of literals", "anchors": ["src/util.c: time_before, time_before_or_equal, time_in_range, time_diff"]}
{"id": "C02", "title": "Duration and angle/time conversions are exact or bounded, and monotone", "statement": "time_from_us(n) is exactly 4*n ticks for every n up to 2^24 (so for every fixed duration the firmware uses), under IEEE single precision; time_from_rpm_diff and rpm_from_time_diff are monotone (more degrees: not less time; more time: not more rpm) under single precision; in exact arithmetic they are the truncated physical quantities and degrees_from_time_diff inverts time_from_rpm_diff to within one tick of angle; conversions whose float value does not fit the integer type are flagged as undefined rather than given a value.", "quantifier": "all microsecond counts, rpms, angles and tick counts, for every float rounding satisfying the IEEE laws used", "why_tests_cant": "floating-point conversion must be right for every argument; tests compare a few values with a tolerance", "anchors": ["src/util.c: time_from_us, time_from_rpm_diff, rpm_from_time_diff, degrees_from_time_diff"]}
{"id": "C03", "title": "clamp_angle normalises any angle into [0, max)", "statement": "Whenever clamp_angle returns, its result is at least 0 and below max (also under IEEE rounding); in exact arithmetic it returns for every input angle and the result differs from the input by a whole number of turns and is unique; calling it again changes nothing. Under IEEE single precision it does return for every |angle| up to 2^24 degrees, but it does not return for some very large finite angles.", "quantifier": "all angles and all positive turn lengths", "why_tests_cant": "loop termination and congruence hold for all inputs or not at all; tests try six values", "anchors": ["src/util.c: clamp_angle"]}
{"id": "C04", "title": "Table cell search finds the bracketing cell", "statement": "For a non-decreasing axis of any size and a value inside its range, the search returns an index inside the axis whose breakpoint is not above the value and whose successor breakpoint, if there is one, is above the value; it terminates and reads only axis entries.", "quantifier": "all axis sizes, all non-decreasing breakpoint lists, all values in range", "why_tests_cant": "binary-search correctness is over every size and position; tests use one four-entry axis", "anchors": ["src/table.c: axis_find_cell_lower"]}
{"id": "C05", "title": "One-dimensional table lookup interpolates, clamps and stays in bounds", "statement": "A lookup in a strictly increasing table returns the stored value at every breakpoint, the value of the linear segment between breakpoints (hence between the two neighbouring entries), and the end value outside the axis range, without reading outside the table.", "quantifier": "all strictly increasing axes of 2..24 entries, all data, all finite lookup values", "why_tests_cant": "needs every axis, data and input value, including the end of a full 24-entry axis", "anchors": ["src/table.c: interpolate_table_oneaxis"]}
{"id": "C06", "title": "Two-dimensional table lookup interpolates, clamps and stays in bounds", "statement": "A lookup in a table with two strictly increasing axes returns the stored value at grid points, lies between the smallest and largest of the four surrounding cells, is bilinear in between, and clamps outside the axes, without reading outside the table.", "quantifier": "all pairs of strictly increasing axes of 2..24 entries, all data, all finite lookup values", "why_tests_cant": "needs every axis, data and input pair, including the far edges of a full 24x24 table", "anchors": ["src/table.c: interpolate_table_twoaxis"]}
{"id": "C07", "title": "A configuration accepted at start-up makes every table lookup safe", "statement": "If config_valid accepts a configuration then every table lookup the control code performs, for any operating point, reads only inside the table and yields a number.", "quantifier": "all configurations and all operating points", "why_tests_cant": "quantifies over all tables a tuner can load", "anchors": ["src/config.c: config_valid", "src/table.c: table_valid_axis, table_valid_oneaxis, table_valid_twoaxis"]}
{"id": "C08", "title": "The deferred-callback queue is always sorted, duplicate-free and armed at its head", "statement": "After any sequence of schedule_callback calls and timer expiries (requested times within half a wrap of one another), pending callbacks are in time order with first-come order among equals, each callback is pending at most once and at its most recently requested time, its scheduled flag says whether it is pending, and the hardware timer is set to the earliest pending time.", "quantifier": "all histories of schedule and expire operations on any set of callbacks", "why_tests_cant": "depends on the whole history of insertions, removals and reschedules", "anchors": ["src/scheduler.c: schedule_callback, callback_insert, callback_remove, scheduler_callback_timer_execute"]}
{"id": "C09", "title": "The callback array never overflows", "statement": "No history of schedule_callback calls on the callbacks that exist in the firmware (decoder expiry, one per output event, test trigger, replay timer) writes outside the 32-entry callback array or fails the removal assertion.", "quantifier": "all histories of schedule and expire operations", "why_tests_cant": "needs all histories", "anchors": ["src/scheduler.c: MAX_CALLBACKS, callback_insert, callback_remove"]}
{"id": "C10", "title": "Timer interrupts only ever find due work", "statement": "Whenever the callback timer interrupt is delivered there is a pending callback whose time has come, so the interrupt handler's assertions cannot fail.", "quantifier": "all schedules of timer arming, time advance and interrupt delivery, on the hosted timebase and the 32-bit compare timers", "why_tests_cant": "requires a particular interleaving of timebase ticks with an emptying queue", "anchors": ["src/scheduler.c: scheduler_callback_timer_execute", "src/platforms/hosted.c: platform_timebase_thread, schedule_event_timer", "src/platforms/gd32f4/gd32f4_sched.c: schedule_event_timer, TIMER1_IRQHandler"]}
{"id": "C11", "title": "A submitted output edge is never altered", "statement": "Once an output edge has been handed to the platform, no scheduling or descheduling operation changes its time or withdraws it; it only moves on to fired, and only a completed (both edges fired) event is reset.", "quantifier": "all interleavings of scheduling, descheduling, reset and buffer swaps, for all times", "why_tests_cant": "race between control code and the buffer-swap interrupt; every interleaving matters", "anchors": ["src/scheduler.c: sched_entry_enable, sched_entry_disable, reset_fired_event", "src/platforms/common/stm32_sched_buffers.c"]}
{"id": "C12", "title": "Every output pulse that starts also ends, in that order", "statement": "In every history, an output event whose start edge is pending, submitted or fired also has its stop edge pending, submitted or fired, with the stop later than the start.", "quantifier": "all interleavings of scheduling with any newly computed times, descheduling, reset and buffer swaps", "why_tests_cant": "the failing case needs a reschedule landing exactly when the old start can no longer be moved and the new stop precedes it", "anchors": ["src/scheduler.c: schedule_output_event_safely, deschedule_event"]}
{"id": "C13", "title": "Fuel pulse width is preserved when the injector can no longer start at a new time", "statement": "When a fuel event is rescheduled and its start edge cannot be moved, the stop edge is either left alone or moved so that the pulse still has exactly the newly commanded width measured from the actual start.", "quantifier": "all event states, all old and new times", "why_tests_cant": "every state and time combination, including wrap-around", "anchors": ["src/scheduler.c: schedule_output_event_safely"]}
{"id": "C14", "title": "Descheduling is all-or-nothing", "statement": "Descheduling an event whose start is still changeable removes both edges; if the start has been submitted or has fired, the event (including its stop edge) is left exactly as it was.", "quantifier": "all event states reachable in any history", "why_tests_cant": "depends on the race with buffer swap", "anchors": ["src/scheduler.c: deschedule_event, invalidate_scheduled_events"]}
{"id": "C15", "title": "No output fires twice for one firing angle", "statement": "After an event has fired it is not armed again unless the new end time is at least 90 degrees of rotation after the previous end; an ignition event is also never armed to start less than the configured minimum fire time after its previous end; an armed end time is never pushed out by more than 180 degrees by one reschedule.", "quantifier": "all decoder states, event states, angles, dwell and advance values", "why_tests_cant": "holds for every timing relation between fired and newly computed times", "anchors": ["src/scheduler.c: schedule_ignition_event, schedule_fuel_event"]}
{"id": "C16", "title": "Nothing is ever armed in a window that is already committed", "statement": "Every edge that becomes armed, or whose time is changed, has a time not before the platform's earliest schedulable time at that moment.", "quantifier": "all event states and requested times", "why_tests_cant": "every requested time relative to the buffer boundary", "anchors": ["src/scheduler.c: sched_entry_enable", "src/platforms/common/stm32_sched_buffers.c: platform_output_earliest_schedulable_time"]}
{"id": "C17", "title": "Loss of sync or any cut leaves no cancellable output armed", "statement": "After an output event is evaluated while the decoder is not valid or a cut is active, and after the decoder loses sync or expires, no enabled fuel or ignition event has a start edge that could still be cancelled; events whose start has already been committed keep their stop edge.", "quantifier": "all event arrays, decoder states, cut states and trigger histories", "why_tests_cant": "must hold from every reachable event state", "anchors": ["src/scheduler.c: schedule_event, invalidate_scheduled_events", "src/decoder.c: invalidate_decoder, handle_decoder_expire"]}
{"id": "C18", "title": "Disabling an output stops it", "statement": "Once an output is configured as disabled, losing sync, a cut or an emergency shutdown leaves no start edge of it armed.", "quantifier": "all event states at the moment the output is disabled through the console", "why_tests_cant": "needs a console write to land between arming and firing", "anchors": ["src/scheduler.c: invalidate_scheduled_events", "src/console.c: output_console_renderer"]}
{"id": "C19", "title": "DMA buffers play every armed edge exactly once, at exactly its tick", "statement": "From the second buffer swap after start-up on, with buffer swaps serviced within their window and pins reconfigured only while an output is idle, every edge armed at or after the earliest schedulable time is set in the DMA slot of its own tick before that buffer is played, no other bits are ever set, and it is reported fired after that buffer completes.", "quantifier": "all sequences of swaps, arming, moving and cancelling, for any number of events and wrap-around", "why_tests_cant": "needs all phase relations between arming and double-buffer swaps", "anchors": ["src/platforms/common/stm32_sched_buffers.c: stm32_buffer_swap, populate_output_buffer, retire_output_buffer, platform_output_earliest_schedulable_time"]}
{"id": "C20", "title": "Reconfiguring a pin never leaves a stale output bit", "statement": "Changing an output's pin or polarity through the console never leaves an output bit permanently set in a DMA buffer.", "quantifier": "all histories of console writes, scheduling and buffer swaps", "why_tests_cant": "needs the console write and reschedule to land between submission and retirement", "anchors": ["src/scheduler.c: schedule_output_event_safely", "src/platforms/common/stm32_sched_buffers.c: retire_output_buffer"]}
{"id": "C21", "title": "The hosted timebase emits every armed edge in its own 128-tick window, in time order", "statement": "On the hosted platform, each edge armed between ticks at or after the earliest schedulable time is emitted exactly once in the window containing its time, edges within a window are applied in time order, and the window's edge list never overflows its array.", "quantifier": "all histories of ticks, arming, moving and cancelling", "why_tests_cant": "needs all histories and wrap-around", "anchors": ["src/platforms/hosted.c: platform_buffer_swap, do_output_slots, platform_output_earliest_schedulable_time, platform_timebase_thread"]}
{"id": "C22", "title": "Rev limiter hysteresis", "statement": "Over any rpm history, the rpm cut is active exactly when the rpm has reached the stop limit and has not since dropped below the start limit (for start not above stop).", "quantifier": "all rpm histories and limits", "why_tests_cant": "state depends on the whole history", "anchors": ["src/calculations.c: rpm_cut"]}
{"id": "C23", "title": "Cuts stop both fuel and spark", "statement": "ignition_cut and fuel_cut are true exactly when the rev limiter is active, the commanded injector time reaches the time available per injection, or manifold pressure exceeds the overboost limit; and the reported cut flags are consistent with the decision.", "quantifier": "all sensor values, rpms, fueling results and limiter histories", "why_tests_cant": "all combinations of conditions, including the untested division corner", "anchors": ["src/calculations.c: ignition_cut, fuel_cut, fuel_overduty, boost_cut"]}
{"id": "C24", "title": "Injector pulse width follows the speed-density equation", "statement": "In exact arithmetic the commanded injector time is (air mass / stoich ratio / fuel density / lambda + tip-in volume) / injector flow / injections, times enrichment, plus pulse correction and dead time; it is non-decreasing in volumetric efficiency and manifold pressure, inversely proportional to injector flow, and every term is the one selected by the configuration (a missing table gives 100 % efficiency, lambda 1, 1 ms dead time, no correction).", "quantifier": "all sensor values, tables and fueling configurations", "why_tests_cant": "an equation and monotonicity over all operating points", "anchors": ["src/calculations.c: calculate_fueling, calculate_airmass, calculate_fuel_volume, air_density, fuel_density"]}
{"id": "C25", "title": "Cranking enrichment overrides warm-up enrichment exactly when cold and cranking", "statement": "The enrichment multiplier is the cranking amount exactly when rpm is below the crank rpm and coolant is below the cutoff, otherwise the warm-up table value (1 when there is no table).", "quantifier": "all rpms, temperatures and configurations", "why_tests_cant": "boundary behaviour for all values", "anchors": ["src/calculations.c: calculate_fueling"]}
{"id": "C26", "title": "Acceleration enrichment latches the largest demand for its duration", "statement": "While an enrichment event is active the returned amount never drops and equals the largest demand seen since the event began; a new event begins only when the demand exceeds the current amount or the previous event's duration has elapsed.", "quantifier": "all histories of throttle, rpm and call times", "why_tests_cant": "state machine over whole histories", "anchors": ["src/calculations.c: calculate_tipin_enrichment"]}
{"id": "C27", "title": "Fuel pump runs while the engine turns, for a limited prime, and stops afterwards", "statement": "Whenever tasks run at least once a wrap, the pump is on if a trigger was seen within the last second, stays on for at most 4 seconds after the last such moment, and then stays off until another trigger is seen.", "quantifier": "all histories of trigger times and task times", "why_tests_cant": "depends on elapsed time across clock wrap-around, which takes 17.9 minutes per wrap", "anchors": ["src/tasks.c: handle_fuel_pump"]}
{"id": "C28", "title": "Check-engine light priority, hold and blink pattern", "statement": "The light shows the highest-priority fault seen (lean in boost over decoder loss over sensor fault); a higher-priority fault takes over immediately and restarts the pattern; a shown fault is held for 3 seconds; blink half-periods are 500 ms and 200 ms.", "quantifier": "all histories of fault conditions and task times", "why_tests_cant": "state machine over whole histories", "anchors": ["src/tasks.c: handle_check_engine_light, determine_next_cel_state, determine_cel_pin_state"]}
{"id": "C29", "title": "Boost control output selection", "statement": "The boost solenoid duty is 0 below the enable pressure, 100 between the enable and control pressures with throttle above its threshold, and otherwise the table value for the current rpm, which lies within the table's range.", "quantifier": "all pressures, throttle positions, rpms, thresholds and tables", "why_tests_cant": "all combinations and boundaries", "anchors": ["src/tasks.c: handle_boost_control"]}
{"id": "C30", "title": "Emergency shutdown turns everything off", "statement": "After an emergency shutdown the fuel pump output is off, every injector output is driven to its inactive level, and no enabled output has a cancellable start edge.", "quantifier": "all event arrays and output states", "why_tests_cant": "all event states and pin assignments, including shared pins", "anchors": ["src/tasks.c: handle_emergency_shutdown"]}
{"id": "C31", "title": "Linear sensors map raw endpoints to range endpoints, affinely and monotonically", "statement": "In exact arithmetic a linear sensor reads range.min at raw_min, range.max at raw_max, is affine in between, stays within the range for in-range raw values, and reads 0 when raw_min equals raw_max.", "quantifier": "all calibrations and raw values", "why_tests_cant": "all calibrations and inputs", "anchors": ["src/sensors.c: sensor_convert_linear"]}
{"id": "C32", "title": "Faulty sensor readings are replaced by the configured fault value", "statement": "An update that is marked invalid, or whose raw value is outside configured fault bounds, makes the sensor read its configured fault value with zero rate; any other update makes it read the converted value.", "quantifier": "all sensor configurations, states and updates", "why_tests_cant": "all configurations and inputs", "anchors": ["src/sensors.c: detect_faults, sensor_convert"]}
{"id": "C33", "title": "Sensor faults are reported", "statement": "The reported fault status has a sensor's bit set exactly when the sensor's latest update was faulty (invalid or out of bounds), so the check-engine light sees every fault.", "quantifier": "all update histories", "why_tests_cant": "over all histories of updates", "anchors": ["src/sensors.c: sensor_fault_status, detect_faults, sensor_update_adc, sensor_update_freq"]}
{"id": "C34", "title": "The lag filter never overshoots", "statement": "In exact arithmetic, for lag between 0 and 100 the filtered value always lies between the smallest and largest of the initial value and all readings so far; with lag 0 it follows the reading, and a constant reading is approached geometrically.", "quantifier": "all reading histories and lags", "why_tests_cant": "needs all histories", "anchors": ["src/sensors.c: process_lag_filter, sensor_convert"]}
{"id": "C35", "title": "Windowed sensors report the mean of the samples of the last complete window", "statement": "With the engine turning, a windowed sensor keeps its previous value while a window is being collected and at the end of the window takes the arithmetic mean of exactly the samples collected in it; with the engine stopped it follows the linear reading.", "quantifier": "all angle/sample histories and window layouts with positive width", "why_tests_cant": "needs all histories of angles and samples", "anchors": ["src/sensors.c: sensor_convert_linear_windowed, current_angle_in_window"]}
{"id": "C36", "title": "Sensor updates are routed only to matching sensors", "statement": "An ADC update changes exactly the sensors whose source is ADC and whose pin exists, each from its own pin's value; a frequency update changes exactly the frequency and pulse-width sensors on that pin; constant and unassigned sensors never change.", "quantifier": "all sensor configurations and updates", "why_tests_cant": "all assignments of sensors to pins", "anchors": ["src/sensors.c: sensor_update_adc, sensor_update_freq"]}
{"id": "C37", "title": "Knock filter output is the power of the selected frequency bin", "statement": "In real arithmetic the knock value after each 64-sample block equals the squared magnitude of that block's Fourier sum at the configured angular frequency, independent of how samples are split into updates.", "quantifier": "all sample streams and all splits into updates", "why_tests_cant": "an identity over all 64-sample blocks", "anchors": ["src/sensors.c: knock_add_sample, sensor_update_knock"]}
{"id": "C38", "title": "Valid position always means synchronised", "statement": "In every trigger and expiry history, for all four decoder types, the decoder reports a valid position only while its state is synchronised; after sync is lost it reports invalid until a fresh synchronisation, with its trigger counters cleared.", "quantifier": "all trigger and expiry histories, all decoder configurations, all float results", "why_tests_cant": "needs all histories", "anchors": ["src/decoder.c: decode, invalidate_decoder, decoder_update_scheduling"]}
{"id": "C39", "title": "Reported crank angle stays within one cycle", "statement": "For wheel configurations whose per-tooth angle is positive and small enough, the last trigger angle is always at least 0 and below 720 in every history.", "quantifier": "all trigger histories and admissible wheel configurations", "why_tests_cant": "needs all histories", "anchors": ["src/decoder.c: even_tooth_trigger_update, missing_tooth_trigger_update, decode_missing_with_camsync"]}
{"id": "C40", "title": "A missing-tooth wheel is tracked exactly", "statement": "For any missing-tooth wheel and any tooth timing that stays within the configured tolerance, once synchronised the decoder stays synchronised and the reported angle after every tooth is the true wheel angle of that tooth.", "quantifier": "all wheel sizes, all tooth timings within tolerance, any number of revolutions", "why_tests_cant": "needs all speeds, accelerations and lengths", "anchors": ["src/decoder.c: missing_tooth_trigger_update, decode_missing_no_sync"]}
{"id": "C41", "title": "An even-tooth wheel with cam sync is tracked exactly", "statement": "For an even wheel with one cam pulse per cycle and timing within tolerance, the decoder stays synchronised and the reported angle advances by the per-tooth angle on each tooth and returns to the reference at each cam pulse, for every number of cycles.", "quantifier": "all wheel sizes and timings within tolerance, any number of cycles", "why_tests_cant": "needs all lengths of run", "anchors": ["src/decoder.c: decode_even_with_camsync, even_tooth_trigger_update, even_tooth_sync_update"]}
{"id": "C42", "title": "Cam phase is never wrong after synchronising", "statement": "With a crank wheel and cam pulse in the first revolution of each cycle, whenever the decoder reports valid its angle is in the revolution the engine is really in, including after sync has been lost and regained.", "quantifier": "all histories of crank teeth, cam pulses and sync losses", "why_tests_cant": "the failing case needs a sync loss at a particular place in the cycle", "anchors": ["src/decoder.c: decode_missing_with_camsync"]}
{"id": "C43", "title": "A stopped or skipping wheel is detected", "statement": "After each synchronised tooth the decoder arms an expiry for the expected next tooth plus tolerance; if the expiry is reached first the decoder becomes invalid with all outputs cancelled; every accepted tooth re-arms it.", "quantifier": "all trigger histories", "why_tests_cant": "needs all histories and times", "anchors": ["src/decoder.c: set_expire_event, handle_decoder_expire, even_tooth_trigger_update_rpm, missing_tooth_trigger_update"]}
{"id": "C44", "title": "Decoder history buffer is only read inside its bounds", "statement": "For configurations with tooth counts and windows within the documented limits, no trigger history makes the decoder read outside its tooth-time history or divide by zero.", "quantifier": "all trigger histories and all configurations a client may write", "why_tests_cant": "needs all histories and configurations", "anchors": ["src/decoder.c: push_time, even_tooth_trigger_update_rpm, missing_tooth_trigger_update, missing_tooth_average_rpm"]}
{"id": "C45", "title": "Every trigger is counted and logged", "statement": "After any history, the two trigger counters equal the number of triggers delivered on each input (mod 2^32), and each delivered trigger appends exactly one trigger event to the log.", "quantifier": "all trigger histories", "why_tests_cant": "needs all histories", "anchors": ["src/decoder.c: decoder_update_scheduling"]}
{"id": "C46", "title": "Event log is a bounded FIFO that reveals every drop", "statement": "Events are delivered to the client in order, unmodified, at most once; up to 31 may be pending; an event is dropped only when 31 are pending, and each delivered event carries its true position in the sequence of all events so drops are visible as gaps.", "quantifier": "all interleavings of recording and draining", "why_tests_cant": "needs all interleavings and index wrap-around", "anchors": ["src/console.c: console_record_event, get_logged_event, event_log_next_idx"]}
{"id": "C47", "title": "Console output is transmitted completely and in order", "statement": "Whatever chunk sizes the transport accepts, the bytes written are exactly the message bytes in order, once, whenever the transport eventually accepts everything.", "quantifier": "all messages and all sequences of partial-write sizes", "why_tests_cant": "needs all chunkings", "anchors": ["src/console.c: console_write_full"]}
{"id": "C48", "title": "Console receive buffering is safe and resynchronises", "statement": "The receive buffer never overflows; complete requests are consumed exactly once and in order; bytes that cannot start a request are skipped one at a time; an incomplete request is kept until completed, until 5 seconds pass or until the buffer is full.", "quantifier": "all byte streams, all read chunkings and times", "why_tests_cant": "needs all streams and chunkings", "anchors": ["src/console.c: console_try_read, console_shift_rx_buffer, console_process"]}
{"id": "C49", "title": "Setting a configuration value and reading it back returns it, and touches nothing else", "statement": "A set request for a leaf path with a value of the right type changes that value and no other; a get for the same path then returns it; a set whose value has the wrong type, or whose path does not exist, changes nothing.", "quantifier": "all paths of the configuration tree, all configurations, all values", "why_tests_cant": "needs all paths times all values", "anchors": ["src/console.c: console_request_set, console_request_get, descend_map_field, descend_array_field, render_map_object, render_array_object"]}
{"id": "C50", "title": "A get request answers with the addressed subtree", "statement": "A get with a path returns the value of exactly the addressed node, rendered the same as inside the full configuration dump, or null when no such node exists.", "quantifier": "all paths and configurations", "why_tests_cant": "needs all paths", "anchors": ["src/console.c: console_request_get, descend_map_field, descend_array_field, render_map_object, render_array_object"]}
{"id": "C51", "title": "Enumerated settings only ever hold listed choices", "statement": "A set of an enumerated field accepts exactly the listed strings, stores the matching choice, and get returns the same string; any other value leaves the field unchanged.", "quantifier": "all strings and all enumerated fields", "why_tests_cant": "all strings", "anchors": ["src/console.c: render_enum_object"]}
{"id": "C52", "title": "Feed messages line up with their description", "statement": "Every feed message has exactly as many values as the description message has keys, in the same order.", "quantifier": "all states", "why_tests_cant": "must hold for every node list", "anchors": ["src/console.c: console_feed_line, console_feed_line_keys, console_feed_nodes"]}
{"id": "C53", "title": "Half-precision settings decode to their exact value", "statement": "Every finite 16-bit half-float pattern decodes to exactly its IEEE-754 value, and infinities and NaNs to infinities and NaNs.", "quantifier": "all 65536 bit patterns", "why_tests_cant": "bit-level decoding, only a few patterns are ever exercised", "anchors": ["src/console.c: decode_half"]}
{"id": "C54", "title": "Trigger edges captured together are processed in time order", "statement": "When both trigger captures are pending in one interrupt, they are delivered to the decoder in the order of their capture times, primary first on ties, each exactly once.", "quantifier": "all pairs of capture times less than half a wrap apart", "why_tests_cant": "needs all orders including wrap-around", "anchors": ["src/platforms/gd32f4/gd32f4_sched.c: TIMER1_IRQHandler", "src/platforms/stm32f4-discovery.c: tim2_isr"]}
{"id": "C55", "title": "Each ADC channel's reading lands in its own slot", "statement": "For each supported ADC chip, the response word read for a pin is the one produced by the command that sampled that pin (the device answers one frame late), the 12-bit value is extracted intact, and no read falls outside the response buffer.", "quantifier": "all response buffers and all pins, for the three ADC chips", "why_tests_cant": "an index relation over whole tables and all buffer contents", "anchors": ["src/platforms/common/tlv2553_adc.h", "src/platforms/common/ad7888_adc.h", "src/platforms/common/max11632_adc.h"]}
{"id": "C56", "title": "The built-in test wheel drives the default decoder to sync and keeps it", "statement": "The simulated trigger wheel emits per cycle exactly the teeth and cam pulse of an N-1 wheel with the configured tooth count, so a decoder fed by it tracks it without loss.", "quantifier": "any number of simulated cycles", "why_tests_cant": "unbounded run length", "anchors": ["src/sim.c: test_wheel_Nminus1_next, execute_test_trigger"]}
{"id": "C57", "title": "Interrupt masking nests", "statement": "A critical section entered inside another critical section does not end the outer one: interrupts stay masked until the outermost section ends, on every platform.", "quantifier": "all nestings of critical sections", "why_tests_cant": "needs an interrupt in the gap between inner and outer end", "anchors": ["src/platforms/hosted.c: disable_interrupts, enable_interrupts", "src/platforms/gd32f4/gd32f4_init.c: disable_interrupts, enable_interrupts, platform_save_config", "src/platforms/stm32f4-discovery.c: disable_interrupts, enable_interrupts"]}
{"id": "C58", "title": "Saved configuration is what is loaded at next boot", "statement": "Flashing and then loading the configuration restores every configuration word, and touches no word outside the configuration area.", "quantifier": "all configuration contents and sizes", "why_tests_cant": "all contents", "anchors": ["src/platforms/gd32f4/gd32f4_init.c: platform_save_config, platform_load_config"]}
{"id": "C59", "title": "Trigger processing never hits undefined behaviour", "statement": "For configurations within stated bounds and engine speeds above a stated minimum, processing a trigger end to end (decode, calculate, schedule all outputs) performs no out-of-range float-to-integer conversion, division by zero or out-of-bounds access.", "quantifier": "all trigger histories and operating points within the bounds", "why_tests_cant": "needs all operating points", "anchors": ["src/decoder.c: decoder_update_scheduling", "src/calculations.c", "src/scheduler.c"]}
{"id": "C60", "title": "Dwell time follows the configured mode", "statement": "Coil dwell is 45 degrees of rotation at the current rpm in fixed-duty mode, the configured time in fixed-time mode, and the battery-voltage table value in voltage mode; ignition start is exactly one dwell before its stop, and the stop is at the configured angle minus advance measured from the last trigger.", "quantifier": "all rpms, voltages, tables and modes", "why_tests_cant": "all operating points", "anchors": ["src/calculations.c: calculate_ignition", "src/scheduler.c: schedule_ignition_event"]}
{"id": "C61", "title": "A lost decoder leaves the outputs quiet", "statement": "In every reachable state of the firmware in which the decoder is not valid, no output has an armed start edge that has not already been handed to the output hardware. While the decoder stays invalid, the only pulses that begin are those already handed over, and after both output buffers in flight have been played no pin is driven to anything but the resting level of an output on it.", "quantifier": "all interleavings of trigger, timer, capture-overflow, buffer-swap and sensor interrupts with the client, on the microcontroller targets", "why_tests_cant": "the loss can come at any point of any interrupt, with any outputs armed or in flight", "anchors": ["src/decoder.c: decoder_update_scheduling, invalidate_decoder, handle_decoder_expire, decoder_desync", "src/scheduler.c: schedule_event, scheduler_callback_timer_execute", "src/platforms/common/stm32_sched_buffers.c: stm32_buffer_swap"]}
{"id": "C62", "title": "Every request gets one well formed answer", "statement": "Every request the console reads is answered with a message that names itself a response, carries the number of the request, and says exactly once whether the request succeeded.", "quantifier": "all requests (any map of items) and all configurations", "why_tests_cant": "requests are arbitrary nested values sent by any client", "anchors": ["src/console.c: console_process_request, console_request_get, console_request_set, report_success, report_parsing_error"]}
{"id": "C63", "title": "No trigger edge is forgotten in silence", "statement": "Every edge the capture timer sees on a trigger input is handed to the decoder, or the decoder is told that edges were lost, whenever the edges come relative to the interrupt handler.", "quantifier": "all sequences of edges on both inputs and all interleavings with the instructions of the capture interrupt, on both microcontroller targets", "why_tests_cant": "needs an edge between two particular instructions of the interrupt handler", "anchors": ["src/platforms/gd32f4/gd32f4_sched.c: TIMER1_IRQHandler", "src/platforms/stm32f4-discovery.c: tim2_isr"]}
{"id": "C64", "title": "Losing power while saving leaves the old or the new configuration", "statement": "If power is lost at any moment while the configuration is being saved, the configuration loaded at the next boot is either the one saved before or the new one.", "quantifier": "all crash points, all old and new contents", "why_tests_cant": "power can go between any two flash operations", "anchors": ["src/platforms/gd32f4/gd32f4_init.c: platform_save_config, platform_load_config", "src/platforms/stm32f4-discovery.c: platform_save_config, platform_load_config", "src/viaems.c: main"]}
{"id": "C65", "title": "A sensor's rate of change is per second of real time", "statement": "After a good sample of an analog input, the sensor's reported rate of change is the difference between its new and its previous value divided by the real time between two conversions of that input. For frequency and pulse-width inputs it is the difference divided by the time between the two updates.", "quantifier": "all boards and ADC chips, all sensors, all sample values and all times between updates", "why_tests_cant": "tests run with one fixed advertised rate; the relation between the advertised rate and the command table's length holds or fails per board, and frequency inputs arrive at arbitrary intervals", "anchors": ["src/sensors.c:process_derivative", "src/platforms/stm32f4-discovery.c:ADC_SAMPLE_RATE", "src/platforms/gd32f4/gd32f4_sensors.c:ADC_SAMPLE_RATE", "src/platforms/common/ad7888_adc.h:adc_transmit_sequence"]}
{"id": "C66", "title": "A turning wheel is never taken for a stopped one", "statement": "While the crank keeps turning and each tooth arrives within the configured tolerance, the stall timeout that the decoder sets at each tooth never comes before the next tooth: the engine stays synchronised, with the true angle, for ever. Only a wheel that really stops, or leaves the tolerance, loses synchronisation.", "quantifier": "every missing-tooth wheel with or without cam, every number of teeth, every sequence of tooth times within tolerance, every time of the cam pulses between teeth", "why_tests_cant": "the timeout is computed in floats from a speed measured up to a turn earlier; whether it can precede the next tooth depends on the whole history of tooth times and on wrap-around of the tick counter", "anchors": ["src/decoder.c:missing_tooth_trigger_update", "src/decoder.c:missing_tooth_average_rpm", "src/decoder.c:set_expire_event", "src/decoder.c:handle_decoder_expire"]}
{"id": "C67", "title": "A start after any pause is decoded without fault", "statement": "However the engine stops and however long it rests, the first teeth after the rest are decoded without undefined behaviour: no float is converted to an integer out of range, no division by zero and no out-of-range access happens in the trigger path.", "quantifier": "every missing-tooth wheel with settings in range, every sequence of tooth times, every length of the rest, every point in the history at which the rest happens, with and without the stall timeout firing", "why_tests_cant": "it depends on where in the history the rest falls (before or after synchronisation) and on a rest long enough that the averaged speed rounds to zero; tests use short steady sequences", "anchors": ["src/decoder.c:missing_tooth_trigger_update", "src/decoder.c:missing_tooth_rpm", "src/decoder.c:set_expire_event", "src/util.c:time_from_rpm_diff"]}
{"id": "C68", "title": "The reported trigger time is that of the latest tooth", "statement": "Whenever the decoder reports a valid position, the time it reports together with the last trigger angle is the time of the latest tooth, whatever other events (cam pulses, pulses on unused inputs) came since. Every scheduling computation starts from that time.", "quantifier": "all four decoder types, all histories of triggers, expiries and resets, all trigger times including wrap-around", "why_tests_cant": "a stale time is only visible between particular events (the event that gains synchronisation and the next tooth), so it depends on the interleaving of teeth and cam pulses", "anchors": ["src/decoder.c:even_tooth_trigger_update", "src/decoder.c:missing_tooth_trigger_update", "src/decoder.c:even_tooth_sync_update", "src/scheduler.c:schedule_ignition_event"]}
{"id": "C69", "title": "What the host sends arrives at the console", "statement": "Every byte that the host sends over USB reaches the console's request buffer, once and in order, whenever the console polls; no byte is overwritten before it is read, and no read exceeds the buffer it was asked to fill.", "quantifier": "every sequence of packets of every size from 1 to 64 bytes, every interleaving of the USB interrupt with the polls of the main loop, every amount of free room in the request buffer", "why_tests_cant": "loss needs a packet in the few instructions between a test and a re-arm, or more packets between two polls than the buffer holds; tests on a desktop have no interrupt", "anchors": ["src/platforms/gd32f4/gd32f4_usb.c:cdc_acm_out", "src/platforms/gd32f4/gd32f4_usb.c:console_read", "src/platforms/stm32f4-discovery.c:cdcacm_data_rx_cb", "src/platforms/stm32f4-discovery.c:console_read", "src/console.c:console_try_read"]}
{"id": "C70", "title": "Trigger inputs report exactly the edges they are set to", "statement": "The decoder is told of every change of level of an input that is configured as a trigger and whose configured edge (rising, falling, both) the change is, with its time, in order. It is told of nothing else: not of the other edge, and not of inputs that are unused or measure a frequency.", "quantifier": "every configuration of the inputs' types and edges, every sequence of level changes on both inputs, both boards, compare interrupts at any time", "why_tests_cant": "the configuration is turned into register bits by board code that the tests do not compile, and an unwanted capture becomes visible only when another interrupt of the same timer runs", "anchors": ["src/platforms/gd32f4/gd32f4_sched.c:setup_timer1", "src/platforms/gd32f4/gd32f4_sched.c:TIMER1_IRQHandler", "src/platforms/stm32f4-discovery.c:capture_edge_from_config", "src/platforms/stm32f4-discovery.c:platform_setup_tim2", "src/platforms/stm32f4-discovery.c:tim2_isr"]}
{"id": "C71", "title": "A valid frequency reading is the signal's frequency", "statement": "Whenever a frequency input hands the sensors an update marked valid, the frequency in it is that of the signal: the reciprocal of the time between the two latest active edges, up to the resolution of the timer.", "quantifier": "every sequence of edge times, every period including those longer than the timer's range, the first edge after power-on, both frequency inputs, every float format", "why_tests_cant": "it depends on periods around and beyond the wrap of two hardware counters and on the edge after power-on; tests inject finished updates", "anchors": ["src/platforms/gd32f4/gd32f4_sched.c:TIMER1_IRQHandler", "src/platforms/gd32f4/gd32f4_sensors.c:setup_freq_pw_input", "src/platforms/gd32f4/gd32f4_sensors.c:TIMER0_BRK_TIMER8_IRQHandler"]}
{"id": "C72", "title": "A frequency signal that stops is reported", "statement": "Two seconds after the last edge of a frequency signal every sensor that measures its frequency or pulse width is reported as faulty, whatever came before.", "quantifier": "every history of edges on either frequency input, every length of the silence, every configuration of sensors", "why_tests_cant": "it is about the absence of events for an unbounded time after an arbitrary history", "anchors": ["src/platforms/gd32f4/gd32f4_sched.c:TIMER1_IRQHandler", "src/platforms/gd32f4/gd32f4_sensors.c:TIMER0_BRK_TIMER8_IRQHandler", "src/sensors.c:sensor_update_freq", "src/sensors.c:sensor_fault_status"]}
{"id": "C73", "title": "An output pin is active exactly from its start edge to its stop edge", "statement": "The physical pin of an enabled output is at its active level at a tick exactly when the output's start edge has been played by then and its stop edge has not, and at its inactive level at all other times, including before the first pulse after power-up.", "quantifier": "every number of outputs on distinct pins, every history of pulse requests, cancellations and buffer swaps, both polarities, every tick of every window", "why_tests_cant": "the level of a pin is the accumulated effect of all set and clear words ever written by the DMA; tests look at single entries of one buffer, never at the port", "anchors": ["src/platforms/gd32f4/gd32f4_sched.c:setup_scheduled_outputs", "src/platforms/stm32f4-discovery.c:platform_init_scheduled_outputs", "src/platforms/common/stm32_sched_buffers.c:stm32_buffer_swap", "src/scheduler.c:schedule_output_event_safely"]}
{"id": "C74", "title": "Forcing one output leaves the other outputs alone", "statement": "Forcing the pin of one output to a level, as the emergency shutdown does with each injector, changes that pin only: every other pin of the port is as the scheduled edges leave it, wherever they fall during the call.", "quantifier": "every output number and value, every port state, every interleaving of DMA writes with the accesses of the call", "why_tests_cant": "it is a race between the processor and a DMA channel, two instructions wide; the hosted platform has neither", "anchors": ["src/platforms/gd32f4/gd32f4_init.c:set_output", "src/platforms/stm32f4-discovery.c:set_output"]}
{"id": "C75", "title": "A PWM output carries the commanded duty", "statement": "After a duty in percent is commanded for a PWM output, every period of the output that starts later has one pulse at its start whose share of the period is the commanded one up to 3/65536, with commands below 0 and above 100 taken as 0 and 100; a command never changes the pulse in progress or another output.", "quantifier": "every commanded number, every state of the timer, every later sequence of timer counts and commands to other outputs, every float format", "why_tests_cant": "the hosted platform ignores the command; the property ranges over all duties and all moments within a period", "anchors": ["src/platforms/gd32f4/gd32f4_pwm.c:set_pwm", "src/platforms/gd32f4/gd32f4_pwm.c:gd32f4xx_configure_pwm", "src/platforms/stm32f4-discovery.c:set_pwm", "src/platforms/stm32f4-discovery.c:platform_init_pwm", "src/tasks.c:handle_boost_control"]}
{"id": "C76", "title": "The spark comes at the commanded crank angle", "statement": "While the reported position is right, every time the hardware drives the pin of an ignition output to its inactive level (the spark), the crank is at the output's angle less a commanded advance plus the decoder offset, up to an error made of the error of the tooth speed over one cycle, two ticks of rotation and a hundredth of a degree. Full property: with a missing-tooth wheel turning at constant speed from the start, every spark is within ten degrees of the commanded angle.", "quantifier": "every configuration of angles and offset within one cycle, every real motion of the crank, every history of triggers, timer callbacks, buffer swaps, sensor changes and losses of position, at every real time including timer wrap, every float format", "why_tests_cant": "it spans decoder, calculations, scheduling and buffers over unbounded histories and every speed and phase; tests check single events from hand-made decoder states", "anchors": ["src/scheduler.c:schedule_ignition_event", "src/decoder.c:decoder_update_scheduling", "src/decoder.c:missing_tooth_trigger_update", "src/platforms/common/stm32_sched_buffers.c:stm32_buffer_swap"]}
{"id": "C77", "title": "The crank angle read between teeth is the true one", "statement": "At any moment up to one cycle and an eighth after the last tooth, the crank angle given to windowed sensors is the true one, up to the error of the reported average speed over that time, the errors of the tooth angle and of even rotation, and a hundredth of a degree. Once the engine has stopped and the decoder has noticed, the angle stays where the crank stands.", "quantifier": "every decoder state that knows the crank, every motion of the crank and every real time including timer wrap, every float format; every history for the stopped engine", "why_tests_cant": "it is about every speed, angle and elapsed time, in floating point; the only test of the reading uses one position", "anchors": ["src/decoder.c:current_angle", "src/util.c:degrees_from_time_diff", "src/util.c:clamp_angle", "src/sensors.c:sensor_convert"]}
{"id": "C78", "title": "A stopped engine is reported as stopped", "statement": "When the stall timeout takes away the position, the engine speed reported to the console and used for boost control and windowed sensors becomes zero.", "quantifier": "every history of triggers, timer callbacks, buffer swaps, overflows and sensor changes that ends in a stall timeout, and every continuation without triggers", "why_tests_cant": "tests look at validity after an expiry and not at the other reported values; the claim is about every history and every length of silence", "anchors": ["src/decoder.c:handle_decoder_expire", "src/decoder.c:invalidate_decoder", "src/console.c:rpm", "src/tasks.c:handle_boost_control"]}
{"id": "C79", "title": "Every injection has the commanded width and ends at the commanded angle", "statement": "Whenever the output hardware closes an injector, it opened it exactly the commanded number of microseconds before, and the opening was timed so that a pulse of the commanded width ends at the commanded crank angle, up to the error with which the decoder knows the crank. With a constant command the injector closes at the commanded angle.", "quantifier": "every run of the firmware against the real clock (triggers, callbacks, buffer swaps at any allowed moment, overflows, sensor changes), every crank motion, every sequence of commanded widths, every injector, angle and polarity, every float format", "why_tests_cant": "it relates two moments at the pins, set by different buffer swaps and rescheduled in between by teeth whose commands differ; tests look at the times held in the schedule after one call", "anchors": ["src/calculations.c:calculate_fueling", "src/scheduler.c:schedule_fuel_event", "src/scheduler.c:schedule_event", "src/platforms/common/stm32_sched_buffers.c:stm32_buffer_swap", "src/decoder.c:decoder_update_scheduling"]}
{"id": "C80", "title": "A pulse of zero width leaves the output inactive", "statement": "When the dwell or the fuel pulse is commanded to be zero, the output stays at its inactive level.", "quantifier": "every history of zero-width requests, reschedules, cancellations and buffer swaps, every output, polarity and tick including timer wrap", "why_tests_cant": "tests look at the times held in the schedule; the level of the pin when both edges fall in one slot depends on how the hardware resolves the word, and lasts over any number of later requests", "anchors": ["src/scheduler.c:schedule_output_event_safely", "src/scheduler.c:schedule_ignition_event", "src/scheduler.c:schedule_fuel_event", "src/platforms/common/stm32_sched_buffers.c:stm32_buffer_swap", "src/platforms/common/stm32_sched_buffers.h:output_slot"]}
{"id": "C81", "title": "While the configuration is written to the flash the outputs are off", "statement": "When the configuration is saved, every coil and every injector is at its inactive level from the moment the peripherals are stopped until the reset that follows, whatever was charging or open before and wherever the scheduled edges fall during the shutdown.", "quantifier": "every history of the output system, every tick at which the save begins, every interleaving of the accesses of the shutdown with the writes of the output hardware, every output and polarity", "why_tests_cant": "no test saves the configuration with outputs active; the outcome depends on the tick and on the interleaving with hardware writes", "anchors": ["src/platforms/gd32f4/gd32f4_init.c:platform_save_config", "src/platforms/gd32f4/gd32f4_init.c:platform_disable_periphs", "src/platforms/gd32f4/gd32f4_init.c:set_output", "src/tasks.c:handle_emergency_shutdown", "src/console.c:platform_save_config"]}
{"id": "C82", "title": "No request, whatever it contains, breaks the tables", "statement": "Whatever requests the console is sent, and in whatever order, handling them reads and writes only inside the configuration's tables; afterwards every table is still there with at most 24 values on each axis, what requests cannot address (the state of the decoder, of the scheduled outputs and of the sensors) is as before, and lookups in the tables are as safe as they were.", "quantifier": "all configurations with their ten tables, all finite sequences of requests (any nested items as path and value, including lists and maps sent to containers)", "why_tests_cant": "requests are arbitrary nested values; a list sent as a value resizes tables; tests send a handful of requests", "anchors": ["src/console.c: console_process_request, console_request_set, render_table_axis_values, descend_map_field, descend_array_field, render_map_object, render_array_object"]}
{"id": "C83", "title": "Sending back a configuration that was read restores it", "statement": "What a get answers for a part of the configuration, or for all of it, can be sent back in a set of the same path, to this or another controller, whatever its configuration is by then: the set is answered with what was sent, and a get then shows it. A set, whatever its path and value, changes nothing that a get shows at paths that part from its own outside of a table.", "quantifier": "every pair of configurations (the one read and the one written to), every path to a part that is read as a whole, every knock sample rate, every value in a set", "why_tests_cant": "a test saves and restores a few configurations of the same shape; the claim is about every pair, also those whose table axes have different lengths, so that elements appear and vanish while the reply is written", "anchors": ["src/console.c: console_request_get, console_request_set, render_table_axis_values, render_array_object, render_map_object"]}
{"id": "C84", "title": "Every name of the console and the feed is the quantity the firmware works with", "statement": "Each setting path of the console reads and writes the one quantity of the running configuration it is named for (the rev limit, the angle of an output, a cell of a table, and so on), and no set of one path changes the quantity of another; each name in the feed description stands at the place of the value of the quantity it names, and sensor_faults has the bit of exactly each faulty sensor.", "quantifier": "all setting paths, all cells of all tables, all configurations, all values that are not lists or maps, all states for the feed", "why_tests_cant": "a swapped pointer in the long list of fields goes unnoticed unless every field is tried with distinct values", "anchors": ["src/console.c: console_toplevel_request, render_decoder, output_console_renderer, render_sensor_object, render_tables, render_fueling, render_boost_control, render_cel, render_freq_object, console_feed_nodes"]}
{"id": "C85", "title": "A request does what its method says and nothing else", "statement": "Whatever a request contains: the configuration is saved to the flash exactly when the method is flash, the bootloader is entered exactly when it is bootloader, and the running configuration is changed only when it is set; ping, flash and bootloader are carried out in every state and answered with success.", "quantifier": "all requests (any map of items) and all configurations", "why_tests_cant": "requests are arbitrary nested values sent by any client; a read that writes would go unnoticed", "anchors": ["src/console.c: console_process_request, console_request_ping, console_request_flash, console_request_bootloader, console_request_get, console_request_set"]}
{"id": "C86", "title": "Every ignition output fires once in every cycle", "statement": "While the crank turns within a band of speeds, its teeth are handled promptly, the commanded advance stays in a band narrower than the distance between two teeth and nothing is cut, every ignition output gives exactly one spark in every engine cycle: at the commanded angle to within the band, after a charge as long as commanded, both within the error of the crank signal. No cycle is skipped, whatever the sensors, the timer, the output buffers and the client do.", "quantifier": "every crank wheel with a missing tooth and every turning of it within the band, every history of the firmware on it (with no bound on its length), every ignition output, every cycle that begins after the output was first seen at rest", "why_tests_cant": "a test runs a few cycles at one speed; the claim is about every cycle of an unbounded run and every interleaving of handler, timer, buffer swap and client", "anchors": ["src/decoder.c: decoder_update_scheduling", "src/scheduler.c: schedule_event, schedule_ignition_event, schedule_output_event_safely, reset_fired_event", "src/platforms/common/stm32_sched_buffers.c: stm32_buffer_swap"]}
{"id": "C87", "title": "Every request the console handles is answered, with the whole answer", "statement": "For every request the console handles, whatever requests came before and however large the configured tables are, the complete response goes out on the line: never a part of it, and never nothing.", "quantifier": "every request, every configuration (tables of up to 24 by 24 values, texts of up to 24 bytes), every sequence of requests before it, and platforms that do or do not return from the reset into the bootloader", "why_tests_cant": "The response is built in one buffer of 16384 bytes; whether it fits depends on the sizes of all tables and texts together, and the tests only ever ask for single values of small configurations.", "anchors": ["src/console.c: console_process_request_raw, console_request_structure, console_request_get, console_request_set, console_request_bootloader, console_toplevel_request, render_tables", "src/table.h: MAX_AXIS_SIZE, MAX_TABLE_TITLE_SIZE"]}
{"id": "C88", "title": "The structure answer describes exactly what the configuration holds", "statement": "Whatever the configuration is and however it got there, what a get of the whole configuration answers has the form that the answer to a structure request announces: the same names in the same order, values of the announced kinds, a text that is one of the announced choices where choices are listed, and lists no longer than announced, with the named types looked up in the answer's types.", "quantifier": "every configuration whose tables are present and have axes of at most 24 values, every get of everything and every structure request, at different times", "why_tests_cant": "The description and the values are produced by the same renderers in different modes, field by field; whether they agree for every value of every field, in particular of the enumerated ones, cannot be sampled.", "anchors": ["src/console.c: console_request_structure, console_toplevel_request, console_toplevel_types, render_enum_object, render_table_2d_object, render_table_1d_object, render_sensor_object, output_console_renderer"]}
{"id": "C89", "title": "A client reads exactly the console's messages from the line", "statement": "Whatever is received, and however the rest of the firmware runs between the passes of the main loop, all bytes the console sends are a CBOR stream of complete messages. A client that decodes it gets, for each pass and in this order, the answer to the request that was complete, the events from the log, and one description (if the last is more than 100 ms old) or one feed message; nothing else, nothing twice, nothing cut. Every message is a map whose first entry says what it is. The console goes on with every pass.", "quantifier": "for every sequence of bytes received, every history of passes, events, values and times, and every configuration", "why_tests_cant": "a test looks at a few messages; that no combination of requests, events and sizes ever produces bytes that shift a client's decoder by one must hold for all of them", "anchors": ["src/console.c: console_process, console_process_request_raw, console_event_message, console_feed_line_keys, console_feed_line"]}
{"id": "C90", "title": "A client's requests are answered over the line, and what it sets it reads back", "statement": "A client that encodes requests as CBOR maps and sends them one after the other, in pieces of any size and timing that keep each request within five seconds, finds in the bytes the console sends, between events and feed messages, exactly one response for each request handled, in order, with that request's id, and computed from the request as the client meant it and from the configuration as the earlier requests left it. If it sets a setting and later gets it, with any requests but sets between, both responses carry the same value, and that is what the value it sent means for that setting.", "quantifier": "for every list of requests (any CBOR items in them, lengths given or open, not asking for everything or all tables at once), every way the bytes are split over passes, every history of events and feed values, every named setting and every value", "why_tests_cant": "a test sends a few requests in a few pieces; that no split, no interleaving with events and no value ever loses, doubles or exchanges an answer must hold for all of them", "anchors": ["src/console.c: console_process, console_try_read, console_shift_rx_buffer, console_process_request_raw, console_process_request, console_event_message, console_feed_line"]}
{"id": "C91", "title": "A due callback is run, and only a due one, whenever the clock ticks while the timer is being set", "statement": "Between any two accesses to the registers of the event timer the clock may tick any number of times. However the ticks fall, a callback whose time has come always finds the interrupt enabled and pending outside the handler, and the handler runs the callback requested for the earliest time. The handler runs a callback only when its time has come.", "quantifier": "for every history of requests, clock ticks, interrupts and any ticks between the register accesses of setting the timer, with requests less than half a clock wrap ahead and within half a wrap of one another", "why_tests_cant": "a test cannot place a clock tick of a quarter microsecond between two register writes; the test build has no registers at all", "anchors": ["src/platforms/gd32f4/gd32f4_sched.c: schedule_event_timer, TIMER1_IRQHandler", "src/platforms/stm32f4-discovery.c: schedule_event_timer, tim2_isr", "src/scheduler.c: schedule_callback, scheduler_callback_timer_execute"]}
{"id": "C92", "title": "Every injector opens exactly once in every engine cycle", "statement": "While the crank turns within a band of speeds, the teeth of its wheel reach the firmware, each is handled in time, the commanded fuel pulse stays within a range that leaves time for it in a cycle, and nothing is cut, every injector is opened and closed exactly once in each 720-degree cycle. The pulse is as long as a width commanded during the run allows, however the width changes from tooth to tooth, and it ends at the configured angle, within the error of a spark and the angle the crank turns while the width changes.", "quantifier": "for every wheel with one missing tooth, every tooth timing within the band, every output configuration, every sequence of commanded widths from dlo to dhi ticks, every interleaving of triggers, decoding, scheduling, buffer swaps, timer callbacks, sensor updates and console requests, and every number of cycles", "why_tests_cant": "the injector is scheduled again at every tooth with a new width and a new speed, against the hardware buffers and the end-of-pulse callback; a pulse may be moved, lengthened after it has begun, or left, and a lost or doubled pulse shows only for some phase of all of these", "anchors": ["src/scheduler.c: schedule_fuel_event, schedule_output_event_safely, schedule_event", "src/decoder.c: decoder_update_scheduling", "src/platforms/common/stm32_sched_buffers.c: stm32_buffer_swap"]}
{"id": "C93", "title": "A knock input listens for the frequency it is set to", "statement": "From start-up on, whatever requests the console handles and whatever samples arrive, the filter of each knock input is the one for the frequency bin nearest to the input's frequency setting.", "quantifier": "every initial configuration, sample rate and history of console requests (any path, any value) and sample blocks; in real arithmetic for the distance to the setting", "why_tests_cant": "the one test checks one frequency, for which the chosen bin happens to be the nearest; whether some set leaves a filter at an old frequency is a question about all paths and values", "anchors": ["src/sensors.c: knock_configure, sensor_update_knock", "src/console.c: render_knock_object", "src/platforms/gd32f4/gd32f4_sensors.c: gd32f4xx_configure_adc"]}
{"id": "C94", "title": "An injector can be open for nearly the whole cycle", "statement": "At a steady speed, an injection that ends in time for the edges of the next one to be scheduled is followed by the next one: when a pulse has ended, the injector is armed again at once (by the callback it asks for) or at one of the next teeth, so that no cycle goes by without fuel however wide the pulse is.", "quantifier": "every steady speed, number of teeth, injector angle and pulse width that leaves room in the cycle for scheduling", "why_tests_cant": "a test runs the callback against a chosen decoder state; whether any call in a cycle arms the injector depends on width, angle and the position of the teeth together", "anchors": ["src/scheduler.c: schedule_fuel_event, schedule_output_event_safely, sched_entry_enable", "src/scheduler.h: struct output_event"]}
{"id": "C95", "title": "The test trigger runs exactly while a speed is set, at that speed", "statement": "From start-up on, whenever the console shows a test-trigger speed other than 0 the next test trigger is scheduled; as long as the speed is not changed the triggers follow each other at the wheel's spacing for that speed, whatever else is requested; once it is set to 0 there are no more triggers until it is changed again. A request that leaves the speed as it is does not disturb a running test.", "quantifier": "every history of console requests (any path and value), trigger callbacks and changes of the configuration by the rest of the firmware", "why_tests_cant": "whether some set, of some path, restarts or fails to start the test is a question about all requests; histories are unbounded", "anchors": ["src/console.c: render_test", "src/sim.c: set_test_trigger_rpm, execute_test_trigger, get_test_trigger_rpm"]}
{"id": "C96", "title": "What the console writes reaches the host over USB, and writing ends", "statement": "Over the gd32's USB connection the host gets, since it selected the device's configuration, exactly the packets of the messages written since then, in order, each message ended by a short packet: at every moment the beginning of them, and all of them whenever the console is not writing. If the host keeps asking and interrupts are handled, every write ends. The endpoint's FIFO is never overfilled.", "quantifier": "every sequence of messages of any length, every interleaving of interrupts, host tokens, suspends, wakeups, bus resets and selections of the configuration, before the first connection and after it", "why_tests_cant": "the tests replace the console's transport; lengths that are multiples of the packet size, the size of the FIFO and the moment of an interrupt or a reset decide, and the states are kept in three layers", "anchors": ["src/platforms/gd32f4/gd32f4_usb.c:console_write", "src/platforms/gd32f4/gd32f4_usb.c:cdc_acm_in", "src/platforms/gd32f4/gd32f4_usb.c:cdc_acm_init", "contrib/GD32F4xx_Firmware_Library/GD32F4xx_usb_library/driver/Source/drv_usbd_int.c:usbd_emptytxfifo_write", "contrib/GD32F4xx_Firmware_Library/GD32F4xx_usb_library/driver/Source/drv_usb_dev.c:usb_transc_inxfer"]}
{"id": "C97", "title": "A windowed sensor averages exactly the samples of each window as it passes", "statement": "While the engine turns, a windowed sensor reads, at any time, the mean of exactly the samples taken in the last capture window that the crank has left, and nothing of other windows; until a window has been left it keeps its value. The angle it sorts samples by is the true crank angle within the decoder's error, also when teeth are decoded while it is read.", "quantifier": "every sequence of samples and crank angles of any length, every position and width of the windows that make up a cycle, every sensor range, every interleaving of trigger interrupts with the reading of the angle", "why_tests_cant": "The test feeds a handful of angles to one window. Whether windows are ever mixed, split or never closed depends on the widths and on where each sample falls, over runs of any length.", "anchors": ["src/sensors.c:sensor_convert_linear_windowed", "src/sensors.c:current_angle_in_window", "src/sensors.c:sensor_convert", "src/decoder.c:current_angle"]}
{"id": "C98", "title": "An interrupt in the middle of a request finds a usable configuration", "statement": "The console stores the values of a set request one at a time with interrupts enabled, and the control code runs in interrupts. At every moment of any request an interrupt finds all tables there with at most 24 values per axis and finds the running state of decoder, schedule and sensors untouched; a get changes nothing at any moment; a set of a single setting is seen either not at all or completely; and table lookups that are safe before and after a request are safe for an interrupt in between.", "quantifier": "every configuration, every request with any path and value, every point of its handling at which an interrupt can come", "why_tests_cant": "Unit tests handle a request without interrupts and look at the result. Whether a lookup is safe at each of the hundreds of intermediate contents of a table needs all values and all interruption points.", "anchors": ["src/console.c:console_process_request", "src/console.c:render_table_axis_values", "src/console.c:render_float_object", "src/table.c:axis_find_cell_lower"]}
{"id": "C99", "title": "A USB packet is handed to the console whole, whenever its interrupts fall", "statement": "On the gd32 a USB packet is taken in several interrupts: one copies its bytes into the driver's 64-byte receive buffer, later ones report it. Whenever these fall relative to the main loop's polling of the console, nothing is written outside the receive buffer, and every byte the host got rid of is given to the console exactly once and in order or is waiting to be, without overrunning the request buffer.", "quantifier": "every interleaving of packets from the host, runs of the USB interrupt routine, stores of the polling main loop, and consumption by the console", "why_tests_cant": "The USB driver and library are not built for the unit tests at all, and the windows are a few instructions wide: only a proof over all interleavings covers them.", "anchors": ["src/platforms/gd32f4/gd32f4_usb.c:console_read", "src/platforms/gd32f4/gd32f4_usb.c:cdc_acm_out", "contrib/GD32F4xx_Firmware_Library/GD32F4xx_usb_library/device/core/Source/usbd_core.c:usbd_ep_recev", "contrib/GD32F4xx_Firmware_Library/GD32F4xx_usb_library/driver/Source/drv_usbd_int.c:usbd_int_rxfifo", "contrib/GD32F4xx_Firmware_Library/GD32F4xx_usb_library/driver/Source/drv_usbd_int.c:usbd_int_epout"]}
{"id": "C100", "title": "While a limiter cuts, no spark or injection begins", "statement": "While the rev limiter, the injector duty limit or the boost limit cuts, the trigger interrupt's next pass over the outputs cancels every pulse that the hardware has not got yet; from then on, as long as a limiter cuts, every pulse that begins is one already handed to the hardware, at the tick it had, and once the two buffers in flight have been played no pulse begins and no pin is driven except to its resting level.", "quantifier": "every configuration with an output in use, every history of triggers, timer and swap interrupts, sensor values, log reads and desynchronisations during which a limiter cuts", "why_tests_cant": "Unit tests evaluate the cut functions on single values and never run decoder, scheduler and buffers together while a limit is exceeded.", "anchors": ["src/calculations.c:ignition_cut", "src/calculations.c:fuel_cut", "src/scheduler.c:schedule_event", "src/scheduler.c:invalidate_scheduled_events", "src/decoder.c:decoder_update_scheduling"]}
{"id": "C101", "title": "A coil that begins to charge is fired, and an injector that opens is closed, in time", "statement": "While the crank turns at a speed within a band and nothing is cut: whenever the output hardware has been told to turn an ignition or fuel output on, this begins the pulse of one cycle, and once the commanded dwell (for coils, plus the time the crank takes to turn through its error) or the longest commanded injection has passed, the hardware has been told to turn the output off, at the commanded angle of that cycle and after a pulse as long as commanded. Until a later cycle's pulse is due the output is not turned on again.", "quantifier": "every moment of every run of the whole firmware on a missing-tooth wheel, a missing-tooth wheel with a cam or an even wheel with or without a cam, at which the hardware has been given an active level for an output that is alone on its pin; every later moment; every behaviour of sensors, timer, swap instants and client", "why_tests_cant": "A coil left on is destroyed, and an injector left open floods the cylinder. Whether the end of a pulse is always handed over depends on how scheduling, rescheduling and buffer swaps interleave with the pulse already under way. Tests show that particular pulses end.", "anchors": ["src/scheduler.c:schedule_ignition_event", "src/scheduler.c:schedule_fuel_event", "src/scheduler.c:schedule_output_event_safely", "src/platforms/common/stm32_sched_buffers.c:stm32_buffer_swap"]}
{"id": "C102", "title": "An even wheel without a cam synchronises on steady teeth", "statement": "On an evenly toothed wheel without a cam, whenever teeth come steadily and faster than the slowest configured speed, the decoder has a speed and a position from the required number of teeth on, keeps them as long as the teeth are steady, reports the time of the last tooth, and its angle moves on by one pitch per tooth; this holds after start, after a loss of synchronisation and after any number of earlier teeth that were too slow or uneven.", "quantifier": "every wheel, tolerance, averaging window and required number of teeth; every steady sequence of teeth of any length; every history before it", "why_tests_cant": "A test of this decoder feeds a few steady teeth after start. Whether it can always synchronise depends on what counters hold after arbitrary earlier histories.", "anchors": ["src/decoder.c:decode_even_no_sync", "src/decoder.c:even_tooth_trigger_update", "src/decoder.c:even_tooth_rpm_window_size", "src/decoder.c:decoder_on_trigger"]}
{"id": "C103", "title": "Inputs and settings alone decide that every output works once a cycle", "statement": "While a wheel turns at a nearly steady speed, its teeth (and cam pulses) are captured within 64 microseconds and handled within a bounded time, and the sensor values stay in a set for which the tables give an advance in a band, a dwell in a band and a fuel pulse in a band and for which no limit is reached at the speeds of the wheel, every ignition output is charged and fired exactly once in each cycle at the commanded angle, every injector opens exactly once in each cycle for the commanded time, and a charge or an injection that has begun ends in time. Nothing is assumed of what the firmware measures or calculates on the way.", "quantifier": "every wheel of the four kinds, every sequence of tooth times of any length in the band of speeds, every interleaving of captures, handling and buffer swaps, every history of sensor values in the set, all tables and settings that command values in the bands", "why_tests_cant": "A test fixes one table, one speed and one order of events. Here the measured speed, the looked up values, the cuts and the schedule of each output follow from the inputs over an unbounded run, and a single tooth at which rounding or a limit made the firmware skip an output would break the claim.", "anchors": ["src/decoder.c: decoder_update_scheduling", "src/calculations.c: calculate_ignition, calculate_fueling, ignition_cut", "src/scheduler.c: schedule_event, schedule_ignition_event, schedule_output_event_safely, reset_fired_event", "src/platforms/common/stm32_sched_buffers.c: stm32_buffer_swap"]}
{"id": "C104", "title": "From power on, no spark or injection is off its angle", "statement": "On an even wheel without a cam, from the moment the firmware is started and whatever happens before the wheel is synchronised, every spark and every end of an injection is at its commanded angle (counted from the last of the teeth required for a speed), at most once in a cycle; every charge and every injection that begins ends in time; and from 1500 degrees after that tooth on, every output does its work in every cycle. Nothing is assumed of the state of the outputs.", "quantifier": "every even wheel without a cam and every decoder configuration for it, every sequence of tooth times of any length in the band of speeds, every interleaving of captures, handling and buffer swaps from boot on, every history of sensor values in the set, all tables and settings that command values in the bands", "why_tests_cant": "The first moments after synchronisation, when the outputs are scheduled for the first time from a decoder that has just become valid, depend on the order of captures, handler steps and buffer swaps. A test fixes one order; an output scheduled once from a wrong time is one bad spark that no sampled run need show.", "anchors": ["src/decoder.c: decode_even_no_sync, even_tooth_trigger_update, decoder_update_scheduling", "src/scheduler.c: schedule_event, schedule_ignition_event, schedule_fuel_event", "src/platforms/common/stm32_sched_buffers.c: stm32_buffer_swap"]}
{"id": "C105", "title": "Rounding barely moves a table lookup", "statement": "In single precision, with every intermediate result rounded, a one-dimensional table lookup is within 2^-20 of the table's largest value of the exact polyline through its points, and a two-dimensional lookup within 2^-18 of the exact bilinear surface. So a looked-up value leaves the range of the table's values by no more than that, the spark advance is that of the timing table at the measured speed and pressure up to the same error (less than a thousandth of a degree for tables up to 64 degrees), and the dwell from the battery table is its milliseconds in whole microseconds up to 2^-9 microseconds per millisecond of the largest entry.", "quantifier": "all tables of at least two breakpoints per axis that do not fill their array, with breakpoints of at most 2^60 that differ by at least 2^-64 (also the unused entry after the last) and finite values of at most 2^60; all lookup values; every float format of the model, binary32 included", "why_tests_cant": "cancellation in the weights of a cell depends on the breakpoints and on the lookup value; the worst case over all tables and inputs cannot be sampled", "anchors": ["src/table.c: interpolate_table_oneaxis, interpolate_table_twoaxis", "src/calculations.c: calculate_ignition"]}
{"id": "C106", "title": "Rounding barely moves the fuel pulse", "statement": "In single precision, with every intermediate result rounded, the commanded fuel pulse is within one microsecond plus 2^-19 of the sum of its parts of the speed-density equation of the looked-up and measured terms; the reported air mass and fuel volume are within 2^-19 of the equation relative to their size.", "quantifier": "every operating point and configuration with the numbers of an engine: volumetric efficiency and pressure from 1/16 to 1024, cylinders of 1 to 16384 cc, intake air at -145 \u00b0C or more, fuel within 200 \u00b0C of 15 \u00b0C and of at least 1/4 g/cc, lambda from 1/8 to 8, injectors of 8 to 8192 cc per minute, up to 64 injections per cycle, any acceleration enrichment from 1/1024 to 16384 mm\u00b3 or none, corrections and dead times of at most 1024 ms; every float format of the model, binary32 included", "why_tests_cant": "thirty roundings in a row, two of them after subtractions; the worst case over all operating points cannot be sampled", "anchors": ["src/calculations.c: calculate_fueling, calculate_airmass, calculate_fuel_volume, air_density, fuel_density"]}
{"id": "C107", "title": "Rounding of sensor readings does not accumulate", "statement": "In single precision, with every intermediate result rounded, a linear sensor within its calibrated range reads within 2^-20 of the largest value of its range of the line through its two calibration points. With a lag filter of at most 99 per cent the value used by the rest of the system stays within 2^-14 of that largest value of what the same readings give in real numbers, however many readings have come in, and so never leaves the range of the sensor by more than that. The reported rate of change is within 2^-22 of the difference of the two values times the 5000 readings a second.", "quantifier": "every linear sensor whose calibration points are at least 2^-64 apart and whose numbers are at most 2^60, with any lag from 0 to 99 per cent; every finite history of readings, each one either in the calibrated range or taken as a fault; every float format of the model, binary32 included", "why_tests_cant": "the filter feeds its rounded result back at every reading, thousands of times a second for hours; whether the error stays bounded is a statement about histories of any length", "anchors": ["src/sensors.c: sensor_convert_linear, process_lag_filter, sensor_convert, detect_faults"]}
{"id": "C108", "title": "A table lookup never jumps", "statement": "Two lookups in a table differ by no more than the table's steepest slope times the difference of the values looked up, plus the rounding, also across breakpoints and past both ends of an axis; a table whose values rise along its axis is looked up to a rising value. So the spark advance moves with the speed and the manifold pressure and never jumps.", "quantifier": "every usable table of one or two axes, of any number of breakpoints the array holds besides the unused one; every pair of values looked up, in the same cell or not, inside the axes or not; every float format of the model, binary32 included", "why_tests_cant": "a jump would be at one pair of neighbouring floats around one breakpoint of one table; no sample of lookups excludes it", "anchors": ["src/table.c: interpolate_table_oneaxis, interpolate_table_twoaxis", "src/calculations.c: calculate_ignition"]}
{"id": "C109", "title": "A filtered sensor settles at a steady reading", "statement": "While a linear sensor's raw reading stays the same, its filtered value approaches the reading by the factor lag/100 each time and in the end equals it.", "quantifier": "every calibrated linear sensor with a lag of 0 to 99 per cent, every first value and every steady reading without a fault, every number of readings", "why_tests_cant": "tests feed a few readings; whether the filter reaches its input in the end depends on how the rounding of every step falls", "anchors": ["src/sensors.c: process_lag_filter, sensor_convert"]}
{"id": "C110", "title": "Rounding barely moves the mean of a windowed sensor", "statement": "In single precision, with every sum rounded, a reading of a windowed sensor while the engine turns either leaves the sensor's value as it was or makes it the mean of the readings that came just before it, without a gap, within 2^-10 of the largest value of the range.", "quantifier": "every linear calibration with points at least 2^-64 apart and numbers of at most 2^60; every history of readings in the calibrated range at any angles and speeds, starting with no window open, with at most 4096 readings in one window; every float format of the model, binary32 included", "why_tests_cant": "the error of the running sum grows with the number of readings in the window; the worst case over all readings and window lengths cannot be sampled", "anchors": ["src/sensors.c: sensor_convert_linear_windowed, sensor_convert_linear"]}
