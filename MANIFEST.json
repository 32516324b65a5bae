{
 "claims": [
  {
   "property": "C01",
   "status": "proved",
   "theorems": [
    "Verif.C01_time_before",
    "Verif.C01_time_before_or_equal",
    "Verif.C01_time_diff",
    "Verif.C01_time_in_range",
    "Verif.C01_half_wrap_ambiguous"
   ],
   "note": ""
  },
  {
   "property": "C02",
   "status": "proved",
   "theorems": [
    "Verif.C02_rpm_accuracy",
    "Verif.C02_time_from_us_exact",
    "Verif.C02_time_from_us_exact_limit",
    "Verif.C02_time_from_us_undefined",
    "Verif.C02_time_mono_degrees",
    "Verif.C02_time_antitone_rpm",
    "Verif.C02_rpm_antitone_time",
    "Verif.C02_time_from_rpm_diff_accuracy",
    "Verif.C02_exact_time",
    "Verif.C02_exact_rpm",
    "Verif.C02_exact_roundtrip",
    "Verif.C02_undefined_at_zero"
   ],
   "note": ""
  },
  {
   "property": "C03",
   "status": "proved",
   "theorems": [
    "Verif.C03_range",
    "Verif.C03_nan",
    "Verif.C03_idempotent",
    "Verif.C03_terminates",
    "Verif.C03_exact",
    "Verif.C03_binary32_diverges",
    "Verif.C03_inf_diverges"
   ],
   "note": "Holds with termination for the ranges in C03_terminates; for large angles the loop does not end in binary32 (C03_binary32_diverges), nor for infinite angles."
  },
  {
   "property": "C04",
   "status": "proved",
   "theorems": [
    "Verif.C04_cell_search"
   ],
   "note": ""
  },
  {
   "property": "C05",
   "status": "partial",
   "theorems": [
    "Verif.C05_below_top_partial",
    "Verif.C05_at_top_partial",
    "Verif.C05_within_data",
    "Verif.C05_full_table_reads_oob",
    "Verif.C05_full_false",
    "Verif.C05_top_nan",
    "Verif.C05_breakpoint"
   ],
   "note": "The full statement C05_full is false of the code (C05_full_false): at or above the last breakpoint the code reads the entry after the last one, out of bounds when the table is full and NaN when that entry equals the last breakpoint. Proved below the top breakpoint, and at the top when the unused entry is finite and different."
  },
  {
   "property": "C06",
   "status": "partial",
   "theorems": [
    "Verif.C06_lookup_partial",
    "Verif.C06_within_data",
    "Verif.C06_full_false"
   ],
   "note": "C06_full is false of the code (C06_full_false), same top-edge defect as C05. C06_lookup_partial covers every point when each axis is below its top or the unused entry after it is finite and different."
  },
  {
   "property": "C07",
   "status": "partial",
   "theorems": [
    "Verif.C07_check_total",
    "Verif.C07_in_bounds_partial",
    "Verif.C07_number_1d_partial",
    "Verif.C07_number_2d_partial",
    "Verif.C07_default_safe",
    "Verif.C07_null_timing",
    "Verif.C07_unchecked_tables",
    "Verif.C07_null_dwell",
    "Verif.C07_empty_axis",
    "Verif.C07_accepted_full_axis",
    "Verif.C07_accepted_nan_axis",
    "Verif.C07_full_false"
   ],
   "note": "Proved: the check is total, every lookup of an accepted configuration whose axes are non-empty, not full and NaN-free stays in bounds and returns a number, and the shipped configuration is safe at every operating point. The full claim is false (C07_full_false, with one witness per gap): null timing/dwell tables, unchecked tables, empty, full and NaN axes are accepted."
  },
  {
   "property": "C08",
   "status": "proved",
   "theorems": [
    "Verif.C08_queue",
    "Verif.C08_serves_first",
    "Verif.C08_needs_half_wrap"
   ],
   "note": ""
  },
  {
   "property": "C09",
   "status": "proved",
   "theorems": [
    "Verif.C09_request_never_faults",
    "Verif.C09_interrupt_never_faults",
    "Verif.C09_at_most_nineteen"
   ],
   "note": ""
  },
  {
   "property": "C10",
   "status": "partial",
   "theorems": [
    "Verif.C10_partial",
    "Verif.C10_hit_is_due",
    "Verif.C10_hosted_full_false",
    "Verif.C10_compare_full_false",
    "Verif.C10_empty_queue_writes_oob"
   ],
   "note": "Requests are followed by a timer interrupt at or after the due time while the timer still has something pending (C10_partial). The full claim is false on hosted (a callback due at a multiple of 128 fires twice) and on compare timers (the interrupt is never disabled, so it comes back 2^32 ticks later and finds an empty queue, C10_empty_queue_writes_oob)."
  },
  {
   "property": "C11",
   "status": "proved",
   "theorems": [
    "Verif.C11_dma_is_path",
    "Verif.C11_hosted_is_path",
    "Verif.C11_submitted_kept",
    "Verif.C11_history",
    "Verif.C11_ignition_is_path",
    "Verif.C11_fuel_is_path"
   ],
   "note": ""
  },
  {
   "property": "C12",
   "status": "partial",
   "theorems": [
    "Verif.C12_partial",
    "Verif.C12_stop_not_first_partial",
    "Verif.C12_fuel",
    "Verif.C12_ignition_witness",
    "Verif.C12_full_false",
    "Verif.C12_zero_width"
   ],
   "note": "C12_full is false of the code: an ignition reschedule whose new start is already too early to move leaves the armed start in place and moves the stop, possibly before it (C12_full_false, C12_ignition_witness: cranking 200 to 400 rpm). Proved for fuel, and for ignition when the new stop is after the armed start (C12_partial). C12_zero_width: a zero dwell or pulse width gives both edges the same tick."
  },
  {
   "property": "C13",
   "status": "proved",
   "theorems": [
    "Verif.C13_width",
    "Verif.C13_commanded"
   ],
   "note": ""
  },
  {
   "property": "C14",
   "status": "partial",
   "theorems": [
    "Verif.C14_committed_untouched",
    "Verif.C14_partial",
    "Verif.C14_no_assert_partial",
    "Verif.C14_full_false"
   ],
   "note": "C14_full is false in the state that the C12 defect reaches (stop committed or fired before its start): cancelling then removes only the start. Proved for events in pulse order (C14_partial), where the assertions also hold."
  },
  {
   "property": "C15",
   "status": "partial",
   "theorems": [
    "Verif.C15_ignition_90",
    "Verif.C15_fuel_90",
    "Verif.C15_min_fire",
    "Verif.C15_ignition_180",
    "Verif.C15_fuel_180_partial",
    "Verif.C15_full_false",
    "Verif.C15_fuel_180_full_false"
   ],
   "note": "The 90 degree rule holds for every single call; across calls it is forgotten when a recomputed stop time is earlier than the last stop (unsigned difference wraps, the event is reset without being armed) so C15_full is false. The 180 degree bound holds for ignition and for fuel unless the start is committed and the width grows."
  },
  {
   "property": "C16",
   "status": "proved",
   "theorems": [
    "Verif.C16_arm",
    "Verif.C16_step"
   ],
   "note": ""
  },
  {
   "property": "C17",
   "status": "proved",
   "theorems": [
    "Verif.C17_invalidate",
    "Verif.C17_invalidate_total",
    "Verif.C17_schedule_event"
   ],
   "note": ""
  },
  {
   "property": "C18",
   "status": "partial",
   "theorems": [
    "Verif.C18_full_false",
    "Verif.C18_partial"
   ],
   "note": "C18_full is false: schedule_event does nothing for a disabled output, so an output disabled while armed still plays its pulse. Proved: it is never armed again (C18_partial)."
  },
  {
   "property": "C19",
   "status": "proved",
   "theorems": [
    "Verif.C19_exact",
    "Verif.C19_armed_in_time",
    "Verif.C19_fired",
    "Verif.C19_exactly_once",
    "Verif.C19_boot_gap"
   ],
   "note": "Holds from the second buffer swap after power-up; C19_boot_gap shows what happens between the first and the second."
  },
  {
   "property": "C20",
   "status": "partial",
   "theorems": [
    "Verif.C20_partial",
    "Verif.C20_full_false",
    "Verif.C20_permanent"
   ],
   "note": "False for a reconfiguration while an edge is committed (C20_full_false; the bit is then permanent, C20_permanent). Proved when outputs are reconfigured only while idle or fired (C20_partial)."
  },
  {
   "property": "C21",
   "status": "proved",
   "theorems": [
    "Verif.C21_window",
    "Verif.C21_list_bound",
    "Verif.C21_armed_in_time",
    "Verif.C21_exactly_once",
    "Verif.C21_order",
    "Verif.C21_levels"
   ],
   "note": ""
  },
  {
   "property": "C22",
   "status": "proved",
   "theorems": [
    "Verif.C22_hysteresis",
    "Verif.C22_every_evaluation"
   ],
   "note": ""
  },
  {
   "property": "C23",
   "status": "proved",
   "theorems": [
    "Verif.C23_cut",
    "Verif.C23_idempotent",
    "Verif.C23_zero_injections",
    "Verif.C23_stale_flag"
   ],
   "note": "The cut decision is proved exact for every input with a non-zero injection count; C23_zero_injections and C23_stale_flag record the two corner cases."
  },
  {
   "property": "C24",
   "status": "proved",
   "theorems": [
    "Verif.C24_terms",
    "Verif.C24_formula",
    "Verif.C24_spec_monotone",
    "Verif.C24_spec_injector_flow",
    "Verif.C24_monotone"
   ],
   "note": ""
  },
  {
   "property": "C25",
   "status": "proved",
   "theorems": [
    "Verif.C25_enrichment"
   ],
   "note": ""
  },
  {
   "property": "C26",
   "status": "proved",
   "theorems": [
    "Verif.C26_call",
    "Verif.C26_built_up",
    "Verif.C26_largest",
    "Verif.C26_running_real_time"
   ],
   "note": ""
  },
  {
   "property": "C27",
   "status": "partial",
   "theorems": [
    "Verif.C27_pump_partial",
    "Verif.C27_total",
    "Verif.C27_full_false"
   ],
   "note": "Exact for every history in which the latest trigger is less than one clock wrap (17.9 min) old. C27_full_false: after a wrap with the engine stopped the pump starts again."
  },
  {
   "property": "C28",
   "status": "proved",
   "theorems": [
    "Verif.C28_severity",
    "Verif.C28_light",
    "Verif.C28_takes_over",
    "Verif.C28_justified",
    "Verif.C28_held",
    "Verif.C28_goes_dark",
    "Verif.C28_total"
   ],
   "note": ""
  },
  {
   "property": "C29",
   "status": "proved",
   "theorems": [
    "Verif.C29_selection",
    "Verif.C29_range"
   ],
   "note": ""
  },
  {
   "property": "C30",
   "status": "proved",
   "theorems": [
    "Verif.C30_shutdown",
    "Verif.C30_total"
   ],
   "note": ""
  },
  {
   "property": "C31",
   "status": "proved",
   "theorems": [
    "Verif.C31_affine",
    "Verif.C31_endpoints",
    "Verif.C31_degenerate",
    "Verif.C31_min_exact",
    "Verif.C31_monotone"
   ],
   "note": ""
  },
  {
   "property": "C32",
   "status": "proved",
   "theorems": [
    "Verif.C32_substitution"
   ],
   "note": ""
  },
  {
   "property": "C33",
   "status": "partial",
   "theorems": [
    "Verif.C33_connection_partial",
    "Verif.C33_full_false"
   ],
   "note": "Invalid sources are reported exactly. C33_full_false: a raw value outside the fault bounds substitutes the fault value but is never reported."
  },
  {
   "property": "C34",
   "status": "proved",
   "theorems": [
    "Verif.C34_no_overshoot",
    "Verif.C34_no_lag",
    "Verif.C34_geometric",
    "Verif.C34_update"
   ],
   "note": ""
  },
  {
   "property": "C35",
   "status": "proved",
   "theorems": [
    "Verif.C35_step",
    "Verif.C35_stopped",
    "Verif.C35_zero_width_hangs",
    "Verif.C35_history"
   ],
   "note": "Proved for every history with a positive window width; C35_zero_width_hangs records that a zero width, settable from the console, hangs the firmware."
  },
  {
   "property": "C36",
   "status": "proved",
   "theorems": [
    "Verif.C36_routing",
    "Verif.C36_const"
   ],
   "note": ""
  },
  {
   "property": "C37",
   "status": "proved",
   "theorems": [
    "Verif.C37_power",
    "Verif.C37_split",
    "Verif.C37_configure"
   ],
   "note": ""
  },
  {
   "property": "C38",
   "status": "proved",
   "theorems": [
    "Verif.C38_valid_means_sync",
    "Verif.C38_loss_clears",
    "Verif.C38_fresh"
   ],
   "note": ""
  },
  {
   "property": "C39",
   "status": "proved",
   "theorems": [
    "Verif.C39_angle_range"
   ],
   "note": ""
  },
  {
   "property": "C40",
   "status": "partial",
   "theorems": [
    "Verif.C40_tracked_partial",
    "Verif.C40_no_fault",
    "Verif.C40_full_false",
    "Verif.C40_boot_false_sync",
    "Verif.C40_wide_tolerance"
   ],
   "note": "Tracking of a missing-tooth wheel; the time of the tooth that gains sync is stale, a false sync is possible at boot, and tolerances of 1/2 or more overlap; all shown by separate theorems."
  },
  {
   "property": "C41",
   "status": "proved",
   "theorems": [
    "Verif.C41_tracked",
    "Verif.C41_acquires",
    "Verif.C41_window_needed"
   ],
   "note": "The averaging window must be full when sync is gained; with a window of 0 or 1 (the shipped value is 0) an even-tooth decoder never gains sync."
  },
  {
   "property": "C42",
   "status": "partial",
   "theorems": [
    "Verif.C42_phase_partial",
    "Verif.C42_kept",
    "Verif.C42_gained",
    "Verif.C42_full_false",
    "Verif.C42_second_pulse",
    "Verif.C42_no_fault",
    "Verif.C42_acquired"
   ],
   "note": "Holds when no sync loss comes between the cam pulse and the gap; the cam flag survives a loss, which gives an angle wrong by 360 degrees. C42_second_pulse: a second cam pulse within two revolutions loses the position."
  },
  {
   "property": "C43",
   "status": "partial",
   "theorems": [
    "Verif.C43_even_armed",
    "Verif.C43_missing_armed",
    "Verif.C43_expiry_invalidates",
    "Verif.C43_watched_partial",
    "Verif.C43_full_false"
   ],
   "note": "The tooth that gains sync on a missing-tooth wheel arms no expiry; proved for all later teeth."
  },
  {
   "property": "C44",
   "status": "proved",
   "theorems": [
    "Verif.C44_in_bounds",
    "Verif.C44_limits_needed"
   ],
   "note": "Needs a tooth count within the history limits; the console does not enforce them."
  },
  {
   "property": "C45",
   "status": "proved",
   "theorems": [
    "Verif.C45_counters",
    "Verif.C45_logged"
   ],
   "note": ""
  },
  {
   "property": "C46",
   "status": "proved",
   "theorems": [
    "Verif.C46_fifo",
    "Verif.C46_position",
    "Verif.C46_not_lost",
    "Verif.C46_dropped_only_when_full",
    "Verif.C46_nothing_only_when_empty",
    "Verif.C46_delivers_oldest"
   ],
   "note": ""
  },
  {
   "property": "C47",
   "status": "proved",
   "theorems": [
    "Verif.C47_in_order",
    "Verif.C47_completes"
   ],
   "note": ""
  },
  {
   "property": "C48",
   "status": "partial",
   "theorems": [
    "Verif.C48_every_call",
    "Verif.C48_exactly_once",
    "Verif.C48_requests_partial",
    "Verif.C48_full_false",
    "Verif.C48_split_header"
   ],
   "note": "The age limit of a partial request fails because the start time is not renewed when a request is handled (C48_full_false)."
  },
  {
   "property": "C49",
   "status": "partial",
   "theorems": [
    "Verif.C49_set_partial",
    "Verif.C49_answered_partial",
    "Verif.C49_absent_partial",
    "Verif.C49_container_partial",
    "Verif.C49_text_partial",
    "Verif.C49_full_false",
    "Verif.C49_resize_full_false",
    "Verif.C49_uint_full_false",
    "Verif.C49_negative_full_false",
    "Verif.C49_wide_full_false",
    "Verif.C49_knock_full_false"
   ],
   "note": "Proved for every path the full dump shows and every value that is not a list or map (any value outside axis values), for absent paths, containers and titles. The full statement fails: a path past a setting sets it; a list sent below an axis resizes it; numbers from 2^31 are ignored, negatives and wide integers wrap; a knock frequency that is not a number is undefined behaviour."
  },
  {
   "property": "C50",
   "status": "partial",
   "theorems": [
    "Verif.C50_get_partial",
    "Verif.C50_full_false"
   ],
   "note": "Proved for every path that does not go on after a single setting. The full statement fails for those: the rest of the path is ignored."
  },
  {
   "property": "C51",
   "status": "proved",
   "theorems": [
    "Verif.C51_get",
    "Verif.C51_set"
   ],
   "note": ""
  },
  {
   "property": "C52",
   "status": "proved",
   "theorems": [
    "Verif.C52_aligned",
    "Verif.C52_firmware"
   ],
   "note": ""
  },
  {
   "property": "C53",
   "status": "proved",
   "theorems": [
    "Verif.C53_exact",
    "Verif.C53_all_patterns"
   ],
   "note": ""
  },
  {
   "property": "C54",
   "status": "proved",
   "theorems": [
    "Verif.C54_order"
   ],
   "note": "Within one run of the handler; the edges of both channels are delivered in time order when the flags are all set before the handler tests them. The flag/capture register behaviour of the timers is an assumption taken from the reference manuals."
  },
  {
   "property": "C55",
   "status": "proved",
   "theorems": [
    "Verif.C55_reading",
    "Verif.C55_total",
    "Verif.C55_other_pins",
    "Verif.C55_volts",
    "Verif.C55_valid_tlv2553",
    "Verif.C55_update",
    "Verif.C55_knock"
   ],
   "note": "For the three chips, every history of measurements and every round of the command sequence. The chips' framing (which word answers which command) is an assumption taken from their data sheets (Spec/Adc)."
  },
  {
   "property": "C56",
   "status": "partial",
   "theorems": [
    "Verif.C56_events_partial",
    "Verif.C56_full_false",
    "Verif.C56_tracked_partial"
   ],
   "note": "C56_events_partial shows that the test wheel makes exactly the events of a 36-1 wheel with a cam pulse, for ever, and C56_tracked_partial that the shipped decoder fed by it synchronises and never loses it, at any constant speed from 3 to 100000 rpm. C56_full_false: for other tooth counts the wheel is wrong, since the second gap is hard-coded after event 36. Changing the speed during a run, and starting the test later than nine minutes after power-on, are not covered."
  },
  {
   "property": "C57",
   "status": "partial",
   "theorems": [
    "Verif.C57_test",
    "Verif.C57_flat_partial",
    "Verif.C57_save_config_unmasked",
    "Verif.C57_gd32_full_false",
    "Verif.C57_stm32_full_false",
    "Verif.C57_hosted",
    "Verif.C57_hosted_no_abort"
   ],
   "note": "C57_full is false of both microcontrollers (C57_gd32_full_false, C57_stm32_full_false): enable_interrupts is unconditional, so an inner section unmasks the outer one; save_config on gd32 runs unmasked after the emergency shutdown cancels an armed output (C57_save_config_unmasked). Proved on hosted and test, and for programs whose sections are not nested (C57_flat_partial)."
  },
  {
   "property": "C58",
   "status": "partial",
   "theorems": [
    "Verif.C58_gd32",
    "Verif.C58_stm32_partial",
    "Verif.C58_stm32_full_false",
    "Verif.C58_stm32_exactly"
   ],
   "note": "Proved on gd32 and, on stm32, for every size of configuration except exactly 0x2001 words (C58_stm32_exactly), where the sector arithmetic leaves the last word in a sector that was not erased (C58_stm32_full_false)."
  },
  {
   "property": "C59",
   "status": "proved",
   "theorems": [
    "Verif.C59_no_fault",
    "Verif.C59_shipped"
   ],
   "note": ""
  },
  {
   "property": "C60",
   "status": "proved",
   "theorems": [
    "Verif.C60_fixed_duty",
    "Verif.C60_fixed_duty_accuracy",
    "Verif.C60_fixed_time",
    "Verif.C60_voltage",
    "Verif.C60_reported",
    "Verif.C60_stop",
    "Verif.C60_one_dwell"
   ],
   "note": ""
  },
  {
   "property": "C61",
   "status": "proved",
   "theorems": [
    "Verif.C61_nothing_armed",
    "Verif.C61_no_new_pulse",
    "Verif.C61_pins"
   ],
   "note": ""
  },
  {
   "property": "C62",
   "status": "partial",
   "theorems": [
    "Verif.C62_answer_partial",
    "Verif.C62_full_false",
    "Verif.C62_twice_full_false"
   ],
   "note": "Fails for an unknown method with a path and a value (no success) and for a request without a method (success twice). The structure request's content is a parameter."
  },
  {
   "property": "C63",
   "status": "partial",
   "theorems": [
    "Verif.C63_stm32_partial",
    "Verif.C63_gd32_partial",
    "Verif.C63_gd32_full_false",
    "Verif.C63_stm32_full_false"
   ],
   "note": "Proved on both boards when no edge arrives in the window between reading the capture and clearing its flag (stm32), or when at most one edge per channel arrives between two runs (gd32). The full claim is false on both (C63_stm32_full_false, C63_gd32_full_false)."
  },
  {
   "property": "C64",
   "status": "partial",
   "theorems": [
    "Verif.C64_full_false",
    "Verif.C64_gd32_partial"
   ],
   "note": "C64_full is false: power loss after the erase and before the last word loses the old configuration and loads a mixture (C64_full_false). Proved: power loss before the erase or after the last word is harmless (C64_gd32_partial)."
  },
  {
   "property": "C65",
   "status": "partial",
   "theorems": [
    "Verif.C65_tlv2553_partial",
    "Verif.C65_ad7888_wrong",
    "Verif.C65_full_false",
    "Verif.C65_frequency_false"
   ],
   "note": "Proved in exact arithmetic for the TLV2553 on both boards. False for the AD7888 (all rates are 9/14 of the real ones) and for frequency inputs, which are treated as if sampled 5000 times per second."
  },
  {
   "property": "C66",
   "status": "partial",
   "theorems": [
    "Verif.C66_engine_cam_partial",
    "Verif.C66_engine_partial",
    "Verif.C66_engine_even_partial",
    "Verif.C66_engine_free_partial",
    "Verif.C66_crank_partial",
    "Verif.C66_cam_partial",
    "Verif.C66_full_false"
   ],
   "note": "Partial: proved for wheels whose pitch time varies by less than the tolerance overall (crank only, and crank with cam). The full claim (each tooth within tolerance of the teeth just before it) is false: C66_full_false shows a wheel slowing down within the per-tooth tolerance that is expired, because the timeout uses the speed measured at the last gap. C66_engine_partial: the same for the whole firmware running against the clock, with its callback queue, the trigger handler and the timer interrupt. C66_engine_cam_partial: the same with a cam, from the first tooth after the cam pulse of the first whole cycle on. C66_engine_even_partial: the same on an even wheel with a cam. C66_engine_free_partial: the same without a cam."
  },
  {
   "property": "C67",
   "status": "partial",
   "theorems": [
    "Verif.C67_rest_partial",
    "Verif.C67_full_false"
   ],
   "note": "False of the code as stated (C67_full_false, the shipped wheel in binary32: twenty teeth, a rest of 750 s before the gap was seen, then a restart makes the average speed 0 and the stall timeout's conversion undefined). C67_rest_partial: holds when the decoder was reset in between or the rest is at most 1.25 s; what is missing is long rests without reset, which are the counterexample."
  },
  {
   "property": "C68",
   "status": "partial",
   "theorems": [
    "Verif.C68_latest_tooth_partial",
    "Verif.C68_even_partial",
    "Verif.C68_full_false",
    "Verif.C68_cam_stale"
   ],
   "note": "False of the code as stated at the event that gains synchronisation (C68_full_false for missing-tooth wheels, C68_cam_stale for even wheels with a cam). C68_latest_tooth_partial: holds for all four types once valid before the tooth. C68_even_partial: holds in full for even wheels without cam."
  },
  {
   "property": "C69",
   "status": "partial",
   "theorems": [
    "Verif.C69_gd32_partial",
    "Verif.C69_gd32_full_false",
    "Verif.C69_gd32_overrun_full_false",
    "Verif.C69_stm32_partial",
    "Verif.C69_stm32_full_false"
   ],
   "note": "False of both boards as stated: on the gd32 a packet that comes between the test of pending_read and the re-arm is overwritten (C69_gd32_full_false) or makes the copy exceed the request buffer (C69_gd32_overrun_full_false); on the stm32 a packet is discarded when the 1024-byte buffer has no room (C69_stm32_full_false). The partial theorems: gd32 when no packet falls in that window, stm32 when at most 960 bytes gather between polls."
  },
  {
   "property": "C70",
   "status": "partial",
   "theorems": [
    "Verif.C70_inputs_partial",
    "Verif.C70_gd32_full_false",
    "Verif.C70_gd32_reserved",
    "Verif.C70_gd32_freq",
    "Verif.C70_stm32_full_false"
   ],
   "note": "False as stated on both boards: gd32 input 1 set to both edges captures only falling edges, because its bit is written to channel 2 (C70_gd32_full_false, C70_gd32_reserved), and frequency inputs are delivered as triggers (C70_gd32_freq); stm32 unused inputs are delivered at the next timer interrupt (C70_stm32_full_false). C70_inputs_partial: holds for every other setting, in particular the shipped one."
  },
  {
   "property": "C71",
   "status": "partial",
   "theorems": [
    "Verif.C71_capture_partial",
    "Verif.C71_pulse_partial",
    "Verif.C71_first",
    "Verif.C71_pulse_times",
    "Verif.C71_slow",
    "Verif.C71_full_false"
   ],
   "note": "False as stated: the first edge after power-on is reported against time 0 (C71_first), and a period over one second on the pulse width input is reported modulo the counter (C71_slow). C71_capture_partial: every later edge within 17.9 minutes of the one before, to one part in 4 million. C71_pulse_partial: every period from 46 us to 1.0004 s, to 0.1 percent and two counts; also the pulse width."
  },
  {
   "property": "C72",
   "status": "partial",
   "theorems": [
    "Verif.C72_pulse_partial",
    "Verif.C72_full_false"
   ],
   "note": "C72_pulse_partial: holds for the pulse width input. C72_full_false: the frequency input on the trigger timer has no timeout, so its last reading stays valid for ever."
  },
  {
   "property": "C73",
   "status": "partial",
   "theorems": [
    "Verif.C73_pin_partial",
    "Verif.C73_fuel",
    "Verif.C73_rest",
    "Verif.C73_boot",
    "Verif.C73_full_false",
    "Verif.C73_coil_left_on",
    "Verif.C73_polarity"
   ],
   "note": "C73_fuel: holds for every output whose pulses have their stop after their start, so for all injectors; C73_pin_partial: for ignition outputs as long as no reschedule puts the stop before a start that cannot be moved any more. C73_full_false, C73_coil_left_on: otherwise the coil stays on. C73_polarity: changing the polarity of a resting output leaves its pin at the active level. C73_boot: levels at power-up."
  },
  {
   "property": "C74",
   "status": "partial",
   "theorems": [
    "Verif.C74_stm32",
    "Verif.C74_stm32_own",
    "Verif.C74_gd32_partial",
    "Verif.C74_gd32_full_false"
   ],
   "note": "C74_stm32: holds. C74_gd32_full_false: the gd32 version reads, changes and writes back the whole port, and an edge written by the DMA in between is undone. C74_gd32_partial: holds when the DMA writes nothing in between."
  },
  {
   "property": "C75",
   "status": "partial",
   "theorems": [
    "Verif.C75_stm32",
    "Verif.C75_gd32_partial",
    "Verif.C75_gd32_full_false",
    "Verif.C75_nan",
    "Verif.C75_mono",
    "Verif.C75_other"
   ],
   "note": "C75_stm32: holds for every number. C75_gd32_partial: holds from 0 to 100; C75_gd32_full_false: outside, the conversion to uint16_t is undefined. C75_nan: undefined on both boards. C75_mono, C75_other: monotone; unknown outputs do nothing."
  },
  {
   "property": "C76",
   "status": "partial",
   "theorems": [
    "Verif.C76_cam_wheel_partial",
    "Verif.C76_wheel_partial",
    "Verif.C76_even_wheel_partial",
    "Verif.C76_free_wheel_partial",
    "Verif.C76_armed",
    "Verif.C76_spark_partial",
    "Verif.C76_full_false",
    "Verif.C76_sees"
   ],
   "note": "C76_spark_partial: holds at the pin whenever the decoder, while valid, knows the crank (time, angle and speed of a real tooth). C76_armed: the same for the time held by the output. C76_sees: on a missing-tooth wheel the decoder does know the crank after every tooth but the synchronising one. C76_full_false: the decoder becomes valid on the synchronising tooth without taking its time, and the outputs scheduled then fire at a wrong angle. C76_wheel_partial: both together for the whole firmware on a missing-tooth wheel, from any state after the second synchronised tooth. C76_cam_wheel_partial: the same on a wheel with a cam (the decoder type of the shipped configuration). C76_even_wheel_partial: the same on an even wheel with a cam. C76_free_wheel_partial: the same without a cam."
  },
  {
   "property": "C77",
   "status": "partial",
   "theorems": [
    "Verif.C77_angle_partial",
    "Verif.C77_full_false",
    "Verif.C77_interrupted_partial"
   ],
   "note": "C77_angle_partial: the error bound, for any decoder that knows the crank, with no fault. C77_full_false: after a stop the angle read goes on turning at the last speed."
  },
  {
   "property": "C78",
   "status": "partial",
   "theorems": [
    "Verif.C78_lost_partial",
    "Verif.C78_kept",
    "Verif.C78_full_false"
   ],
   "note": "C78_kept: the reported speed stays until the next trigger in every run. C78_lost_partial: the timeout reports the loss but keeps the speed. C78_full_false: concrete run from boot."
  },
  {
   "property": "C79",
   "status": "partial",
   "theorems": [
    "Verif.C79_cam_wheel_partial",
    "Verif.C79_wheel_partial",
    "Verif.C79_even_wheel_partial",
    "Verif.C79_free_wheel_partial",
    "Verif.C79_start_partial",
    "Verif.C79_end_partial",
    "Verif.C79_constant_partial",
    "Verif.C79_full_false"
   ],
   "note": "C79_start_partial, C79_end_partial, C79_constant_partial: hold at the pin whenever the decoder, while valid, knows the crank (C76_sees gives this on a missing-tooth wheel after every tooth but the synchronising one). C79_full_false: the injection scheduled on the synchronising tooth ends at a wrong angle. C79_wheel_partial: both together for the whole firmware on a missing-tooth wheel, from any state after the second synchronised tooth. C79_cam_wheel_partial: the same on a wheel with a cam. C79_even_wheel_partial: the same on an even wheel with a cam. C79_free_wheel_partial: the same without a cam."
  },
  {
   "property": "C80",
   "status": "partial",
   "theorems": [
    "Verif.C80_inverted_partial",
    "Verif.C80_on",
    "Verif.C80_stays_on",
    "Verif.C80_dwell",
    "Verif.C80_fuel",
    "Verif.C80_full_false"
   ],
   "note": "C80_inverted_partial: holds for active-low outputs. C80_on, C80_stays_on: every active-high output is switched on by the first such pulse and stays on. C80_dwell, C80_fuel: the control code asks for such pulses whenever dwell or fuel is zero. C80_full_false: concrete run."
  },
  {
   "property": "C81",
   "status": "partial",
   "theorems": [
    "Verif.C81_injector_partial",
    "Verif.C81_coil_on",
    "Verif.C81_full_false",
    "Verif.C81_calls"
   ],
   "note": "C81_injector_partial: holds for an injector alone on its pin whose start is not among the edges still to be played in this window. C81_coil_on: a charging coil whose stop falls in a later window stays on. C81_calls: the accesses modelled are those of the emergency shutdown. C81_full_false: concrete run. gd32 only: the stm32 resets the port, which releases the pins."
  },
  {
   "property": "C82",
   "status": "partial",
   "theorems": [
    "Verif.C82_tables_partial",
    "Verif.C82_full_false"
   ],
   "note": "Proved for every sequence of requests: the tables stay, at most 24 values per axis, hidden state unchanged, no access outside the tables. The part about later lookups is false: an empty list sent as axis values is accepted and the next lookup reads values[-1] (C82_full_false)."
  },
  {
   "property": "C83",
   "status": "partial",
   "theorems": [
    "Verif.C83_restore_partial",
    "Verif.C83_others",
    "Verif.C83_full_false"
   ],
   "note": "C83_restore_partial: any part, or all, sent back with the lengths of its lists given and no integer of 2^31 or more; answered with itself and shown by a get. C83_others: paths that part outside of a table are not affected by any set. C83_full_false: sent exactly as received (lists of unknown length) an axis that is shorter stays short. Data of a table alone (without its axes) is excluded by PartPath since its size is that of the axes."
  },
  {
   "property": "C84",
   "status": "proved",
   "theorems": [
    "Verif.C84_get",
    "Verif.C84_set",
    "Verif.C84_feed"
   ],
   "note": "C84_get and C84_set over the table `Names` of Spec/Named.lean, C84_feed over `feedQuantities`. Titles and axis names are not in the table (they are only shown)."
  },
  {
   "property": "C85",
   "status": "proved",
   "theorems": [
    "Verif.C85_effects",
    "Verif.C85_carried_out"
   ],
   "note": "C85_effects, C85_carried_out."
  },
  {
   "property": "C86",
   "status": "proved",
   "theorems": [
    "Verif.C86_cam_fires",
    "Verif.C86_cam_once",
    "Verif.C86_fires",
    "Verif.C86_once",
    "Verif.C86_even_fires",
    "Verif.C86_even_once",
    "Verif.C86_free_fires",
    "Verif.C86_free_once"
   ],
   "note": "C86_fires (a spark in every cycle), C86_once (not two): crank wheels with a missing tooth and no cam, from the second synchronised tooth on the advance may change at every tooth, within a band narrower than the distance between two teeth, and the charge within a band; the spark is then within the error of the crank and half the band. C86_cam_fires, C86_cam_once: the same with a cam, from a tooth after the cam pulse of the first whole cycle on, the advance at a cam pulse being that of the tooth before it. C86_even_fires, C86_even_once: the same on an even wheel with a cam, from the first tooth after the first cam pulse on. C86_free_fires, C86_free_once: the same without a cam, from the first tooth after the required ones on. In C86, C92 and C101 the states of the run may satisfy any condition Gd that implies the hypotheses on states."
  },
  {
   "property": "C87",
   "status": "partial",
   "theorems": [
    "Verif.C87_whole",
    "Verif.C87_answered_partial",
    "Verif.C87_reads_partial",
    "Verif.C87_bootloader_full_false",
    "Verif.C87_full_false",
    "Verif.C87_set_full_false"
   ],
   "note": "Proved: whatever is written is the whole answer; every request whose path is not empty and not just \"tables\" is answered after any sequence of requests; with tables of at most 17 by 17 values every read is answered. The full statement is false: with 24 by 24 tables a get of the tables, or of everything, gets no reply, a set of all tables is carried out and gets no reply, and a microcontroller resets into the bootloader before it replies."
  },
  {
   "property": "C88",
   "status": "proved",
   "theorems": [
    "Verif.C88_describes"
   ],
   "note": "The structure answer is modelled entry by entry in Model/Structure."
  },
  {
   "property": "C89",
   "status": "proved",
   "theorems": [
    "Verif.C89_stream",
    "Verif.C89_messages",
    "Verif.C89_goes_on"
   ],
   "note": "For all runs (consoleRun) and any CBOR library meeting L.Ok: the stream reads back as the messages of Talk; C89_messages states what a client sees of them; C89_goes_on: no pass fails but for the knock conversion of C49. The reader is a separate RFC 8949 decoder. Answers over 16384 bytes are left out, as C87 says."
  },
  {
   "property": "C90",
   "status": "proved",
   "theorems": [
    "Verif.C90_dialogue",
    "Verif.C90_read_back"
   ],
   "note": "From the client's bytes to the client's reading: encoded requests are complete and recognisable (Proofs/Scan), the receive path hands each on once (C48), a concrete RFC 8949 decoder stands for the accessors, and the answers are read back from the whole stream (C89). Excludes requests for everything or for all tables (answers may not fit, C87), and given-length maps of 24 or more entries (C48)."
  },
  {
   "property": "C91",
   "status": "partial",
   "theorems": [
    "Verif.C91_never_forgotten",
    "Verif.C91_not_early_partial",
    "Verif.C91_full_false",
    "Verif.C91_idle_full_false"
   ],
   "note": "Never forgotten: proved for every placement of the ticks. Only when due: false. If the old compare time comes between the clearing of the flag and the writing of the compare register, the callback that is being put off runs at once (C91_full_false); and with nothing requested for a clock wrap from power-on the handler finds the flag set with an empty queue (C91_idle_full_false). Proved without that race (C91_not_early_partial)."
  },
  {
   "property": "C92",
   "status": "proved",
   "theorems": [
    "Verif.C92_cam_fires",
    "Verif.C92_cam_once",
    "Verif.C92_even_fires",
    "Verif.C92_even_once",
    "Verif.C92_free_fires",
    "Verif.C92_free_once",
    "Verif.C92_fires",
    "Verif.C92_once"
   ],
   "note": "Exactly one pulse in each cycle from 1500 degrees after the first tooth considered: it exists with its width and its angle (C92_fires), and no second closing tick of the same cycle is ever given to the hardware (C92_once). Hypotheses: crank wheel with missing tooth, no cam (C92_cam_fires, C92_cam_once: with a cam); the width plus latencies fit into 560 degrees less two pitches; the injector starts from rest. C92_even_fires, C92_even_once: the same on an even wheel with a cam. C92_free_fires, C92_free_once: the same without a cam."
  },
  {
   "property": "C93",
   "status": "partial",
   "theorems": [
    "Verif.C93_listens_partial",
    "Verif.C93_deaf",
    "Verif.C93_full_false"
   ],
   "note": "After any history the filter's coefficients are those of its bin, and the bin's middle lies above the setting by at most one bin (partial). The bin is floor(f / width) + 1, not the nearest: an input set to a frequency in the middle of a bin is deaf for it, a tone of that frequency has no power in the chosen bin (C93_deaf, C93_full_false)."
  },
  {
   "property": "C94",
   "status": "partial",
   "theorems": [
    "Verif.C94_skipped",
    "Verif.C94_callback",
    "Verif.C94_armed_partial",
    "Verif.C94_full_false"
   ],
   "note": "Proved: a call that finds the start still ahead arms the pulse (partial). The callback at the end of a pulse never arms anything unless a tooth beyond the injector's angle has been decoded (C94_callback), and as long as each call finds the start past, the injector stays closed (C94_skipped). In full false: 23.5 ms in a cycle of 24 ms is never armed in the following cycle (C94_full_false)."
  },
  {
   "property": "C95",
   "status": "proved",
   "theorems": [
    "Verif.C95_request",
    "Verif.C95_runs",
    "Verif.C95_stopped",
    "Verif.C95_speed"
   ],
   "note": "A request starts the test trigger if and only if it changes the speed; invariant over histories. Requests and callbacks are handled one at a time."
  },
  {
   "property": "C96",
   "status": "partial",
   "theorems": [
    "Verif.C96_delivered_partial",
    "Verif.C96_ends_partial",
    "Verif.C96_fifo",
    "Verif.C96_full_false"
   ],
   "note": "C96_delivered_partial and C96_ends_partial hold until a bus reset after the configuration was selected; C96_fifo for every history. False in full: a reset in the middle of a message leaves the FIFO interrupt enabled, and the rest of the old message is sent in place of the next one (C96_full_false, already with a peripheral that discards everything at the reset). Not covered: endpoint 0, bus errors."
  },
  {
   "property": "C97",
   "status": "partial",
   "theorems": [
    "Verif.C97_mean_partial",
    "Verif.C97_reads",
    "Verif.C97_frozen",
    "Verif.C97_full_false"
   ],
   "note": "Exact arithmetic; sensors without lag. Full statement false: C97_frozen, for every run, when the window is as wide as the cycle (720 of 720) the window is never taken to be over and the reading stays as it was while the engine turns. The partial theorem needs the crank to turn, from one sample to the next, no further than the windows are apart, and the angle read not to go back. C97_reads ties the angle to the crank; C77_interrupted_partial covers interrupts."
  },
  {
   "property": "C98",
   "status": "partial",
   "theorems": [
    "Verif.C98_end",
    "Verif.C98_tables_partial",
    "Verif.C98_get",
    "Verif.C98_one_partial",
    "Verif.C98_others_partial",
    "Verif.C98_full_false"
   ],
   "note": "Full statement false: values of an axis are stored one by one, so moving the axis of the dwell table up makes it begin above its end for a while; a lookup then fails the assertion of the search. Partial theorems: tables and running state for every request (C98_tables_partial), single settings outside the knock inputs are old or new (C98_one_partial), lookups are untouched by sets outside the tables (C98_others_partial); C98_get and C98_end in full. The text of a title and the hook of the knock inputs count as one store."
  },
  {
   "property": "C99",
   "status": "partial",
   "theorems": [
    "Verif.C99_partial",
    "Verif.C99_given_partial",
    "Verif.C99_armed_partial",
    "Verif.C99_full_false",
    "Verif.C99_overrun_full_false"
   ],
   "note": "Full statement false: console_read calls usbd_ep_recev on every poll, also while a packet is being received; it sets the byte count back to 0 between copy and report (packet lost), or the copy between its stores moves the address so that the next packet is written behind the buffer. Partial: nothing of this when no packet comes while the endpoint is being armed and no poll comes between a packet and its report; then an armed endpoint gives each packet to the console after three interrupts and a poll."
  },
  {
   "property": "C100",
   "status": "proved",
   "theorems": [
    "Verif.C100_tooth",
    "Verif.C100_no_new_pulse",
    "Verif.C100_pins"
   ],
   "note": "Proved for the whole-engine model. The boost limit counts only where the duty test before it can be evaluated (it divides by the number of injections)."
  },
  {
   "property": "C101",
   "status": "proved",
   "theorems": [
    "Verif.C101_coil_free",
    "Verif.C101_injector_free",
    "Verif.C101_coil",
    "Verif.C101_coil_cam",
    "Verif.C101_coil_even",
    "Verif.C101_injector",
    "Verif.C101_injector_cam",
    "Verif.C101_injector_even"
   ],
   "note": "C101_coil and C101_injector on a missing-tooth wheel, with _cam and _even versions for wheels with a cam and _free versions for an even wheel without. Hypotheses as for C86 and C92: one starting state in which the output has nothing pending, advance and dwell (or pulse width) within bands, handling within a bounded time. Without these hypotheses a coil can be left on for a cycle: that is C12."
  },
  {
   "property": "C102",
   "status": "partial",
   "theorems": [
    "Verif.C102_stuck",
    "Verif.C102_required",
    "Verif.C102_gains_partial",
    "Verif.C102_full_false",
    "Verif.C102_wide_false"
   ],
   "note": "Partial: C102_gains_partial is the claim after a start or a loss, for an averaging window shorter than the required number of teeth, which is at most one cycle and at most 37. The full claim is false (C102_full_false): teeth go on being counted while there is no position, and once a cycle's worth has been counted the decoder never gains one (C102_stuck). It never does either when more teeth are required than a cycle has (C102_required), or with an averaging window of a whole cycle from start (C102_wide_false)."
  },
  {
   "property": "C103",
   "status": "proved",
   "theorems": [
    "Verif.C103_sparks",
    "Verif.C103_sparks_once",
    "Verif.C103_coil",
    "Verif.C103_injects",
    "Verif.C103_injects_once",
    "Verif.C103_injector",
    "Verif.C103_cam_sparks",
    "Verif.C103_cam_sparks_once",
    "Verif.C103_cam_coil",
    "Verif.C103_cam_injects",
    "Verif.C103_cam_injects_once",
    "Verif.C103_cam_injector",
    "Verif.C103_even_sparks",
    "Verif.C103_even_sparks_once",
    "Verif.C103_even_coil",
    "Verif.C103_even_injects",
    "Verif.C103_even_injects_once",
    "Verif.C103_even_injector",
    "Verif.C103_free_sparks",
    "Verif.C103_free_sparks_once",
    "Verif.C103_free_coil",
    "Verif.C103_free_injects",
    "Verif.C103_free_injects_once",
    "Verif.C103_free_injector"
   ],
   "note": "Crank wheel with a missing tooth: C103_sparks, C103_sparks_once, C103_coil, C103_injects, C103_injects_once, C103_injector. The same with _cam_ (missing tooth and cam), _even_ (even wheel and cam) and _free_ (even wheel, no cam). Derived from C86, C92 and C101: the speed follows from the tooth times (C66), the commanded values from the speed and the sensors. On wheels with a cam the spark theorems also need the advance to depend on the speed alone while the sensors stay in the set (SteadyAdvance), because it must not change between a tooth and the cam pulse after it. As in C86 the output starts at rest."
  },
  {
   "property": "C104",
   "status": "proved",
   "theorems": [
    "Verif.C104_sparks",
    "Verif.C104_sparks_once",
    "Verif.C104_coil",
    "Verif.C104_injects",
    "Verif.C104_injects_once",
    "Verif.C104_injector"
   ],
   "note": "C104_sparks, C104_sparks_once, C104_coil, C104_injects, C104_injects_once, C104_injector. Even wheel without a cam, which is the only kind whose decoder takes over the time of the tooth that synchronises it; for the missing-tooth wheel the claim is false (C76_full_false is a run from power on with a spark 450 degrees off), and for the two wheels with a cam the decoder reports the same stale time (C68)."
  },
  {
   "property": "C105",
   "status": "proved",
   "theorems": [
    "Verif.C105_line",
    "Verif.C105_surface",
    "Verif.C105_line_range",
    "Verif.C105_surface_range",
    "Verif.C105_advance",
    "Verif.C105_dwell"
   ],
   "note": "Forward error analysis of the rounded operations, including underflow of the difference of lookup value and breakpoint; the exact lookup is that of C05 and C06. At the top of an axis the unused entry after the last breakpoint must differ from it, as in C05."
  },
  {
   "property": "C106",
   "status": "proved",
   "theorems": [
    "Verif.C106_volume",
    "Verif.C106_pulse"
   ],
   "note": "Relative error calculus: each multiplication, division and sum of positive terms adds one rounding; the absolute temperature and the fuel density are bounded by hand. The tables' own rounding is C105, the equation in exact arithmetic C24."
  },
  {
   "property": "C107",
   "status": "proved",
   "theorems": [
    "Verif.C107_linear",
    "Verif.C107_history",
    "Verif.C107_range",
    "Verif.C107_rate"
   ],
   "note": "The filter contracts earlier errors by lag/100, so the error stays below 100 times that of one reading; induction over the history. A fault resets both values to the fault value. In exact arithmetic the line is C31, the filter C34."
  },
  {
   "property": "C108",
   "status": "proved",
   "theorems": [
    "Verif.C108_line",
    "Verif.C108_rising",
    "Verif.C108_surface",
    "Verif.C108_advance"
   ],
   "note": "The polyline and the bilinear surface of C05, C06 are Lipschitz with the steepest segment (sum over the segments between the two values); the rounding is C105. For a full axis of 24 breakpoints the lookup at the top is out of bounds (C05, C06), which `Usable1` and `Usable2` exclude."
  },
  {
   "property": "C109",
   "status": "partial",
   "theorems": [
    "Verif.C109_settles_partial",
    "Verif.C109_full_false"
   ],
   "note": "Partial: after n equal readings the value is within (lag/100)^n of the first distance plus 2^-14 of the range of the reading, in every float format. That it comes to equal the reading is false in single precision (C109_full_false): with a lag of 99 per cent and a reading of 100 the value stays at 3276773/32768 = 99.99918 for ever."
  },
  {
   "property": "C110",
   "status": "proved",
   "theorems": [
    "Verif.C110_mean"
   ],
   "note": "Invariant over the history: an open window holds the count and the sum of the last k readings, the sum within k times a bound for one step. Which readings are in the window is C35 and C97, in exact arithmetic."
  }
 ]
}