/-
Axioms used by every property theorem (generated; the build log shows the answers).
-/
import Verif.Props.Accuracy
import Verif.Props.Adc
import Verif.Props.AnyRequest
import Verif.Props.Buffers
import Verif.Props.Callback
import Verif.Props.Cam
import Verif.Props.CamEngine
import Verif.Props.CamEngineDemo
import Verif.Props.CamPulse
import Verif.Props.CamTotal
import Verif.Props.Capture
import Verif.Props.Command
import Verif.Props.CommandDemo
import Verif.Props.CommandEven
import Verif.Props.Config
import Verif.Props.Console
import Verif.Props.CurrentAngle
import Verif.Props.CutRun
import Verif.Props.Cuts
import Verif.Props.Cycle
import Verif.Props.CycleDemo
import Verif.Props.Decoder
import Verif.Props.Describes
import Verif.Props.Dialogue
import Verif.Props.Duty
import Verif.Props.Engine
import Verif.Props.EngineWheel
import Verif.Props.EngineWheelDemo
import Verif.Props.Even
import Verif.Props.EvenEngine
import Verif.Props.EvenEngineDemo
import Verif.Props.EvenFuelDemo
import Verif.Props.EventLog
import Verif.Props.EventTimer
import Verif.Props.Expiry
import Verif.Props.Feed
import Verif.Props.Flash
import Verif.Props.FreeEngine
import Verif.Props.FreeEngineDemo
import Verif.Props.FreeFuelDemo
import Verif.Props.FreeWheel
import Verif.Props.FuelAccuracy
import Verif.Props.Fueling
import Verif.Props.Halt
import Verif.Props.Held
import Verif.Props.Hosted
import Verif.Props.Injection
import Verif.Props.InjectionFull
import Verif.Props.Inputs
import Verif.Props.Interrupts
import Verif.Props.Knock
import Verif.Props.Method
import Verif.Props.Named
import Verif.Props.Port
import Verif.Props.PowerOn
import Verif.Props.PowerOnDemo
import Verif.Props.Pulses
import Verif.Props.PulsesDemo
import Verif.Props.Pwm
import Verif.Props.Rate
import Verif.Props.Reply
import Verif.Props.Request
import Verif.Props.RequestStates
import Verif.Props.Restart
import Verif.Props.Restore
import Verif.Props.Safe
import Verif.Props.Sched
import Verif.Props.SensorAccuracy
import Verif.Props.Sensors
import Verif.Props.Settle
import Verif.Props.Sim
import Verif.Props.Smooth
import Verif.Props.Spark
import Verif.Props.SparkFull
import Verif.Props.SparkWheel
import Verif.Props.Speed
import Verif.Props.Stream
import Verif.Props.Table
import Verif.Props.Tasks
import Verif.Props.TestBench
import Verif.Props.Time
import Verif.Props.TimerRegs
import Verif.Props.Tuning
import Verif.Props.Turn
import Verif.Props.Usb
import Verif.Props.UsbRx
import Verif.Props.UsbTx
import Verif.Props.Util
import Verif.Props.Wheel
import Verif.Props.WheelTotal
import Verif.Props.Window
import Verif.Props.WindowAccuracy
import Verif.Props.WindowRun
import Verif.Props.ZeroWidth

#print axioms Verif.C01_time_before
#print axioms Verif.C01_time_before_or_equal
#print axioms Verif.C01_time_diff
#print axioms Verif.C01_time_in_range
#print axioms Verif.C01_half_wrap_ambiguous
#print axioms Verif.C02_rpm_accuracy
#print axioms Verif.C02_time_from_us_exact
#print axioms Verif.C02_time_from_us_exact_limit
#print axioms Verif.C02_time_from_us_undefined
#print axioms Verif.C02_time_mono_degrees
#print axioms Verif.C02_time_antitone_rpm
#print axioms Verif.C02_rpm_antitone_time
#print axioms Verif.C02_time_from_rpm_diff_accuracy
#print axioms Verif.C02_exact_time
#print axioms Verif.C02_exact_rpm
#print axioms Verif.C02_exact_roundtrip
#print axioms Verif.C02_undefined_at_zero
#print axioms Verif.C03_range
#print axioms Verif.C03_nan
#print axioms Verif.C03_idempotent
#print axioms Verif.C03_terminates
#print axioms Verif.C03_exact
#print axioms Verif.C03_binary32_diverges
#print axioms Verif.C03_inf_diverges
#print axioms Verif.C04_cell_search
#print axioms Verif.C05_below_top_partial
#print axioms Verif.C05_at_top_partial
#print axioms Verif.C05_within_data
#print axioms Verif.C05_full_table_reads_oob
#print axioms Verif.C05_full_false
#print axioms Verif.C05_top_nan
#print axioms Verif.C05_breakpoint
#print axioms Verif.C06_lookup_partial
#print axioms Verif.C06_within_data
#print axioms Verif.C06_full_false
#print axioms Verif.C07_check_total
#print axioms Verif.C07_in_bounds_partial
#print axioms Verif.C07_number_1d_partial
#print axioms Verif.C07_number_2d_partial
#print axioms Verif.C07_default_safe
#print axioms Verif.C07_null_timing
#print axioms Verif.C07_unchecked_tables
#print axioms Verif.C07_null_dwell
#print axioms Verif.C07_empty_axis
#print axioms Verif.C07_accepted_full_axis
#print axioms Verif.C07_accepted_nan_axis
#print axioms Verif.C07_full_false
#print axioms Verif.C08_queue
#print axioms Verif.C08_serves_first
#print axioms Verif.C08_needs_half_wrap
#print axioms Verif.C09_request_never_faults
#print axioms Verif.C09_interrupt_never_faults
#print axioms Verif.C09_at_most_nineteen
#print axioms Verif.C10_partial
#print axioms Verif.C10_hit_is_due
#print axioms Verif.C10_hosted_full_false
#print axioms Verif.C10_compare_full_false
#print axioms Verif.C10_empty_queue_writes_oob
#print axioms Verif.C11_dma_is_path
#print axioms Verif.C11_hosted_is_path
#print axioms Verif.C11_submitted_kept
#print axioms Verif.C11_history
#print axioms Verif.C11_ignition_is_path
#print axioms Verif.C11_fuel_is_path
#print axioms Verif.C12_partial
#print axioms Verif.C12_stop_not_first_partial
#print axioms Verif.C12_fuel
#print axioms Verif.C12_ignition_witness
#print axioms Verif.C12_full_false
#print axioms Verif.C12_zero_width
#print axioms Verif.C13_width
#print axioms Verif.C13_commanded
#print axioms Verif.C14_committed_untouched
#print axioms Verif.C14_partial
#print axioms Verif.C14_no_assert_partial
#print axioms Verif.C14_full_false
#print axioms Verif.C15_ignition_90
#print axioms Verif.C15_fuel_90
#print axioms Verif.C15_min_fire
#print axioms Verif.C15_ignition_180
#print axioms Verif.C15_fuel_180_partial
#print axioms Verif.C15_full_false
#print axioms Verif.C15_fuel_180_full_false
#print axioms Verif.C16_arm
#print axioms Verif.C16_step
#print axioms Verif.C17_invalidate
#print axioms Verif.C17_invalidate_total
#print axioms Verif.C17_schedule_event
#print axioms Verif.C18_full_false
#print axioms Verif.C18_partial
#print axioms Verif.C19_exact
#print axioms Verif.C19_armed_in_time
#print axioms Verif.C19_fired
#print axioms Verif.C19_exactly_once
#print axioms Verif.C19_boot_gap
#print axioms Verif.C20_partial
#print axioms Verif.C20_full_false
#print axioms Verif.C20_permanent
#print axioms Verif.C21_window
#print axioms Verif.C21_list_bound
#print axioms Verif.C21_armed_in_time
#print axioms Verif.C21_exactly_once
#print axioms Verif.C21_order
#print axioms Verif.C21_levels
#print axioms Verif.C22_hysteresis
#print axioms Verif.C22_every_evaluation
#print axioms Verif.C23_cut
#print axioms Verif.C23_idempotent
#print axioms Verif.C23_zero_injections
#print axioms Verif.C23_stale_flag
#print axioms Verif.C24_terms
#print axioms Verif.C24_formula
#print axioms Verif.C24_spec_monotone
#print axioms Verif.C24_spec_injector_flow
#print axioms Verif.C24_monotone
#print axioms Verif.C25_enrichment
#print axioms Verif.C26_call
#print axioms Verif.C26_built_up
#print axioms Verif.C26_largest
#print axioms Verif.C26_running_real_time
#print axioms Verif.C27_pump_partial
#print axioms Verif.C27_total
#print axioms Verif.C27_full_false
#print axioms Verif.C28_severity
#print axioms Verif.C28_light
#print axioms Verif.C28_takes_over
#print axioms Verif.C28_justified
#print axioms Verif.C28_held
#print axioms Verif.C28_goes_dark
#print axioms Verif.C28_total
#print axioms Verif.C29_selection
#print axioms Verif.C29_range
#print axioms Verif.C30_shutdown
#print axioms Verif.C30_total
#print axioms Verif.C31_affine
#print axioms Verif.C31_endpoints
#print axioms Verif.C31_degenerate
#print axioms Verif.C31_min_exact
#print axioms Verif.C31_monotone
#print axioms Verif.C32_substitution
#print axioms Verif.C33_connection_partial
#print axioms Verif.C33_full_false
#print axioms Verif.C34_no_overshoot
#print axioms Verif.C34_no_lag
#print axioms Verif.C34_geometric
#print axioms Verif.C34_update
#print axioms Verif.C35_step
#print axioms Verif.C35_stopped
#print axioms Verif.C35_zero_width_hangs
#print axioms Verif.C35_history
#print axioms Verif.C36_routing
#print axioms Verif.C36_const
#print axioms Verif.C37_power
#print axioms Verif.C37_split
#print axioms Verif.C37_configure
#print axioms Verif.C38_valid_means_sync
#print axioms Verif.C38_loss_clears
#print axioms Verif.C38_fresh
#print axioms Verif.C39_angle_range
#print axioms Verif.C40_tracked_partial
#print axioms Verif.C40_no_fault
#print axioms Verif.C40_full_false
#print axioms Verif.C40_boot_false_sync
#print axioms Verif.C40_wide_tolerance
#print axioms Verif.C41_tracked
#print axioms Verif.C41_acquires
#print axioms Verif.C41_window_needed
#print axioms Verif.C42_phase_partial
#print axioms Verif.C42_kept
#print axioms Verif.C42_gained
#print axioms Verif.C42_full_false
#print axioms Verif.C42_second_pulse
#print axioms Verif.C42_no_fault
#print axioms Verif.C42_acquired
#print axioms Verif.C43_even_armed
#print axioms Verif.C43_missing_armed
#print axioms Verif.C43_expiry_invalidates
#print axioms Verif.C43_watched_partial
#print axioms Verif.C43_full_false
#print axioms Verif.C44_in_bounds
#print axioms Verif.C44_limits_needed
#print axioms Verif.C45_counters
#print axioms Verif.C45_logged
#print axioms Verif.C46_fifo
#print axioms Verif.C46_position
#print axioms Verif.C46_not_lost
#print axioms Verif.C46_dropped_only_when_full
#print axioms Verif.C46_nothing_only_when_empty
#print axioms Verif.C46_delivers_oldest
#print axioms Verif.C47_in_order
#print axioms Verif.C47_completes
#print axioms Verif.C48_every_call
#print axioms Verif.C48_exactly_once
#print axioms Verif.C48_requests_partial
#print axioms Verif.C48_full_false
#print axioms Verif.C48_split_header
#print axioms Verif.C49_set_partial
#print axioms Verif.C49_answered_partial
#print axioms Verif.C49_absent_partial
#print axioms Verif.C49_container_partial
#print axioms Verif.C49_text_partial
#print axioms Verif.C49_full_false
#print axioms Verif.C49_resize_full_false
#print axioms Verif.C49_uint_full_false
#print axioms Verif.C49_negative_full_false
#print axioms Verif.C49_wide_full_false
#print axioms Verif.C49_knock_full_false
#print axioms Verif.C50_get_partial
#print axioms Verif.C50_full_false
#print axioms Verif.C51_get
#print axioms Verif.C51_set
#print axioms Verif.C52_aligned
#print axioms Verif.C52_firmware
#print axioms Verif.C53_exact
#print axioms Verif.C53_all_patterns
#print axioms Verif.C54_order
#print axioms Verif.C55_reading
#print axioms Verif.C55_total
#print axioms Verif.C55_other_pins
#print axioms Verif.C55_volts
#print axioms Verif.C55_valid_tlv2553
#print axioms Verif.C55_update
#print axioms Verif.C55_knock
#print axioms Verif.C56_events_partial
#print axioms Verif.C56_full_false
#print axioms Verif.C56_tracked_partial
#print axioms Verif.C57_test
#print axioms Verif.C57_flat_partial
#print axioms Verif.C57_save_config_unmasked
#print axioms Verif.C57_gd32_full_false
#print axioms Verif.C57_stm32_full_false
#print axioms Verif.C57_hosted
#print axioms Verif.C57_hosted_no_abort
#print axioms Verif.C58_gd32
#print axioms Verif.C58_stm32_partial
#print axioms Verif.C58_stm32_full_false
#print axioms Verif.C58_stm32_exactly
#print axioms Verif.C59_no_fault
#print axioms Verif.C59_shipped
#print axioms Verif.C60_fixed_duty
#print axioms Verif.C60_fixed_duty_accuracy
#print axioms Verif.C60_fixed_time
#print axioms Verif.C60_voltage
#print axioms Verif.C60_reported
#print axioms Verif.C60_stop
#print axioms Verif.C60_one_dwell
#print axioms Verif.C61_nothing_armed
#print axioms Verif.C61_no_new_pulse
#print axioms Verif.C61_pins
#print axioms Verif.C62_answer_partial
#print axioms Verif.C62_full_false
#print axioms Verif.C62_twice_full_false
#print axioms Verif.C63_stm32_partial
#print axioms Verif.C63_gd32_partial
#print axioms Verif.C63_gd32_full_false
#print axioms Verif.C63_stm32_full_false
#print axioms Verif.C64_full_false
#print axioms Verif.C64_gd32_partial
#print axioms Verif.C65_tlv2553_partial
#print axioms Verif.C65_ad7888_wrong
#print axioms Verif.C65_full_false
#print axioms Verif.C65_frequency_false
#print axioms Verif.C66_engine_cam_partial
#print axioms Verif.C66_engine_partial
#print axioms Verif.C66_engine_even_partial
#print axioms Verif.C66_engine_free_partial
#print axioms Verif.C66_crank_partial
#print axioms Verif.C66_cam_partial
#print axioms Verif.C66_full_false
#print axioms Verif.C67_rest_partial
#print axioms Verif.C67_full_false
#print axioms Verif.C68_latest_tooth_partial
#print axioms Verif.C68_even_partial
#print axioms Verif.C68_full_false
#print axioms Verif.C68_cam_stale
#print axioms Verif.C69_gd32_partial
#print axioms Verif.C69_gd32_full_false
#print axioms Verif.C69_gd32_overrun_full_false
#print axioms Verif.C69_stm32_partial
#print axioms Verif.C69_stm32_full_false
#print axioms Verif.C70_inputs_partial
#print axioms Verif.C70_gd32_full_false
#print axioms Verif.C70_gd32_reserved
#print axioms Verif.C70_gd32_freq
#print axioms Verif.C70_stm32_full_false
#print axioms Verif.C71_capture_partial
#print axioms Verif.C71_pulse_partial
#print axioms Verif.C71_first
#print axioms Verif.C71_pulse_times
#print axioms Verif.C71_slow
#print axioms Verif.C71_full_false
#print axioms Verif.C72_pulse_partial
#print axioms Verif.C72_full_false
#print axioms Verif.C73_pin_partial
#print axioms Verif.C73_fuel
#print axioms Verif.C73_rest
#print axioms Verif.C73_boot
#print axioms Verif.C73_full_false
#print axioms Verif.C73_coil_left_on
#print axioms Verif.C73_polarity
#print axioms Verif.C74_stm32
#print axioms Verif.C74_stm32_own
#print axioms Verif.C74_gd32_partial
#print axioms Verif.C74_gd32_full_false
#print axioms Verif.C75_stm32
#print axioms Verif.C75_gd32_partial
#print axioms Verif.C75_gd32_full_false
#print axioms Verif.C75_nan
#print axioms Verif.C75_mono
#print axioms Verif.C75_other
#print axioms Verif.C76_cam_wheel_partial
#print axioms Verif.C76_wheel_partial
#print axioms Verif.C76_even_wheel_partial
#print axioms Verif.C76_free_wheel_partial
#print axioms Verif.C76_armed
#print axioms Verif.C76_spark_partial
#print axioms Verif.C76_full_false
#print axioms Verif.C76_sees
#print axioms Verif.C77_angle_partial
#print axioms Verif.C77_full_false
#print axioms Verif.C77_interrupted_partial
#print axioms Verif.C78_lost_partial
#print axioms Verif.C78_kept
#print axioms Verif.C78_full_false
#print axioms Verif.C79_cam_wheel_partial
#print axioms Verif.C79_wheel_partial
#print axioms Verif.C79_even_wheel_partial
#print axioms Verif.C79_free_wheel_partial
#print axioms Verif.C79_start_partial
#print axioms Verif.C79_end_partial
#print axioms Verif.C79_constant_partial
#print axioms Verif.C79_full_false
#print axioms Verif.C80_inverted_partial
#print axioms Verif.C80_on
#print axioms Verif.C80_stays_on
#print axioms Verif.C80_dwell
#print axioms Verif.C80_fuel
#print axioms Verif.C80_full_false
#print axioms Verif.C81_injector_partial
#print axioms Verif.C81_coil_on
#print axioms Verif.C81_full_false
#print axioms Verif.C81_calls
#print axioms Verif.C82_tables_partial
#print axioms Verif.C82_full_false
#print axioms Verif.C83_restore_partial
#print axioms Verif.C83_others
#print axioms Verif.C83_full_false
#print axioms Verif.C84_get
#print axioms Verif.C84_set
#print axioms Verif.C84_feed
#print axioms Verif.C85_effects
#print axioms Verif.C85_carried_out
#print axioms Verif.C86_cam_fires
#print axioms Verif.C86_cam_once
#print axioms Verif.C86_fires
#print axioms Verif.C86_once
#print axioms Verif.C86_even_fires
#print axioms Verif.C86_even_once
#print axioms Verif.C86_free_fires
#print axioms Verif.C86_free_once
#print axioms Verif.C87_whole
#print axioms Verif.C87_answered_partial
#print axioms Verif.C87_reads_partial
#print axioms Verif.C87_bootloader_full_false
#print axioms Verif.C87_full_false
#print axioms Verif.C87_set_full_false
#print axioms Verif.C88_describes
#print axioms Verif.C89_stream
#print axioms Verif.C89_messages
#print axioms Verif.C89_goes_on
#print axioms Verif.C90_dialogue
#print axioms Verif.C90_read_back
#print axioms Verif.C91_never_forgotten
#print axioms Verif.C91_not_early_partial
#print axioms Verif.C91_full_false
#print axioms Verif.C91_idle_full_false
#print axioms Verif.C92_cam_fires
#print axioms Verif.C92_cam_once
#print axioms Verif.C92_even_fires
#print axioms Verif.C92_even_once
#print axioms Verif.C92_free_fires
#print axioms Verif.C92_free_once
#print axioms Verif.C92_fires
#print axioms Verif.C92_once
#print axioms Verif.C93_listens_partial
#print axioms Verif.C93_deaf
#print axioms Verif.C93_full_false
#print axioms Verif.C94_skipped
#print axioms Verif.C94_callback
#print axioms Verif.C94_armed_partial
#print axioms Verif.C94_full_false
#print axioms Verif.C95_request
#print axioms Verif.C95_runs
#print axioms Verif.C95_stopped
#print axioms Verif.C95_speed
#print axioms Verif.C96_delivered_partial
#print axioms Verif.C96_ends_partial
#print axioms Verif.C96_fifo
#print axioms Verif.C96_full_false
#print axioms Verif.C97_mean_partial
#print axioms Verif.C97_reads
#print axioms Verif.C97_frozen
#print axioms Verif.C97_full_false
#print axioms Verif.C98_end
#print axioms Verif.C98_tables_partial
#print axioms Verif.C98_get
#print axioms Verif.C98_one_partial
#print axioms Verif.C98_others_partial
#print axioms Verif.C98_full_false
#print axioms Verif.C99_partial
#print axioms Verif.C99_given_partial
#print axioms Verif.C99_armed_partial
#print axioms Verif.C99_full_false
#print axioms Verif.C99_overrun_full_false
#print axioms Verif.C100_tooth
#print axioms Verif.C100_no_new_pulse
#print axioms Verif.C100_pins
#print axioms Verif.C101_coil_free
#print axioms Verif.C101_injector_free
#print axioms Verif.C101_coil
#print axioms Verif.C101_coil_cam
#print axioms Verif.C101_coil_even
#print axioms Verif.C101_injector
#print axioms Verif.C101_injector_cam
#print axioms Verif.C101_injector_even
#print axioms Verif.C102_stuck
#print axioms Verif.C102_required
#print axioms Verif.C102_gains_partial
#print axioms Verif.C102_full_false
#print axioms Verif.C102_wide_false
#print axioms Verif.C103_sparks
#print axioms Verif.C103_sparks_once
#print axioms Verif.C103_coil
#print axioms Verif.C103_injects
#print axioms Verif.C103_injects_once
#print axioms Verif.C103_injector
#print axioms Verif.C103_cam_sparks
#print axioms Verif.C103_cam_sparks_once
#print axioms Verif.C103_cam_coil
#print axioms Verif.C103_cam_injects
#print axioms Verif.C103_cam_injects_once
#print axioms Verif.C103_cam_injector
#print axioms Verif.C103_even_sparks
#print axioms Verif.C103_even_sparks_once
#print axioms Verif.C103_even_coil
#print axioms Verif.C103_even_injects
#print axioms Verif.C103_even_injects_once
#print axioms Verif.C103_even_injector
#print axioms Verif.C103_free_sparks
#print axioms Verif.C103_free_sparks_once
#print axioms Verif.C103_free_coil
#print axioms Verif.C103_free_injects
#print axioms Verif.C103_free_injects_once
#print axioms Verif.C103_free_injector
#print axioms Verif.C104_sparks
#print axioms Verif.C104_sparks_once
#print axioms Verif.C104_coil
#print axioms Verif.C104_injects
#print axioms Verif.C104_injects_once
#print axioms Verif.C104_injector
#print axioms Verif.C105_line
#print axioms Verif.C105_surface
#print axioms Verif.C105_line_range
#print axioms Verif.C105_surface_range
#print axioms Verif.C105_advance
#print axioms Verif.C105_dwell
#print axioms Verif.C106_volume
#print axioms Verif.C106_pulse
#print axioms Verif.C107_linear
#print axioms Verif.C107_history
#print axioms Verif.C107_range
#print axioms Verif.C107_rate
#print axioms Verif.C108_line
#print axioms Verif.C108_rising
#print axioms Verif.C108_surface
#print axioms Verif.C108_advance
#print axioms Verif.C109_settles_partial
#print axioms Verif.C109_full_false
#print axioms Verif.C110_mean
