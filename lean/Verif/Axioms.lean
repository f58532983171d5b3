import Verif.Props.Basic
import Verif.Props.BasicRun
import Verif.Props.Basin
import Verif.Props.Calendar
import Verif.Props.CallModules
import Verif.Props.Chem
import Verif.Props.Climate
import Verif.Props.CmdLine
import Verif.Props.Control
import Verif.Props.DataLine
import Verif.Props.Elements
import Verif.Props.EndPer
import Verif.Props.FString
import Verif.Props.Formula
import Verif.Props.Growth
import Verif.Props.IPhreeqc
import Verif.Props.Intcp
import Verif.Props.Lines
import Verif.Props.Mms
import Verif.Props.NameDouble
import Verif.Props.ObsChem
import Verif.Props.Output
import Verif.Props.ParFile
import Verif.Props.Params
import Verif.Props.Precip
import Verif.Props.Reservoir
import Verif.Props.Route
import Verif.Props.SelOut
import Verif.Props.Snow
import Verif.Props.Solar
import Verif.Props.SolnNum
import Verif.Props.Soltab
import Verif.Props.StorageBinList
import Verif.Props.Summary
import Verif.Props.SummaryBasin
import Verif.Props.SummaryStep
import Verif.Props.Tables
import Verif.Props.Tally
import Verif.Props.TimeLoop
import Verif.Props.Top2c
import Verif.Props.Topmod
import Verif.Props.Transport
import Verif.Props.TransportBasin
import Verif.Props.TransportChem
import Verif.Props.TransportLog
import Verif.Props.TransportMru
import Verif.Props.TransportRiver
import Verif.Props.TspCompare
import Verif.Props.TspControl
import Verif.Props.TspDate
import Verif.Props.TspEquation
import Verif.Props.TspFilter
import Verif.Props.TspGage
import Verif.Props.TspHysep
import Verif.Props.TspInterp
import Verif.Props.TspNames
import Verif.Props.TspPeak
import Verif.Props.TspPeriod
import Verif.Props.TspSample
import Verif.Props.TspSort
import Verif.Props.TspStat
import Verif.Props.TspStatvar
import Verif.Props.TspText
import Verif.Props.TspTransform
import Verif.Props.TspUfore
import Verif.Props.TspUniform
import Verif.Props.VarFile
/-
Axioms of every property theorem (generated by tools/mkmanifest.py).
Expected: at most propext, Classical.choice, Quot.sound.
-/
#print axioms Verif.Calendar.C01_consecutive
#print axioms Verif.Calendar.C01_order
#print axioms Verif.Calendar.C01_injective
#print axioms Verif.Calendar.C01_anchor
#print axioms Verif.Calendar.C02_range
#print axioms Verif.Calendar.C02_step
#print axioms Verif.Calendar.C02_one_iff
#print axioms Verif.Calendar.C02_year1_undefined
#print axioms Verif.Calendar.C03_leap
#print axioms Verif.Calendar.C03_rule
#print axioms Verif.Calendar.C03_weekday
#print axioms Verif.Calendar.C03_weekday_anchor
#print axioms Verif.Params.C04_params_keys
#print axioms Verif.Params.C04_params_sorted
#print axioms Verif.Tables.C04_sort
#print axioms Verif.Tables.C04_dims
#print axioms Verif.Tables.C04_vars_partial
#print axioms Verif.Tables.C05_lookup
#print axioms Verif.Tables.C05_after_history
#print axioms Verif.Tables.C06_violated
#print axioms Verif.Tables.C06_violated_always
#print axioms Verif.Tables.C06_rejected_partial
#print axioms Verif.Tables.C07_getdim
#print axioms Verif.Tables.C07_fixed_violated
#print axioms Verif.Tables.C07_fixed_rejected_violated
#print axioms Verif.Tables.C07_fixed_partial
#print axioms Verif.Params.C08_decode
#print axioms Verif.Params.C08_reject
#print axioms Verif.Params.C08_empty_uninitialised
#print axioms Verif.Params.C09_accepted_partial
#print axioms Verif.Params.C09_nan_violated
#print axioms Verif.Params.C09_unknown_type_violated
#print axioms Verif.Params.C10_resize_partial
#print axioms Verif.Params.C10_unused
#print axioms Verif.Params.C10_from_zero_violated
#print axioms Verif.Params.C10_to_zero_violated
#print axioms Verif.Params.C10_square_violated
#print axioms Verif.Params.C10_reset_dim_partial
#print axioms Verif.ObsChem.C100_run
#print axioms Verif.ObsChem.C101_malformed_violated
#print axioms Verif.ObsChem.C101_short_violated
#print axioms Verif.ObsChem.C101_sources_violated
#print axioms Verif.ObsChem.C102_uses_partial
#print axioms Verif.ObsChem.C102_samples_violated
#print axioms Verif.Reservoir.C103_step
#print axioms Verif.Reservoir.C103_snow_partial
#print axioms Verif.Reservoir.C103_run
#print axioms Verif.Reservoir.C103_composite
#print axioms Verif.Reservoir.C103_paths
#print axioms Verif.Reservoir.C104_step
#print axioms Verif.Reservoir.C104_run
#print axioms Verif.Reservoir.C104_modules
#print axioms Verif.Reservoir.C104_litre_violated
#print axioms Verif.Reservoir.C105_step_partial
#print axioms Verif.Reservoir.C105_saturated
#print axioms Verif.Reservoir.C105_canopy_partial
#print axioms Verif.Reservoir.C105_run_partial
#print axioms Verif.Reservoir.C105_canopy_run_partial
#print axioms Verif.Reservoir.C105_initial
#print axioms Verif.Reservoir.C105_leaf_fall_violated
#print axioms Verif.Reservoir.C106_step_partial
#print axioms Verif.Reservoir.C106_run_partial
#print axioms Verif.Reservoir.C106_loss_violated
#print axioms Verif.Reservoir.C106_start_partial
#print axioms Verif.Reservoir.C106_start_violated
#print axioms Verif.Reservoir.C107_report
#print axioms Verif.Reservoir.C108_places
#print axioms Verif.Reservoir.C108_names_partial
#print axioms Verif.Reservoir.C108_summary_violated
#print axioms Verif.Reservoir.C108_no_solutes_violated
#print axioms Verif.Reservoir.C108_units_violated
#print axioms Verif.Summary.C109_totals
#print axioms Verif.Summary.C109_extremes
#print axioms Verif.Summary.C109_detail
#print axioms Verif.Summary.C109_table
#print axioms Verif.Summary.C109_chem
#print axioms Verif.Summary.C109_no_outflow_violated
#print axioms Verif.Summary.C109_step
#print axioms Verif.Summary.C109_step_chem
#print axioms Verif.Summary.C109_objective
#print axioms Verif.Params.C11_bounded
#print axioms Verif.Summary.C110_step
#print axioms Verif.Summary.C110_run
#print axioms Verif.Summary.C110_storage
#print axioms Verif.Summary.C110_table_violated
#print axioms Verif.Summary.C110_loss_violated
#print axioms Verif.Summary.C111_switches
#print axioms Verif.Summary.C111_rows
#print axioms Verif.Summary.C111_daily
#print axioms Verif.Summary.C111_day_step
#print axioms Verif.Summary.C111_dtinit_violated
#print axioms Verif.Summary.C111_chem_daily_violated
#print axioms Verif.Summary.C112_flow_violated
#print axioms Verif.Summary.C112_explanation_violated
#print axioms Verif.Summary.C112_detail
#print axioms Verif.Summary.C112_initial
#print axioms Verif.Summary.C112_table
#print axioms Verif.Summary.C112_table_head_violated
#print axioms Verif.Summary.C112_chem_partial
#print axioms Verif.Summary.C112_outlet_violated
#print axioms Verif.Transport.C113_unit_partial
#print axioms Verif.Transport.C114_unit_partial
#print axioms Verif.Transport.C114_bypass_violated
#print axioms Verif.Transport.C114_recharge_violated
#print axioms Verif.Transport.C114_rise_violated
#print axioms Verif.Transport.C114_pulse_violated
#print axioms Verif.Transport.C114_empty_violated
#print axioms Verif.Transport.C114_canopy_violated
#print axioms Verif.Transport.C114_leaves_violated
#print axioms Verif.Transport.C115_routed
#print axioms Verif.Transport.C115_volumes
#print axioms Verif.Transport.C115_conserved_partial
#print axioms Verif.Transport.C115_taken_violated
#print axioms Verif.Transport.C116_step_partial
#print axioms Verif.Transport.C116_tight_partial
#print axioms Verif.Transport.C116_run_partial
#print axioms Verif.Transport.C116_taken_violated
#print axioms Verif.Transport.C117_unit_partial
#print axioms Verif.Transport.C117_balance_partial
#print axioms Verif.Transport.C117_reaction_violated
#print axioms Verif.Transport.C117_atmosphere_violated
#print axioms Verif.Transport.C117_path_violated
#print axioms Verif.Transport.C118_step_partial
#print axioms Verif.Transport.C118_run_partial
#print axioms Verif.Transport.C118_path_violated
#print axioms Verif.Transport.C118_rain_violated
#print axioms Verif.Transport.C119_step_partial
#print axioms Verif.Transport.C119_run_partial
#print axioms Verif.Transport.C119_even_partial
#print axioms Verif.Transport.C119_reaction_violated
#print axioms Verif.Transport.C119_path_violated
#print axioms Verif.Params.C12_accept_partial
#print axioms Verif.Params.C12_offset
#print axioms Verif.Params.C12_injective
#print axioms Verif.Params.C12_surjective
#print axioms Verif.Params.C12_parentheses_violated
#print axioms Verif.Params.C12_parentheses_never
#print axioms Verif.Transport.C120_step_partial
#print axioms Verif.Transport.C120_run_partial
#print axioms Verif.Transport.C120_even_partial
#print axioms Verif.Transport.C120_taken_violated
#print axioms Verif.Basic.C121_value_partial
#print axioms Verif.Basic.C121_ends
#print axioms Verif.Basic.C121_consumes
#print axioms Verif.Basic.C121_not_violated
#print axioms Verif.Basic.C121_minus_violated
#print axioms Verif.Basic.C121_power_violated
#print axioms Verif.Basic.C121_mod_violated
#print axioms Verif.Basic.C121_and_violated
#print axioms Verif.Basic.C122_kept
#print axioms Verif.Basic.C122_order
#print axioms Verif.Basic.C122_found
#print axioms Verif.Basic.C123_runs_partial
#print axioms Verif.Basic.C123_forever_partial
#print axioms Verif.Basic.C123_bound
#print axioms Verif.Basic.C123_call
#print axioms Verif.Basic.C123_unnamed_violated
#print axioms Verif.Tsp.C124_consecutive
#print axioms Verif.Tsp.C124_anchor
#print axioms Verif.Tsp.C124_inverse
#print axioms Verif.Tsp.C124_onto
#print axioms Verif.Tsp.C124_newdate
#print axioms Verif.Tsp.C124_back
#print axioms Verif.Tsp.C124_numdays
#print axioms Verif.Tsp.C124_between
#print axioms Verif.Tsp.C124_year
#print axioms Verif.Tsp.C124_doy
#print axioms Verif.Tsp.C124_month
#print axioms Verif.Tsp.C124_zero_violated
#print axioms Verif.Tsp.C124_water
#print axioms Verif.Tsp.C125_sorts
#print axioms Verif.Tsp.C125_order
#print axioms Verif.Tsp.C125_canonical
#print axioms Verif.Tsp.C126_median
#print axioms Verif.Tsp.C126_half
#print axioms Verif.Tsp.C126_rank
#print axioms Verif.Tsp.C126_middle
#print axioms Verif.Tsp.C126_monotone
#print axioms Verif.Tsp.C126_upper
#print axioms Verif.Tsp.C126_lower_partial
#print axioms Verif.Tsp.C126_low_violated
#print axioms Verif.Tsp.C126_duration_violated
#print axioms Verif.Tsp.C126_scalar_violated
#print axioms Verif.Tsp.C126_exceed
#print axioms Verif.Tsp.C126_table
#print axioms Verif.Tsp.C126_period_violated
#print axioms Verif.Tsp.C126_period_witness_violated
#print axioms Verif.Tsp.C127_reduce
#print axioms Verif.Tsp.C127_statistics
#print axioms Verif.Tsp.C127_median_violated
#print axioms Verif.Tsp.C128_volume
#print axioms Verif.Tsp.C128_additive
#print axioms Verif.Tsp.C128_bounds
#print axioms Verif.Tsp.C128_last_violated
#print axioms Verif.Tsp.C128_second_violated
#print axioms Verif.Tsp.C128_months
#print axioms Verif.Tsp.C128_annual_violated
#print axioms Verif.Tsp.C128_last_witness_violated
#print axioms Verif.Tsp.C128_first_witness_violated
#print axioms Verif.Tsp.C129_base
#print axioms Verif.Tsp.C129_span
#print axioms Verif.Tsp.C129_unique
#print axioms Verif.Params.C13_round_trip_partial
#print axioms Verif.Params.C13_too_small
#print axioms Verif.Params.C13_long64_violated
#print axioms Verif.Params.C13_storage_violated
#print axioms Verif.Params.C13_three_dims_copy_nothing
#print axioms Verif.Tsp.C130_duration_partial
#print axioms Verif.Tsp.C130_unique
#print axioms Verif.Tsp.C130_monotone
#print axioms Verif.Tsp.C130_total
#print axioms Verif.Tsp.C130_months_violated
#print axioms Verif.Hysep.C131_interval
#print axioms Verif.Hysep.C131_half_partial
#print axioms Verif.Hysep.C131_half_violated
#print axioms Verif.Hysep.C131_sliding_partial
#print axioms Verif.Hysep.C131_sliding_bounds_partial
#print axioms Verif.Hysep.C131_sliding_missing_violated
#print axioms Verif.Hysep.C131_sliding_short_violated
#print axioms Verif.Hysep.C131_sliding_large_violated
#print axioms Verif.Hysep.C131_fixed_partial
#print axioms Verif.Hysep.C131_fixed_bounds_partial
#print axioms Verif.Hysep.C131_fixed_short_violated
#print axioms Verif.Hysep.C131_fixed_end_violated
#print axioms Verif.Hysep.C131_locmin_flow
#print axioms Verif.Hysep.C131_locmin_between_partial
#print axioms Verif.Hysep.C131_locmin_minimum_partial
#print axioms Verif.Hysep.C131_locmin_ends_partial
#print axioms Verif.Hysep.C131_locmin_none_violated
#print axioms Verif.Hysep.C131_locmin_short_violated
#print axioms Verif.Hysep.C131_locmin_unassigned_violated
#print axioms Verif.TspEq.C132_equation_value_partial
#print axioms Verif.TspEq.C132_sign_before_power_violated
#print axioms Verif.TspEq.C132_towers_violated
#print axioms Verif.Tsp.C133_moving_minimum_partial
#print axioms Verif.Tsp.C133_moving_minimum_large_violated
#print axioms Verif.Tsp.C133_moving_refused
#print axioms Verif.Tsp.C133_moving_lowest_partial
#print axioms Verif.Tsp.C133_moving_lowest_one_violated
#print axioms Verif.Tsp.C133_difference_partial
#print axioms Verif.Tsp.C133_base_level
#print axioms Verif.Tsp.C133_clean_refused
#print axioms Verif.Tsp.C133_clean_substitute
#print axioms Verif.Tsp.C133_clean_delete
#print axioms Verif.Tsp.C133_displace_refused_partial
#print axioms Verif.Tsp.C133_displace
#print axioms Verif.Tsp.C133_displace_sentinel_violated
#print axioms Verif.Tsp.C134_period
#print axioms Verif.Tsp.C134_time_without_date
#print axioms Verif.Tsp.C134_open
#print axioms Verif.Tsp.C134_default_violated
#print axioms Verif.Tsp.C134_uniform_partial
#print axioms Verif.Tsp.C134_uniform_refused
#print axioms Verif.Tsp.C134_uniform_midnight_violated
#print axioms Verif.Tsp.C134_centre
#print axioms Verif.Tsp.C134_volumes
#print axioms Verif.Tsp.C135_rows
#print axioms Verif.Tsp.C135_base
#print axioms Verif.Tsp.C135_two_violated
#print axioms Verif.Tsp.C135_bias
#print axioms Verif.Tsp.C135_relative_bias_partial
#print axioms Verif.Tsp.C135_relative_bias_violated
#print axioms Verif.Tsp.C135_standard_error
#print axioms Verif.Tsp.C135_nash
#print axioms Verif.Tsp.C135_relative_error
#print axioms Verif.Tsp.C135_coefficient
#print axioms Verif.Tsp.C135_coefficient_nash
#print axioms Verif.Tsp.C135_agreement
#print axioms Verif.Tsp.C135_volumetric_partial
#print axioms Verif.Tsp.C135_volumetric_violated
#print axioms Verif.Tsp.C136_case
#print axioms Verif.Tsp.C136_unique_partial
#print axioms Verif.Tsp.C136_elements
#print axioms Verif.Tsp.C136_create
#print axioms Verif.Tsp.C136_create_refused
#print axioms Verif.Tsp.C136_erase_partial
#print axioms Verif.Tsp.C136_reuse
#print axioms Verif.Tsp.C136_double_violated
#print axioms Verif.Tsp.C136_g_table_violated
#print axioms Verif.Tsp.C136_c_table_violated
#print axioms Verif.Tsp.C136_compare_violated
#print axioms Verif.Tsp.C136_twice_violated
#print axioms Verif.Tsp.C137_checks
#print axioms Verif.Tsp.C137_accepted
#print axioms Verif.Tsp.C137_refused
#print axioms Verif.Tsp.C137_stages
#print axioms Verif.Tsp.C137_reverse
#print axioms Verif.Tsp.C137_design
#print axioms Verif.Tsp.C137_design_band
#print axioms Verif.Tsp.C137_constant
#print axioms Verif.Tsp.C137_linear
#print axioms Verif.Tsp.C137_causal
#print axioms Verif.Tsp.C137_settles
#print axioms Verif.Tsp.C137_real
#print axioms Verif.Tsp.C137_quick
#print axioms Verif.Tsp.C137_clip
#print axioms Verif.Tsp.C137_quick_constant_violated
#print axioms Verif.Tsp.C137_alpha_violated
#print axioms Verif.Tsp.C138_periods_partial
#print axioms Verif.Tsp.C138_month_one_partial
#print axioms Verif.Tsp.C138_defined
#print axioms Verif.Tsp.C138_centre_violated
#print axioms Verif.Tsp.C138_merge_violated
#print axioms Verif.Tsp.C138_transform_violated
#print axioms Verif.Tsp.C138_median_violated
#print axioms Verif.Tsp.C139_peaks
#print axioms Verif.Tsp.C139_dominated_partial
#print axioms Verif.Tsp.C139_separate
#print axioms Verif.Tsp.C139_series
#print axioms Verif.Tsp.C139_time_violated
#print axioms Verif.Tsp.C139_event_partial
#print axioms Verif.Tsp.C139_end_violated
#print axioms Verif.Tsp.C139_disjoint
#print axioms Verif.Tsp.C139_truncated_violated
#print axioms Verif.Tsp.C139_start_violated
#print axioms Verif.Tsp.C139_last_violated
#print axioms Verif.Tsp.C139_overlap_violated
#print axioms Verif.Tsp.C139_overflow_violated
#print axioms Verif.Control.C14_reads_partial
#print axioms Verif.Control.C14_overrun_violated
#print axioms Verif.Control.C14_terminates
#print axioms Verif.Control.C14_size_violated
#print axioms Verif.Control.C14_last_line_violated
#print axioms Verif.Control.C14_double_slash_violated
#print axioms Verif.Control.C14_set_option
#print axioms Verif.Control.C14_set_overrun_violated
#print axioms Verif.Soltab.C140_days
#print axioms Verif.Soltab.C140_angles
#print axioms Verif.Soltab.C140_entries
#print axioms Verif.Soltab.C140_sunset
#print axioms Verif.Soltab.C140_integral
#print axioms Verif.Soltab.C140_level
#print axioms Verif.Soltab.C140_level_positive
#print axioms Verif.Soltab.C140_lengthen
#print axioms Verif.Soltab.C140_parallel
#print axioms Verif.Soltab.C140_inclined_partial
#print axioms Verif.Soltab.C140_hours_violated
#print axioms Verif.TspCtl.C141_blocks
#print axioms Verif.TspCtl.C141_only
#print axioms Verif.TspCtl.C141_settings_first
#print axioms Verif.TspCtl.C141_bad_header
#print axioms Verif.TspCtl.C141_override_violated
#print axioms Verif.TspCtl.C141_swallow_violated
#print axioms Verif.TspCtl.C141_empty_violated
#print axioms Verif.TspCtl.C141_truncated_violated
#print axioms Verif.TspCtl.C141_context_needed
#print axioms Verif.TspCtl.C141_titles
#print axioms Verif.TspCtl.C141_case
#print axioms Verif.TspText.C142_date
#print axioms Verif.TspText.C142_date_real
#print axioms Verif.TspText.C142_other_order
#print axioms Verif.TspText.C142_time
#print axioms Verif.TspText.C142_time_real
#print axioms Verif.TspText.C142_instant
#print axioms Verif.TspText.C142_date_again
#print axioms Verif.TspText.C142_time_again
#print axioms Verif.TspText.C142_sample_again
#print axioms Verif.TspText.C142_sample_midnight_violated
#print axioms Verif.TspText.C142_cut_violated
#print axioms Verif.TspText.C142_year_zero_violated
#print axioms Verif.TspText.C142_far_violated
#print axioms Verif.TspText.C142_signs
#print axioms Verif.TspSsf.C143_many
#print axioms Verif.TspSsf.C143_fits
#print axioms Verif.TspSsf.C143_only
#print axioms Verif.TspSsf.C143_one
#print axioms Verif.TspSsf.C143_one_violated
#print axioms Verif.TspSsf.C143_unordered_violated
#print axioms Verif.TspSsf.C143_mark_violated
#print axioms Verif.TspSsf.C143_names_violated
#print axioms Verif.TspSsf.C143_case
#print axioms Verif.TspSsf.C143_short
#print axioms Verif.TspStv.C144_block
#print axioms Verif.TspStv.C144_general
#print axioms Verif.TspStv.C144_exact
#print axioms Verif.TspStv.C144_errors
#print axioms Verif.TspStv.C144_absent
#print axioms Verif.TspStv.C144_fits
#print axioms Verif.TspStv.C144_missing_violated
#print axioms Verif.TspStv.C144_case
#print axioms Verif.TspStv.C144_names_violated
#print axioms Verif.TspStv.C144_unordered_violated
#print axioms Verif.Growth.C145_alloc
#print axioms Verif.Growth.C145_add
#print axioms Verif.Growth.C145_grow
#print axioms Verif.Growth.C145_resize_violated
#print axioms Verif.Growth.C145_update
#print axioms Verif.Growth.C145_umalloc
#print axioms Verif.Growth.C145_ucalloc_violated
#print axioms Verif.Growth.C145_base
#print axioms Verif.Growth.C145_modules
#print axioms Verif.Growth.C145_modules_same
#print axioms Verif.Growth.C145_connections
#print axioms Verif.TspUfore.C146_all
#print axioms Verif.TspUfore.C146_short
#print axioms Verif.TspUfore.C146_errors
#print axioms Verif.TspUfore.C146_period
#print axioms Verif.TspUfore.C146_short_period
#print axioms Verif.TspUfore.C146_overflow_violated
#print axioms Verif.TspUfore.C146_step_violated
#print axioms Verif.TspGage.C147_clock
#print axioms Verif.TspGage.C147_general
#print axioms Verif.TspGage.C147_exact
#print axioms Verif.TspGage.C147_absent
#print axioms Verif.TspGage.C147_errors
#print axioms Verif.TspGage.C147_value_errors
#print axioms Verif.TspGage.C147_time_violated
#print axioms Verif.TspGage.C147_names_violated
#print axioms Verif.ParFile.C15_violated
#print axioms Verif.ParFile.C15_lines_partial
#print axioms Verif.ParFile.C15_desc_violated
#print axioms Verif.VarFile.C16_restore_partial
#print axioms Verif.VarFile.C16_mismatch
#print axioms Verif.VarFile.C16_dims
#print axioms Verif.VarFile.C16_any_text
#print axioms Verif.VarFile.C16_untouched
#print axioms Verif.VarFile.C16_no_file
#print axioms Verif.VarFile.C16_now_violated
#print axioms Verif.VarFile.C16_info_violated
#print axioms Verif.VarFile.C16_zero_dims_violated
#print axioms Verif.VarFile.C16_key_violated
#print axioms Verif.TimeLoop.C17_sound
#print axioms Verif.TimeLoop.C17_steps
#print axioms Verif.TimeLoop.C17_malformed_violated
#print axioms Verif.TimeLoop.C17_blank_violated
#print axioms Verif.TimeLoop.C18_merge_partial
#print axioms Verif.TimeLoop.C18_first_file_ends_violated
#print axioms Verif.TimeLoop.C18_closed_file_violated
#print axioms Verif.TimeLoop.C18_same_day_violated
#print axioms Verif.CallModules.C19_phase
#print axioms Verif.CallModules.C19_program_partial
#print axioms Verif.CallModules.C19_routines
#print axioms Verif.CallModules.C19_blank
#print axioms Verif.CallModules.C19_name_mode
#print axioms Verif.CallModules.C19_mode_violated
#print axioms Verif.CallModules.C19_empty_mode_violated
#print axioms Verif.CallModules.C19_name_mode_violated
#print axioms Verif.CallModules.C19_declare_error_violated
#print axioms Verif.EndPer.C20_decode
#print axioms Verif.EndPer.C20_encode
#print axioms Verif.EndPer.C20_run_partial
#print axioms Verif.EndPer.C20_calendar
#print axioms Verif.EndPer.C20_day_violated
#print axioms Verif.EndPer.C20_gap_violated
#print axioms Verif.IPq.C21_unique_partial
#print axioms Verif.IPq.C21_isolated_partial
#print axioms Verif.IPq.C21_bad_instance_partial
#print axioms Verif.IPq.C21_answer_partial
#print axioms Verif.IPq.C21_wrap_violated
#print axioms Verif.IPq.C22_lines
#print axioms Verif.IPq.C22_run
#print axioms Verif.SelOut.C23_rectangular
#print axioms Verif.SelOut.C23_get
#print axioms Verif.SelOut.C23_counts
#print axioms Verif.SelOut.C23_bad_variable
#print axioms Verif.SelOut.C24_restored
#print axioms Verif.IPq.C25_captured_partial
#print axioms Verif.IPq.C25_lost_violated
#print axioms Verif.IPq.C25_extra_violated
#print axioms Verif.IPq.C25_message_violated
#print axioms Verif.Sbl.C26_ranges
#print axioms Verif.Sbl.C26_everything_kept
#print axioms Verif.Sbl.C26_delete_partial
#print axioms Verif.Sbl.C26_mixed_violated
#print axioms Verif.Sbl.C26_out_of_range_violated
#print axioms Verif.Sbl.C26_largest_violated
#print axioms Verif.Sbl.C26_copy_partial
#print axioms Verif.Sbl.C26_copy_targets
#print axioms Verif.Sbl.C26_copy_zero_violated
#print axioms Verif.Sbl.C26_copy_endless_violated
#print axioms Verif.Nd.C27_dictionary
#print axioms Verif.Nd.C27_roundtrip_partial
#print axioms Verif.Nd.C27_empty_name_violated
#print axioms Verif.Nd.C27_long_word_violated
#print axioms Verif.Nd.C27_newline_violated
#print axioms Verif.Nd.C28_add
#print axioms Verif.Nd.C28_sum
#print axioms Verif.Nd.C28_order
#print axioms Verif.Nd.C28_multiply
#print axioms Verif.Nd.C28_mixture
#print axioms Verif.Nd.C28_reaction_mixture
#print axioms Verif.Nd.C28_zero_violated
#print axioms Verif.Nd.C28_scale_partial
#print axioms Verif.Nd.C29_simplify_partial
#print axioms Verif.Nd.C29_total
#print axioms Verif.Nd.C29_activities
#print axioms Verif.Nd.C29_order_violated
#print axioms Verif.Nd.C29_merge_partial
#print axioms Verif.Nd.C29_merge_violated
#print axioms Verif.Lines.C30_line_ends
#print axioms Verif.Lines.C30_logical_partial
#print axioms Verif.Lines.C30_read_partial
#print axioms Verif.Lines.C30_plain_partial
#print axioms Verif.Lines.C30_kind
#print axioms Verif.Lines.C30_include_line
#print axioms Verif.Lines.C30_semicolon_violated
#print axioms Verif.Lines.C30_comment_violated
#print axioms Verif.Lines.C30_include_violated
#print axioms Verif.Lines.C30_echo_violated
#print axioms Verif.Tally.C31_table
#print axioms Verif.Tally.C31_refused
#print axioms Verif.Tally.C31_columns
#print axioms Verif.Tally.C31_overlap_violated
#print axioms Verif.Tally.C31_alternative_formula_violated
#print axioms Verif.Tally.C31_kinetics_formula_violated
#print axioms Verif.Mms.C32_request_partial
#print axioms Verif.Mms.C32_evaporation_partial
#print axioms Verif.Mms.C32_fill
#print axioms Verif.Mms.C32_temperature_violated
#print axioms Verif.Mms.C32_missing_violated
#print axioms Verif.Mms.C32_negative_violated
#print axioms Verif.FString.C33_pad
#print axioms Verif.FString.C33_length
#print axioms Verif.FString.C33_to_library
#print axioms Verif.FString.C33_roundtrip
#print axioms Verif.FString.C33_roundtrip_f2c_partial
#print axioms Verif.FString.C33_nonascii_violated
#print axioms Verif.FString.C33_selected_output
#print axioms Verif.SolnNum.C34_unique
#print axioms Verif.SolnNum.C34_range
#print axioms Verif.SolnNum.C34_table
#print axioms Verif.SolnNum.C35_indices
#print axioms Verif.SolnNum.C35_inside
#print axioms Verif.SolnNum.C35_time
#print axioms Verif.SolnNum.C35_unique
#print axioms Verif.SolnNum.C35_table_fits
#print axioms Verif.SolnNum.C35_contents_partial
#print axioms Verif.SolnNum.C35_chemvar_partial
#print axioms Verif.SolnNum.C35_chemvar
#print axioms Verif.SolnNum.C35_reactants_partial
#print axioms Verif.SolnNum.C35_bins_violated
#print axioms Verif.SolnNum.C35_reactants_violated
#print axioms Verif.SolnNum.C35_combined_violated
#print axioms Verif.Intcp.C36_intercept
#print axioms Verif.Intcp.C36_step_partial
#print axioms Verif.Intcp.C36_history_partial
#print axioms Verif.Intcp.C36_storage
#print axioms Verif.Intcp.C36_leaf_fall_violated
#print axioms Verif.Intcp.C36_grass_violated
#print axioms Verif.Snow.C37_day
#print axioms Verif.Snow.C37_range
#print axioms Verif.Snow.C37_defined_partial
#print axioms Verif.Snow.C37_run_partial
#print axioms Verif.Snow.C37_initial
#print axioms Verif.Snow.C37_nexlag_violated
#print axioms Verif.Snow.C37_start_violated
#print axioms Verif.Topmod.C38_never_stops
#print axioms Verif.Topmod.C38_step_partial
#print axioms Verif.Topmod.C38_tolerance
#print axioms Verif.Topmod.C38_range_partial
#print axioms Verif.Topmod.C38_run_partial
#print axioms Verif.Topmod.C38_initial
#print axioms Verif.Topmod.C38_defined
#print axioms Verif.Topmod.C38_wilting_violated
#print axioms Verif.Route.C39_step_partial
#print axioms Verif.Route.C39_defined
#print axioms Verif.Route.C39_run_partial
#print axioms Verif.Route.C39_initial
#print axioms Verif.Route.C39_start
#print axioms Verif.Route.C39_delay
#print axioms Verif.Route.C39_loss_violated
#print axioms Verif.Route.C40_accepted
#print axioms Verif.Route.C40_sum
#print axioms Verif.Route.C40_share
#print axioms Verif.Route.C40_point_violated
#print axioms Verif.Route.C40_table_violated
#print axioms Verif.Route.C40_overrun_violated
#print axioms Verif.Precip.C41_precip
#print axioms Verif.Precip.C41_nonnegative
#print axioms Verif.Precip.C41_thresholds
#print axioms Verif.Precip.C41_share
#print axioms Verif.Precip.C41_irrigation
#print axioms Verif.Precip.C41_dry
#print axioms Verif.Precip.C41_split_violated
#print axioms Verif.SolnNum.C42_accepted
#print axioms Verif.SolnNum.C42_sum
#print axioms Verif.SolnNum.C42_rejected
#print axioms Verif.SolnNum.C42_unchanged
#print axioms Verif.SolnNum.C42_negative_partial
#print axioms Verif.SolnNum.C42_after_evaporation_violated
#print axioms Verif.SolnNum.C42_rejected_violated
#print axioms Verif.Chem.C43_flow
#print axioms Verif.Chem.C43_reaction
#print axioms Verif.Chem.C43_history
#print axioms Verif.Chem.C43_bins
#print axioms Verif.Chem.C43_final
#print axioms Verif.Chem.C43_parts
#print axioms Verif.Chem.C43_start
#print axioms Verif.Chem.C43_downstream_violated
#print axioms Verif.Chem.C43_stream_volume_violated
#print axioms Verif.Chem.C43_stream_inputs_violated
#print axioms Verif.FString.C44_in_order
#print axioms Verif.FString.C44_line_partial
#print axioms Verif.FString.C44_copies_partial
#print axioms Verif.FString.C44_wide_violated
#print axioms Verif.Top2c.C45_accepted
#print axioms Verif.Top2c.C45_refused
#print axioms Verif.Top2c.C45_areas
#print axioms Verif.Top2c.C45_inflow
#print axioms Verif.Params.C46_two_dims_partial
#print axioms Verif.Params.C46_one_dim_partial
#print axioms Verif.Params.C46_long64_violated
#print axioms Verif.Params.C46_three_dims_violated
#print axioms Verif.Control.C47_integer_iff
#print axioms Verif.Control.C47_integer_violated
#print axioms Verif.Control.C47_string_partial
#print axioms Verif.Control.C47_string_padding_violated
#print axioms Verif.DataLine.C48_header
#print axioms Verif.DataLine.C48_values
#print axioms Verif.DataLine.C48_position
#print axioms Verif.DataLine.C48_readvar
#print axioms Verif.DataLine.C48_readvar_error
#print axioms Verif.DataLine.C48_run
#print axioms Verif.SelOut.C49_matrix
#print axioms Verif.IPq.C50_messages_partial
#print axioms Verif.IPq.C50_results_partial
#print axioms Verif.IPq.C50_stopped_violated
#print axioms Verif.IPq.C50_accumulate_violated
#print axioms Verif.IPq.C50_load_violated
#print axioms Verif.IPq.C51_no_leftovers
#print axioms Verif.IPq.C51_tables
#print axioms Verif.IPq.C52_refused
#print axioms Verif.IPq.C52_failed_load_partial
#print axioms Verif.IPq.C52_test_violated
#print axioms Verif.Nd.C53_mean
#print axioms Verif.Nd.C53_reaction_mean_partial
#print axioms Verif.Nd.C53_evaporation_violated
#print axioms Verif.Nd.C53_weights_violated
#print axioms Verif.Precip.C54_diverted_partial
#print axioms Verif.Precip.C54_first_violated
#print axioms Verif.Route.C55_delivered_partial
#print axioms Verif.Route.C55_available
#print axioms Verif.Route.C55_schedule_violated
#print axioms Verif.Route.C55_pump_violated
#print axioms Verif.Topmod.C56_bin
#print axioms Verif.Topmod.C56_total
#print axioms Verif.Topmod.C57_printed_partial
#print axioms Verif.Topmod.C57_pumping_violated
#print axioms Verif.Snow.C58_quarter_partial
#print axioms Verif.Snow.C58_day_violated
#print axioms Verif.Snow.C58_bare_violated
#print axioms Verif.Snow.C59_form
#print axioms Verif.Snow.C59_all
#print axioms Verif.Snow.C59_cover
#print axioms Verif.Chem.C60_balance
#print axioms Verif.Chem.C60_next
#print axioms Verif.Chem.C61_flow_partial
#print axioms Verif.Chem.C61_final_violated
#print axioms Verif.Chem.C61_gain_partial
#print axioms Verif.Chem.C61_loss_violated
#print axioms Verif.ParFile.C62_file
#print axioms Verif.ParFile.C62_more
#print axioms Verif.ParFile.C62_count
#print axioms Verif.ParFile.C62_any_text
#print axioms Verif.ParFile.C62_untouched
#print axioms Verif.ParFile.C62_fallback
#print axioms Verif.ParFile.C62_last_undeclared_violated
#print axioms Verif.ParFile.C63_dims
#print axioms Verif.ParFile.C63_any_text
#print axioms Verif.ParFile.C63_untouched
#print axioms Verif.ParFile.C63_undeclared_violated
#print axioms Verif.ParFile.C63_names_violated
#print axioms Verif.ParFile.C63_hang_violated
#print axioms Verif.DataLine.C64_fields
#print axioms Verif.DataLine.C64_reject
#print axioms Verif.DataLine.C64_order
#print axioms Verif.DataLine.C64_injective
#print axioms Verif.DataLine.C64_midnight
#print axioms Verif.DataLine.C65_ranges_partial
#print axioms Verif.DataLine.C65_date_violated
#print axioms Verif.DataLine.C65_seconds_violated
#print axioms Verif.DataLine.C66_range_partial
#print axioms Verif.DataLine.C66_missing_violated
#print axioms Verif.DataLine.C66_text_violated
#print axioms Verif.DataLine.C66_fraction_violated
#print axioms Verif.DataLine.C66_range_violated
#print axioms Verif.DataLine.C66_header_violated
#print axioms Verif.DataLine.C67_same_header_partial
#print axioms Verif.DataLine.C67_headers_violated
#print axioms Verif.Formula.C68_formula
#print axioms Verif.Formula.C68_terminates
#print axioms Verif.Formula.C68_complete
#print axioms Verif.Formula.C69_parts_partial
#print axioms Verif.Formula.C69_parts_violated
#print axioms Verif.Formula.C69_group_violated
#print axioms Verif.Formula.C69_bracket_violated
#print axioms Verif.Formula.C70_combine
#print axioms Verif.Formula.C71_value
#print axioms Verif.Formula.C71_names
#print axioms Verif.Formula.C72_fraction_partial
#print axioms Verif.Formula.C72_fraction_violated
#print axioms Verif.Formula.C72_octal_violated
#print axioms Verif.Formula.C72_range_violated
#print axioms Verif.Formula.C73_species
#print axioms Verif.Formula.C73_phase
#print axioms Verif.Formula.C74_composition_partial
#print axioms Verif.Formula.C74_sulfur_violated
#print axioms Verif.Formula.C74_phase_violated
#print axioms Verif.Formula.C74_long_violated
#print axioms Verif.Solar.C75_interpolation
#print axioms Verif.Solar.C75_start
#print axioms Verif.Solar.C75_range
#print axioms Verif.Solar.C76_first_day_partial
#print axioms Verif.Solar.C76_december_violated
#print axioms Verif.Solar.C76_gap_violated
#print axioms Verif.Solar.C77_estimate
#print axioms Verif.Solar.C77_measured
#print axioms Verif.Solar.C78_received_partial
#print axioms Verif.Solar.C78_first_unit_violated
#print axioms Verif.Solar.C78_polar_violated
#print axioms Verif.Climate.C79_month
#print axioms Verif.Climate.C80_recovers_partial
#print axioms Verif.Climate.C80_gap_violated
#print axioms Verif.Climate.C81_mean
#print axioms Verif.Climate.C81_range
#print axioms Verif.Climate.C82_start_partial
#print axioms Verif.Climate.C82_start_violated
#print axioms Verif.Climate.C82_hourly_violated
#print axioms Verif.Climate.C82_zero_violated
#print axioms Verif.Climate.C83_season
#print axioms Verif.Climate.C84_on_partial
#print axioms Verif.Climate.C84_cold_violated
#print axioms Verif.Climate.C84_last_month_violated
#print axioms Verif.Climate.C84_first_day_violated
#print axioms Verif.Climate.C85_day
#print axioms Verif.Climate.C85_daily
#print axioms Verif.Climate.C85_hamon
#print axioms Verif.Climate.C86_own_day_partial
#print axioms Verif.Climate.C86_first_hour_violated
#print axioms Verif.Climate.C86_two_days_violated
#print axioms Verif.Climate.C87_accepted
#print axioms Verif.Climate.C87_average
#print axioms Verif.Climate.C87_split
#print axioms Verif.Climate.C88_units
#print axioms Verif.Climate.C88_same
#print axioms Verif.Climate.C88_step
#print axioms Verif.Climate.C89_read_partial
#print axioms Verif.Climate.C89_fahrenheit_violated
#print axioms Verif.Output.C90_file
#print axioms Verif.Output.C90_columns
#print axioms Verif.Output.C90_refused
#print axioms Verif.Output.C90_off
#print axioms Verif.Output.C91_text_violated
#print axioms Verif.Output.C91_short_violated
#print axioms Verif.Output.C91_long_violated
#print axioms Verif.Output.C92_files
#print axioms Verif.Output.C92_columns
#print axioms Verif.Output.C92_refused
#print axioms Verif.Output.C93_integers_partial
#print axioms Verif.Output.C93_integers_violated
#print axioms Verif.Output.C93_arrays_violated
#print axioms Verif.Output.C94_complete
#print axioms Verif.Output.C94_lines
#print axioms Verif.Output.C94_saved
#print axioms Verif.Output.C94_failed
#print axioms Verif.CmdLine.C95_options
#print axioms Verif.CmdLine.C95_separate
#print axioms Verif.CmdLine.C95_model_name
#print axioms Verif.CmdLine.C96_debug_violated
#print axioms Verif.CmdLine.C96_debug_partial
#print axioms Verif.CmdLine.C96_incomplete_violated
#print axioms Verif.CmdLine.C96_many_violated
#print axioms Verif.ObsChem.C97_header
#print axioms Verif.ObsChem.C97_refused
#print axioms Verif.ObsChem.C97_first
#print axioms Verif.ObsChem.C98_unit_missing_violated
#print axioms Verif.ObsChem.C98_blanks_violated
#print axioms Verif.ObsChem.C98_long_violated
#print axioms Verif.ObsChem.C98_solute_violated
#print axioms Verif.ObsChem.C98_constant_violated
#print axioms Verif.ObsChem.C99_units
#print axioms Verif.ObsChem.C99_unchanged
#print axioms Verif.ObsChem.C99_step
