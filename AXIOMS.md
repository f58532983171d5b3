# Axioms of the property theorems

Generated by `tools/axioms.py` from `lean/Verif/Axioms.lean`.

## no axioms (8 theorems)

* `Verif.Calendar.C01_anchor`
* `Verif.Calendar.C03_weekday_anchor`
* `Verif.Control.C47_integer_violated`
* `Verif.EndPer.C20_encode`
* `Verif.Params.C46_long64_violated`
* `Verif.Params.C46_three_dims_violated`
* `Verif.Tsp.C124_anchor`
* `Verif.TspSsf.C143_names_violated`

## propext (23 theorems)

* `Verif.DataLine.C48_readvar_error`
* `Verif.DataLine.C67_same_header_partial`
* `Verif.FString.C33_to_library`
* `Verif.Growth.C145_alloc`
* `Verif.Growth.C145_ucalloc_violated`
* `Verif.Hysep.C131_half_partial`
* `Verif.Output.C90_columns`
* `Verif.Output.C94_failed`
* `Verif.Params.C09_nan_violated`
* `Verif.Params.C09_unknown_type_violated`
* `Verif.Params.C10_from_zero_violated`
* `Verif.Params.C10_square_violated`
* `Verif.Params.C10_to_zero_violated`
* `Verif.Params.C12_parentheses_violated`
* `Verif.Params.C13_long64_violated`
* `Verif.Params.C13_storage_violated`
* `Verif.Params.C13_too_small`
* `Verif.Sbl.C26_everything_kept`
* `Verif.SelOut.C23_bad_variable`
* `Verif.Summary.C112_explanation_violated`
* `Verif.Tables.C07_fixed_rejected_violated`
* `Verif.Tables.C07_fixed_violated`
* `Verif.Tsp.C124_zero_violated`

## propext, Quot.sound (50 theorems)

* `Verif.Basic.C122_kept`
* `Verif.Basic.C122_order`
* `Verif.Calendar.C02_year1_undefined`
* `Verif.Chem.C43_start`
* `Verif.CmdLine.C95_model_name`
* `Verif.Control.C14_double_slash_violated`
* `Verif.Control.C47_string_padding_violated`
* `Verif.Control.C47_string_partial`
* `Verif.Growth.C145_add`
* `Verif.Growth.C145_base`
* `Verif.Growth.C145_grow`
* `Verif.Growth.C145_modules`
* `Verif.Growth.C145_modules_same`
* `Verif.Growth.C145_resize_violated`
* `Verif.Growth.C145_umalloc`
* `Verif.Growth.C145_update`
* `Verif.Hysep.C131_fixed_short_violated`
* `Verif.Hysep.C131_half_violated`
* `Verif.Lines.C30_line_ends`
* `Verif.Lines.C30_logical_partial`
* `Verif.Output.C90_off`
* `Verif.Output.C91_short_violated`
* `Verif.Output.C94_complete`
* `Verif.Output.C94_lines`
* `Verif.Output.C94_saved`
* `Verif.Params.C04_params_keys`
* `Verif.Params.C09_accepted_partial`
* `Verif.Params.C13_three_dims_copy_nothing`
* `Verif.Params.C46_one_dim_partial`
* `Verif.Sbl.C26_copy_endless_violated`
* `Verif.Sbl.C26_copy_targets`
* `Verif.Sbl.C26_copy_zero_violated`
* `Verif.SelOut.C23_counts`
* `Verif.SelOut.C23_get`
* `Verif.SelOut.C49_matrix`
* `Verif.Summary.C111_switches`
* `Verif.Tables.C06_violated`
* `Verif.Tsp.C136_c_table_violated`
* `Verif.Tsp.C136_case`
* `Verif.Tsp.C136_compare_violated`
* `Verif.Tsp.C136_double_violated`
* `Verif.Tsp.C136_g_table_violated`
* `Verif.Tsp.C136_twice_violated`
* `Verif.TspStv.C144_block`
* `Verif.TspStv.C144_fits`
* `Verif.TspStv.C144_names_violated`
* `Verif.TspText.C142_cut_violated`
* `Verif.TspText.C142_other_order`
* `Verif.TspText.C142_signs`
* `Verif.TspUfore.C146_step_violated`

## propext, Classical.choice, Quot.sound (692 theorems)

* `Verif.Basic.C121_and_violated`
* `Verif.Basic.C121_consumes`
* `Verif.Basic.C121_ends`
* `Verif.Basic.C121_minus_violated`
* `Verif.Basic.C121_mod_violated`
* `Verif.Basic.C121_not_violated`
* `Verif.Basic.C121_power_violated`
* `Verif.Basic.C121_value_partial`
* `Verif.Basic.C122_found`
* `Verif.Basic.C123_bound`
* `Verif.Basic.C123_call`
* `Verif.Basic.C123_forever_partial`
* `Verif.Basic.C123_runs_partial`
* `Verif.Basic.C123_unnamed_violated`
* `Verif.Calendar.C01_consecutive`
* `Verif.Calendar.C01_injective`
* `Verif.Calendar.C01_order`
* `Verif.Calendar.C02_one_iff`
* `Verif.Calendar.C02_range`
* `Verif.Calendar.C02_step`
* `Verif.Calendar.C03_leap`
* `Verif.Calendar.C03_rule`
* `Verif.Calendar.C03_weekday`
* `Verif.CallModules.C19_blank`
* `Verif.CallModules.C19_declare_error_violated`
* `Verif.CallModules.C19_empty_mode_violated`
* `Verif.CallModules.C19_mode_violated`
* `Verif.CallModules.C19_name_mode`
* `Verif.CallModules.C19_name_mode_violated`
* `Verif.CallModules.C19_phase`
* `Verif.CallModules.C19_program_partial`
* `Verif.CallModules.C19_routines`
* `Verif.Chem.C43_bins`
* `Verif.Chem.C43_downstream_violated`
* `Verif.Chem.C43_final`
* `Verif.Chem.C43_flow`
* `Verif.Chem.C43_history`
* `Verif.Chem.C43_parts`
* `Verif.Chem.C43_reaction`
* `Verif.Chem.C43_stream_inputs_violated`
* `Verif.Chem.C43_stream_volume_violated`
* `Verif.Chem.C60_balance`
* `Verif.Chem.C60_next`
* `Verif.Chem.C61_final_violated`
* `Verif.Chem.C61_flow_partial`
* `Verif.Chem.C61_gain_partial`
* `Verif.Chem.C61_loss_violated`
* `Verif.Climate.C79_month`
* `Verif.Climate.C80_gap_violated`
* `Verif.Climate.C80_recovers_partial`
* `Verif.Climate.C81_mean`
* `Verif.Climate.C81_range`
* `Verif.Climate.C82_hourly_violated`
* `Verif.Climate.C82_start_partial`
* `Verif.Climate.C82_start_violated`
* `Verif.Climate.C82_zero_violated`
* `Verif.Climate.C83_season`
* `Verif.Climate.C84_cold_violated`
* `Verif.Climate.C84_first_day_violated`
* `Verif.Climate.C84_last_month_violated`
* `Verif.Climate.C84_on_partial`
* `Verif.Climate.C85_daily`
* `Verif.Climate.C85_day`
* `Verif.Climate.C85_hamon`
* `Verif.Climate.C86_first_hour_violated`
* `Verif.Climate.C86_own_day_partial`
* `Verif.Climate.C86_two_days_violated`
* `Verif.Climate.C87_accepted`
* `Verif.Climate.C87_average`
* `Verif.Climate.C87_split`
* `Verif.Climate.C88_same`
* `Verif.Climate.C88_step`
* `Verif.Climate.C88_units`
* `Verif.Climate.C89_fahrenheit_violated`
* `Verif.Climate.C89_read_partial`
* `Verif.CmdLine.C95_options`
* `Verif.CmdLine.C95_separate`
* `Verif.CmdLine.C96_debug_partial`
* `Verif.CmdLine.C96_debug_violated`
* `Verif.CmdLine.C96_incomplete_violated`
* `Verif.CmdLine.C96_many_violated`
* `Verif.Control.C14_last_line_violated`
* `Verif.Control.C14_overrun_violated`
* `Verif.Control.C14_reads_partial`
* `Verif.Control.C14_set_option`
* `Verif.Control.C14_set_overrun_violated`
* `Verif.Control.C14_size_violated`
* `Verif.Control.C14_terminates`
* `Verif.Control.C47_integer_iff`
* `Verif.DataLine.C48_header`
* `Verif.DataLine.C48_position`
* `Verif.DataLine.C48_readvar`
* `Verif.DataLine.C48_run`
* `Verif.DataLine.C48_values`
* `Verif.DataLine.C64_fields`
* `Verif.DataLine.C64_injective`
* `Verif.DataLine.C64_midnight`
* `Verif.DataLine.C64_order`
* `Verif.DataLine.C64_reject`
* `Verif.DataLine.C65_date_violated`
* `Verif.DataLine.C65_ranges_partial`
* `Verif.DataLine.C65_seconds_violated`
* `Verif.DataLine.C66_fraction_violated`
* `Verif.DataLine.C66_header_violated`
* `Verif.DataLine.C66_missing_violated`
* `Verif.DataLine.C66_range_partial`
* `Verif.DataLine.C66_range_violated`
* `Verif.DataLine.C66_text_violated`
* `Verif.DataLine.C67_headers_violated`
* `Verif.EndPer.C20_calendar`
* `Verif.EndPer.C20_day_violated`
* `Verif.EndPer.C20_decode`
* `Verif.EndPer.C20_gap_violated`
* `Verif.EndPer.C20_run_partial`
* `Verif.FString.C33_length`
* `Verif.FString.C33_nonascii_violated`
* `Verif.FString.C33_pad`
* `Verif.FString.C33_roundtrip`
* `Verif.FString.C33_roundtrip_f2c_partial`
* `Verif.FString.C33_selected_output`
* `Verif.FString.C44_copies_partial`
* `Verif.FString.C44_in_order`
* `Verif.FString.C44_line_partial`
* `Verif.FString.C44_wide_violated`
* `Verif.Formula.C68_complete`
* `Verif.Formula.C68_formula`
* `Verif.Formula.C68_terminates`
* `Verif.Formula.C69_bracket_violated`
* `Verif.Formula.C69_group_violated`
* `Verif.Formula.C69_parts_partial`
* `Verif.Formula.C69_parts_violated`
* `Verif.Formula.C70_combine`
* `Verif.Formula.C71_names`
* `Verif.Formula.C71_value`
* `Verif.Formula.C72_fraction_partial`
* `Verif.Formula.C72_fraction_violated`
* `Verif.Formula.C72_octal_violated`
* `Verif.Formula.C72_range_violated`
* `Verif.Formula.C73_phase`
* `Verif.Formula.C73_species`
* `Verif.Formula.C74_composition_partial`
* `Verif.Formula.C74_long_violated`
* `Verif.Formula.C74_phase_violated`
* `Verif.Formula.C74_sulfur_violated`
* `Verif.Growth.C145_connections`
* `Verif.Hysep.C131_fixed_bounds_partial`
* `Verif.Hysep.C131_fixed_end_violated`
* `Verif.Hysep.C131_fixed_partial`
* `Verif.Hysep.C131_interval`
* `Verif.Hysep.C131_locmin_between_partial`
* `Verif.Hysep.C131_locmin_ends_partial`
* `Verif.Hysep.C131_locmin_flow`
* `Verif.Hysep.C131_locmin_minimum_partial`
* `Verif.Hysep.C131_locmin_none_violated`
* `Verif.Hysep.C131_locmin_short_violated`
* `Verif.Hysep.C131_locmin_unassigned_violated`
* `Verif.Hysep.C131_sliding_bounds_partial`
* `Verif.Hysep.C131_sliding_large_violated`
* `Verif.Hysep.C131_sliding_missing_violated`
* `Verif.Hysep.C131_sliding_partial`
* `Verif.Hysep.C131_sliding_short_violated`
* `Verif.IPq.C21_answer_partial`
* `Verif.IPq.C21_bad_instance_partial`
* `Verif.IPq.C21_isolated_partial`
* `Verif.IPq.C21_unique_partial`
* `Verif.IPq.C21_wrap_violated`
* `Verif.IPq.C22_lines`
* `Verif.IPq.C22_run`
* `Verif.IPq.C25_captured_partial`
* `Verif.IPq.C25_extra_violated`
* `Verif.IPq.C25_lost_violated`
* `Verif.IPq.C25_message_violated`
* `Verif.IPq.C50_accumulate_violated`
* `Verif.IPq.C50_load_violated`
* `Verif.IPq.C50_messages_partial`
* `Verif.IPq.C50_results_partial`
* `Verif.IPq.C50_stopped_violated`
* `Verif.IPq.C51_no_leftovers`
* `Verif.IPq.C51_tables`
* `Verif.IPq.C52_failed_load_partial`
* `Verif.IPq.C52_refused`
* `Verif.IPq.C52_test_violated`
* `Verif.Intcp.C36_grass_violated`
* `Verif.Intcp.C36_history_partial`
* `Verif.Intcp.C36_intercept`
* `Verif.Intcp.C36_leaf_fall_violated`
* `Verif.Intcp.C36_step_partial`
* `Verif.Intcp.C36_storage`
* `Verif.Lines.C30_comment_violated`
* `Verif.Lines.C30_echo_violated`
* `Verif.Lines.C30_include_line`
* `Verif.Lines.C30_include_violated`
* `Verif.Lines.C30_kind`
* `Verif.Lines.C30_plain_partial`
* `Verif.Lines.C30_read_partial`
* `Verif.Lines.C30_semicolon_violated`
* `Verif.Mms.C32_evaporation_partial`
* `Verif.Mms.C32_fill`
* `Verif.Mms.C32_missing_violated`
* `Verif.Mms.C32_negative_violated`
* `Verif.Mms.C32_request_partial`
* `Verif.Mms.C32_temperature_violated`
* `Verif.Nd.C27_dictionary`
* `Verif.Nd.C27_empty_name_violated`
* `Verif.Nd.C27_long_word_violated`
* `Verif.Nd.C27_newline_violated`
* `Verif.Nd.C27_roundtrip_partial`
* `Verif.Nd.C28_add`
* `Verif.Nd.C28_mixture`
* `Verif.Nd.C28_multiply`
* `Verif.Nd.C28_order`
* `Verif.Nd.C28_reaction_mixture`
* `Verif.Nd.C28_scale_partial`
* `Verif.Nd.C28_sum`
* `Verif.Nd.C28_zero_violated`
* `Verif.Nd.C29_activities`
* `Verif.Nd.C29_merge_partial`
* `Verif.Nd.C29_merge_violated`
* `Verif.Nd.C29_order_violated`
* `Verif.Nd.C29_simplify_partial`
* `Verif.Nd.C29_total`
* `Verif.Nd.C53_evaporation_violated`
* `Verif.Nd.C53_mean`
* `Verif.Nd.C53_reaction_mean_partial`
* `Verif.Nd.C53_weights_violated`
* `Verif.ObsChem.C100_run`
* `Verif.ObsChem.C101_malformed_violated`
* `Verif.ObsChem.C101_short_violated`
* `Verif.ObsChem.C101_sources_violated`
* `Verif.ObsChem.C102_samples_violated`
* `Verif.ObsChem.C102_uses_partial`
* `Verif.ObsChem.C97_first`
* `Verif.ObsChem.C97_header`
* `Verif.ObsChem.C97_refused`
* `Verif.ObsChem.C98_blanks_violated`
* `Verif.ObsChem.C98_constant_violated`
* `Verif.ObsChem.C98_long_violated`
* `Verif.ObsChem.C98_solute_violated`
* `Verif.ObsChem.C98_unit_missing_violated`
* `Verif.ObsChem.C99_step`
* `Verif.ObsChem.C99_unchanged`
* `Verif.ObsChem.C99_units`
* `Verif.Output.C90_file`
* `Verif.Output.C90_refused`
* `Verif.Output.C91_long_violated`
* `Verif.Output.C91_text_violated`
* `Verif.Output.C92_columns`
* `Verif.Output.C92_files`
* `Verif.Output.C92_refused`
* `Verif.Output.C93_arrays_violated`
* `Verif.Output.C93_integers_partial`
* `Verif.Output.C93_integers_violated`
* `Verif.ParFile.C15_desc_violated`
* `Verif.ParFile.C15_lines_partial`
* `Verif.ParFile.C15_violated`
* `Verif.ParFile.C62_any_text`
* `Verif.ParFile.C62_count`
* `Verif.ParFile.C62_fallback`
* `Verif.ParFile.C62_file`
* `Verif.ParFile.C62_last_undeclared_violated`
* `Verif.ParFile.C62_more`
* `Verif.ParFile.C62_untouched`
* `Verif.ParFile.C63_any_text`
* `Verif.ParFile.C63_dims`
* `Verif.ParFile.C63_hang_violated`
* `Verif.ParFile.C63_names_violated`
* `Verif.ParFile.C63_undeclared_violated`
* `Verif.ParFile.C63_untouched`
* `Verif.Params.C04_params_sorted`
* `Verif.Params.C08_decode`
* `Verif.Params.C08_empty_uninitialised`
* `Verif.Params.C08_reject`
* `Verif.Params.C10_reset_dim_partial`
* `Verif.Params.C10_resize_partial`
* `Verif.Params.C10_unused`
* `Verif.Params.C11_bounded`
* `Verif.Params.C12_accept_partial`
* `Verif.Params.C12_injective`
* `Verif.Params.C12_offset`
* `Verif.Params.C12_parentheses_never`
* `Verif.Params.C12_surjective`
* `Verif.Params.C13_round_trip_partial`
* `Verif.Params.C46_two_dims_partial`
* `Verif.Precip.C41_dry`
* `Verif.Precip.C41_irrigation`
* `Verif.Precip.C41_nonnegative`
* `Verif.Precip.C41_precip`
* `Verif.Precip.C41_share`
* `Verif.Precip.C41_split_violated`
* `Verif.Precip.C41_thresholds`
* `Verif.Precip.C54_diverted_partial`
* `Verif.Precip.C54_first_violated`
* `Verif.Reservoir.C103_composite`
* `Verif.Reservoir.C103_paths`
* `Verif.Reservoir.C103_run`
* `Verif.Reservoir.C103_snow_partial`
* `Verif.Reservoir.C103_step`
* `Verif.Reservoir.C104_litre_violated`
* `Verif.Reservoir.C104_modules`
* `Verif.Reservoir.C104_run`
* `Verif.Reservoir.C104_step`
* `Verif.Reservoir.C105_canopy_partial`
* `Verif.Reservoir.C105_canopy_run_partial`
* `Verif.Reservoir.C105_initial`
* `Verif.Reservoir.C105_leaf_fall_violated`
* `Verif.Reservoir.C105_run_partial`
* `Verif.Reservoir.C105_saturated`
* `Verif.Reservoir.C105_step_partial`
* `Verif.Reservoir.C106_loss_violated`
* `Verif.Reservoir.C106_run_partial`
* `Verif.Reservoir.C106_start_partial`
* `Verif.Reservoir.C106_start_violated`
* `Verif.Reservoir.C106_step_partial`
* `Verif.Reservoir.C107_report`
* `Verif.Reservoir.C108_names_partial`
* `Verif.Reservoir.C108_no_solutes_violated`
* `Verif.Reservoir.C108_places`
* `Verif.Reservoir.C108_summary_violated`
* `Verif.Reservoir.C108_units_violated`
* `Verif.Route.C39_defined`
* `Verif.Route.C39_delay`
* `Verif.Route.C39_initial`
* `Verif.Route.C39_loss_violated`
* `Verif.Route.C39_run_partial`
* `Verif.Route.C39_start`
* `Verif.Route.C39_step_partial`
* `Verif.Route.C40_accepted`
* `Verif.Route.C40_overrun_violated`
* `Verif.Route.C40_point_violated`
* `Verif.Route.C40_share`
* `Verif.Route.C40_sum`
* `Verif.Route.C40_table_violated`
* `Verif.Route.C55_available`
* `Verif.Route.C55_delivered_partial`
* `Verif.Route.C55_pump_violated`
* `Verif.Route.C55_schedule_violated`
* `Verif.Sbl.C26_copy_partial`
* `Verif.Sbl.C26_delete_partial`
* `Verif.Sbl.C26_largest_violated`
* `Verif.Sbl.C26_mixed_violated`
* `Verif.Sbl.C26_out_of_range_violated`
* `Verif.Sbl.C26_ranges`
* `Verif.SelOut.C23_rectangular`
* `Verif.SelOut.C24_restored`
* `Verif.Snow.C37_day`
* `Verif.Snow.C37_defined_partial`
* `Verif.Snow.C37_initial`
* `Verif.Snow.C37_nexlag_violated`
* `Verif.Snow.C37_range`
* `Verif.Snow.C37_run_partial`
* `Verif.Snow.C37_start_violated`
* `Verif.Snow.C58_bare_violated`
* `Verif.Snow.C58_day_violated`
* `Verif.Snow.C58_quarter_partial`
* `Verif.Snow.C59_all`
* `Verif.Snow.C59_cover`
* `Verif.Snow.C59_form`
* `Verif.Solar.C75_interpolation`
* `Verif.Solar.C75_range`
* `Verif.Solar.C75_start`
* `Verif.Solar.C76_december_violated`
* `Verif.Solar.C76_first_day_partial`
* `Verif.Solar.C76_gap_violated`
* `Verif.Solar.C77_estimate`
* `Verif.Solar.C77_measured`
* `Verif.Solar.C78_first_unit_violated`
* `Verif.Solar.C78_polar_violated`
* `Verif.Solar.C78_received_partial`
* `Verif.SolnNum.C34_range`
* `Verif.SolnNum.C34_table`
* `Verif.SolnNum.C34_unique`
* `Verif.SolnNum.C35_bins_violated`
* `Verif.SolnNum.C35_chemvar`
* `Verif.SolnNum.C35_chemvar_partial`
* `Verif.SolnNum.C35_combined_violated`
* `Verif.SolnNum.C35_contents_partial`
* `Verif.SolnNum.C35_indices`
* `Verif.SolnNum.C35_inside`
* `Verif.SolnNum.C35_reactants_partial`
* `Verif.SolnNum.C35_reactants_violated`
* `Verif.SolnNum.C35_table_fits`
* `Verif.SolnNum.C35_time`
* `Verif.SolnNum.C35_unique`
* `Verif.SolnNum.C42_accepted`
* `Verif.SolnNum.C42_after_evaporation_violated`
* `Verif.SolnNum.C42_negative_partial`
* `Verif.SolnNum.C42_rejected`
* `Verif.SolnNum.C42_rejected_violated`
* `Verif.SolnNum.C42_sum`
* `Verif.SolnNum.C42_unchanged`
* `Verif.Soltab.C140_angles`
* `Verif.Soltab.C140_days`
* `Verif.Soltab.C140_entries`
* `Verif.Soltab.C140_hours_violated`
* `Verif.Soltab.C140_inclined_partial`
* `Verif.Soltab.C140_integral`
* `Verif.Soltab.C140_lengthen`
* `Verif.Soltab.C140_level`
* `Verif.Soltab.C140_level_positive`
* `Verif.Soltab.C140_parallel`
* `Verif.Soltab.C140_sunset`
* `Verif.Summary.C109_chem`
* `Verif.Summary.C109_detail`
* `Verif.Summary.C109_extremes`
* `Verif.Summary.C109_no_outflow_violated`
* `Verif.Summary.C109_objective`
* `Verif.Summary.C109_step`
* `Verif.Summary.C109_step_chem`
* `Verif.Summary.C109_table`
* `Verif.Summary.C109_totals`
* `Verif.Summary.C110_loss_violated`
* `Verif.Summary.C110_run`
* `Verif.Summary.C110_step`
* `Verif.Summary.C110_storage`
* `Verif.Summary.C110_table_violated`
* `Verif.Summary.C111_chem_daily_violated`
* `Verif.Summary.C111_daily`
* `Verif.Summary.C111_day_step`
* `Verif.Summary.C111_dtinit_violated`
* `Verif.Summary.C111_rows`
* `Verif.Summary.C112_chem_partial`
* `Verif.Summary.C112_detail`
* `Verif.Summary.C112_flow_violated`
* `Verif.Summary.C112_initial`
* `Verif.Summary.C112_outlet_violated`
* `Verif.Summary.C112_table`
* `Verif.Summary.C112_table_head_violated`
* `Verif.Tables.C04_dims`
* `Verif.Tables.C04_sort`
* `Verif.Tables.C04_vars_partial`
* `Verif.Tables.C05_after_history`
* `Verif.Tables.C05_lookup`
* `Verif.Tables.C06_rejected_partial`
* `Verif.Tables.C06_violated_always`
* `Verif.Tables.C07_fixed_partial`
* `Verif.Tables.C07_getdim`
* `Verif.Tally.C31_alternative_formula_violated`
* `Verif.Tally.C31_columns`
* `Verif.Tally.C31_kinetics_formula_violated`
* `Verif.Tally.C31_overlap_violated`
* `Verif.Tally.C31_refused`
* `Verif.Tally.C31_table`
* `Verif.TimeLoop.C17_blank_violated`
* `Verif.TimeLoop.C17_malformed_violated`
* `Verif.TimeLoop.C17_sound`
* `Verif.TimeLoop.C17_steps`
* `Verif.TimeLoop.C18_closed_file_violated`
* `Verif.TimeLoop.C18_first_file_ends_violated`
* `Verif.TimeLoop.C18_merge_partial`
* `Verif.TimeLoop.C18_same_day_violated`
* `Verif.Top2c.C45_accepted`
* `Verif.Top2c.C45_areas`
* `Verif.Top2c.C45_inflow`
* `Verif.Top2c.C45_refused`
* `Verif.Topmod.C38_defined`
* `Verif.Topmod.C38_initial`
* `Verif.Topmod.C38_never_stops`
* `Verif.Topmod.C38_range_partial`
* `Verif.Topmod.C38_run_partial`
* `Verif.Topmod.C38_step_partial`
* `Verif.Topmod.C38_tolerance`
* `Verif.Topmod.C38_wilting_violated`
* `Verif.Topmod.C56_bin`
* `Verif.Topmod.C56_total`
* `Verif.Topmod.C57_printed_partial`
* `Verif.Topmod.C57_pumping_violated`
* `Verif.Transport.C113_unit_partial`
* `Verif.Transport.C114_bypass_violated`
* `Verif.Transport.C114_canopy_violated`
* `Verif.Transport.C114_empty_violated`
* `Verif.Transport.C114_leaves_violated`
* `Verif.Transport.C114_pulse_violated`
* `Verif.Transport.C114_recharge_violated`
* `Verif.Transport.C114_rise_violated`
* `Verif.Transport.C114_unit_partial`
* `Verif.Transport.C115_conserved_partial`
* `Verif.Transport.C115_routed`
* `Verif.Transport.C115_taken_violated`
* `Verif.Transport.C115_volumes`
* `Verif.Transport.C116_run_partial`
* `Verif.Transport.C116_step_partial`
* `Verif.Transport.C116_taken_violated`
* `Verif.Transport.C116_tight_partial`
* `Verif.Transport.C117_atmosphere_violated`
* `Verif.Transport.C117_balance_partial`
* `Verif.Transport.C117_path_violated`
* `Verif.Transport.C117_reaction_violated`
* `Verif.Transport.C117_unit_partial`
* `Verif.Transport.C118_path_violated`
* `Verif.Transport.C118_rain_violated`
* `Verif.Transport.C118_run_partial`
* `Verif.Transport.C118_step_partial`
* `Verif.Transport.C119_even_partial`
* `Verif.Transport.C119_path_violated`
* `Verif.Transport.C119_reaction_violated`
* `Verif.Transport.C119_run_partial`
* `Verif.Transport.C119_step_partial`
* `Verif.Transport.C120_even_partial`
* `Verif.Transport.C120_run_partial`
* `Verif.Transport.C120_step_partial`
* `Verif.Transport.C120_taken_violated`
* `Verif.Tsp.C124_back`
* `Verif.Tsp.C124_between`
* `Verif.Tsp.C124_consecutive`
* `Verif.Tsp.C124_doy`
* `Verif.Tsp.C124_inverse`
* `Verif.Tsp.C124_month`
* `Verif.Tsp.C124_newdate`
* `Verif.Tsp.C124_numdays`
* `Verif.Tsp.C124_onto`
* `Verif.Tsp.C124_water`
* `Verif.Tsp.C124_year`
* `Verif.Tsp.C125_canonical`
* `Verif.Tsp.C125_order`
* `Verif.Tsp.C125_sorts`
* `Verif.Tsp.C126_duration_violated`
* `Verif.Tsp.C126_exceed`
* `Verif.Tsp.C126_half`
* `Verif.Tsp.C126_low_violated`
* `Verif.Tsp.C126_lower_partial`
* `Verif.Tsp.C126_median`
* `Verif.Tsp.C126_middle`
* `Verif.Tsp.C126_monotone`
* `Verif.Tsp.C126_period_violated`
* `Verif.Tsp.C126_period_witness_violated`
* `Verif.Tsp.C126_rank`
* `Verif.Tsp.C126_scalar_violated`
* `Verif.Tsp.C126_table`
* `Verif.Tsp.C126_upper`
* `Verif.Tsp.C127_median_violated`
* `Verif.Tsp.C127_reduce`
* `Verif.Tsp.C127_statistics`
* `Verif.Tsp.C128_additive`
* `Verif.Tsp.C128_annual_violated`
* `Verif.Tsp.C128_bounds`
* `Verif.Tsp.C128_first_witness_violated`
* `Verif.Tsp.C128_last_violated`
* `Verif.Tsp.C128_last_witness_violated`
* `Verif.Tsp.C128_months`
* `Verif.Tsp.C128_second_violated`
* `Verif.Tsp.C128_volume`
* `Verif.Tsp.C129_base`
* `Verif.Tsp.C129_span`
* `Verif.Tsp.C129_unique`
* `Verif.Tsp.C130_duration_partial`
* `Verif.Tsp.C130_monotone`
* `Verif.Tsp.C130_months_violated`
* `Verif.Tsp.C130_total`
* `Verif.Tsp.C130_unique`
* `Verif.Tsp.C133_base_level`
* `Verif.Tsp.C133_clean_delete`
* `Verif.Tsp.C133_clean_refused`
* `Verif.Tsp.C133_clean_substitute`
* `Verif.Tsp.C133_difference_partial`
* `Verif.Tsp.C133_displace`
* `Verif.Tsp.C133_displace_refused_partial`
* `Verif.Tsp.C133_displace_sentinel_violated`
* `Verif.Tsp.C133_moving_lowest_one_violated`
* `Verif.Tsp.C133_moving_lowest_partial`
* `Verif.Tsp.C133_moving_minimum_large_violated`
* `Verif.Tsp.C133_moving_minimum_partial`
* `Verif.Tsp.C133_moving_refused`
* `Verif.Tsp.C134_centre`
* `Verif.Tsp.C134_default_violated`
* `Verif.Tsp.C134_open`
* `Verif.Tsp.C134_period`
* `Verif.Tsp.C134_time_without_date`
* `Verif.Tsp.C134_uniform_midnight_violated`
* `Verif.Tsp.C134_uniform_partial`
* `Verif.Tsp.C134_uniform_refused`
* `Verif.Tsp.C134_volumes`
* `Verif.Tsp.C135_agreement`
* `Verif.Tsp.C135_base`
* `Verif.Tsp.C135_bias`
* `Verif.Tsp.C135_coefficient`
* `Verif.Tsp.C135_coefficient_nash`
* `Verif.Tsp.C135_nash`
* `Verif.Tsp.C135_relative_bias_partial`
* `Verif.Tsp.C135_relative_bias_violated`
* `Verif.Tsp.C135_relative_error`
* `Verif.Tsp.C135_rows`
* `Verif.Tsp.C135_standard_error`
* `Verif.Tsp.C135_two_violated`
* `Verif.Tsp.C135_volumetric_partial`
* `Verif.Tsp.C135_volumetric_violated`
* `Verif.Tsp.C136_create`
* `Verif.Tsp.C136_create_refused`
* `Verif.Tsp.C136_elements`
* `Verif.Tsp.C136_erase_partial`
* `Verif.Tsp.C136_reuse`
* `Verif.Tsp.C136_unique_partial`
* `Verif.Tsp.C137_accepted`
* `Verif.Tsp.C137_alpha_violated`
* `Verif.Tsp.C137_causal`
* `Verif.Tsp.C137_checks`
* `Verif.Tsp.C137_clip`
* `Verif.Tsp.C137_constant`
* `Verif.Tsp.C137_design`
* `Verif.Tsp.C137_design_band`
* `Verif.Tsp.C137_linear`
* `Verif.Tsp.C137_quick`
* `Verif.Tsp.C137_quick_constant_violated`
* `Verif.Tsp.C137_real`
* `Verif.Tsp.C137_refused`
* `Verif.Tsp.C137_reverse`
* `Verif.Tsp.C137_settles`
* `Verif.Tsp.C137_stages`
* `Verif.Tsp.C138_centre_violated`
* `Verif.Tsp.C138_defined`
* `Verif.Tsp.C138_median_violated`
* `Verif.Tsp.C138_merge_violated`
* `Verif.Tsp.C138_month_one_partial`
* `Verif.Tsp.C138_periods_partial`
* `Verif.Tsp.C138_transform_violated`
* `Verif.Tsp.C139_disjoint`
* `Verif.Tsp.C139_dominated_partial`
* `Verif.Tsp.C139_end_violated`
* `Verif.Tsp.C139_event_partial`
* `Verif.Tsp.C139_last_violated`
* `Verif.Tsp.C139_overflow_violated`
* `Verif.Tsp.C139_overlap_violated`
* `Verif.Tsp.C139_peaks`
* `Verif.Tsp.C139_separate`
* `Verif.Tsp.C139_series`
* `Verif.Tsp.C139_start_violated`
* `Verif.Tsp.C139_time_violated`
* `Verif.Tsp.C139_truncated_violated`
* `Verif.TspCtl.C141_bad_header`
* `Verif.TspCtl.C141_blocks`
* `Verif.TspCtl.C141_case`
* `Verif.TspCtl.C141_context_needed`
* `Verif.TspCtl.C141_empty_violated`
* `Verif.TspCtl.C141_only`
* `Verif.TspCtl.C141_override_violated`
* `Verif.TspCtl.C141_settings_first`
* `Verif.TspCtl.C141_swallow_violated`
* `Verif.TspCtl.C141_titles`
* `Verif.TspCtl.C141_truncated_violated`
* `Verif.TspEq.C132_equation_value_partial`
* `Verif.TspEq.C132_sign_before_power_violated`
* `Verif.TspEq.C132_towers_violated`
* `Verif.TspGage.C147_absent`
* `Verif.TspGage.C147_clock`
* `Verif.TspGage.C147_errors`
* `Verif.TspGage.C147_exact`
* `Verif.TspGage.C147_general`
* `Verif.TspGage.C147_names_violated`
* `Verif.TspGage.C147_time_violated`
* `Verif.TspGage.C147_value_errors`
* `Verif.TspSsf.C143_case`
* `Verif.TspSsf.C143_fits`
* `Verif.TspSsf.C143_many`
* `Verif.TspSsf.C143_mark_violated`
* `Verif.TspSsf.C143_one`
* `Verif.TspSsf.C143_one_violated`
* `Verif.TspSsf.C143_only`
* `Verif.TspSsf.C143_short`
* `Verif.TspSsf.C143_unordered_violated`
* `Verif.TspStv.C144_absent`
* `Verif.TspStv.C144_case`
* `Verif.TspStv.C144_errors`
* `Verif.TspStv.C144_exact`
* `Verif.TspStv.C144_general`
* `Verif.TspStv.C144_missing_violated`
* `Verif.TspStv.C144_unordered_violated`
* `Verif.TspText.C142_date`
* `Verif.TspText.C142_date_again`
* `Verif.TspText.C142_date_real`
* `Verif.TspText.C142_far_violated`
* `Verif.TspText.C142_instant`
* `Verif.TspText.C142_sample_again`
* `Verif.TspText.C142_sample_midnight_violated`
* `Verif.TspText.C142_time`
* `Verif.TspText.C142_time_again`
* `Verif.TspText.C142_time_real`
* `Verif.TspText.C142_year_zero_violated`
* `Verif.TspUfore.C146_all`
* `Verif.TspUfore.C146_errors`
* `Verif.TspUfore.C146_overflow_violated`
* `Verif.TspUfore.C146_period`
* `Verif.TspUfore.C146_short`
* `Verif.TspUfore.C146_short_period`
* `Verif.VarFile.C16_any_text`
* `Verif.VarFile.C16_dims`
* `Verif.VarFile.C16_info_violated`
* `Verif.VarFile.C16_key_violated`
* `Verif.VarFile.C16_mismatch`
* `Verif.VarFile.C16_no_file`
* `Verif.VarFile.C16_now_violated`
* `Verif.VarFile.C16_restore_partial`
* `Verif.VarFile.C16_untouched`
* `Verif.VarFile.C16_zero_dims_violated`
