{
 "claims": [
  {
   "property": "C01",
   "status": "proved",
   "theorems": [
    "Verif.Calendar.C01_consecutive",
    "Verif.Calendar.C01_order",
    "Verif.Calendar.C01_injective",
    "Verif.Calendar.C01_anchor"
   ],
   "note": "All valid civil dates from year 1 on; day numbers fixed by anchor plus successor."
  },
  {
   "property": "C02",
   "status": "proved",
   "theorems": [
    "Verif.Calendar.C02_range",
    "Verif.Calendar.C02_step",
    "Verif.Calendar.C02_one_iff",
    "Verif.Calendar.C02_year1_undefined"
   ],
   "note": "Years from 2 on. Year 1 calendar count uses an uninitialised value in the code (C02_year1_undefined)."
  },
  {
   "property": "C03",
   "status": "proved",
   "theorems": [
    "Verif.Calendar.C03_leap",
    "Verif.Calendar.C03_rule",
    "Verif.Calendar.C03_weekday",
    "Verif.Calendar.C03_weekday_anchor"
   ],
   "note": ""
  },
  {
   "property": "C04",
   "status": "partial",
   "theorems": [
    "Verif.Params.C04_params_keys",
    "Verif.Params.C04_params_sorted",
    "Verif.Tables.C04_sort",
    "Verif.Tables.C04_dims",
    "Verif.Tables.C04_vars_partial"
   ],
   "note": "Dimension, variable and parameter tables: sorted after every history of declarations and keyed by exactly the accepted (for parameters: all recorded) names."
  },
  {
   "property": "C05",
   "status": "proved",
   "theorems": [
    "Verif.Tables.C05_lookup",
    "Verif.Tables.C05_after_history"
   ],
   "note": ""
  },
  {
   "property": "C06",
   "status": "partial",
   "theorems": [
    "Verif.Tables.C06_violated",
    "Verif.Tables.C06_violated_always",
    "Verif.Tables.C06_rejected_partial"
   ],
   "note": "A rejected declaration leaves a damaged entry behind: see the _violated theorems."
  },
  {
   "property": "C07",
   "status": "partial",
   "theorems": [
    "Verif.Tables.C07_getdim",
    "Verif.Tables.C07_fixed_violated",
    "Verif.Tables.C07_fixed_rejected_violated",
    "Verif.Tables.C07_fixed_partial"
   ],
   "note": ""
  },
  {
   "property": "C08",
   "status": "proved",
   "theorems": [
    "Verif.Params.C08_decode",
    "Verif.Params.C08_reject",
    "Verif.Params.C08_empty_uninitialised"
   ],
   "note": "All layouts of items with separators; numbers are parsed by an arbitrary total parser. Input without values succeeds with uninitialised storage (C08_empty_uninitialised)."
  },
  {
   "property": "C09",
   "status": "partial",
   "theorems": [
    "Verif.Params.C09_accepted_partial",
    "Verif.Params.C09_nan_violated",
    "Verif.Params.C09_unknown_type_violated"
   ],
   "note": "Holds when no value is NaN; NaN defaults and unknown types are accepted (_violated)."
  },
  {
   "property": "C10",
   "status": "partial",
   "theorems": [
    "Verif.Params.C10_resize_partial",
    "Verif.Params.C10_unused",
    "Verif.Params.C10_from_zero_violated",
    "Verif.Params.C10_to_zero_violated",
    "Verif.Params.C10_square_violated",
    "Verif.Params.C10_reset_dim_partial"
   ],
   "note": "For parameters that use the dimension once and keep it nonzero; the excluded cases are shown to fail (_violated)."
  },
  {
   "property": "C11",
   "status": "proved",
   "theorems": [
    "Verif.Params.C11_bounded"
   ],
   "note": ""
  },
  {
   "property": "C12",
   "status": "partial",
   "theorems": [
    "Verif.Params.C12_accept_partial",
    "Verif.Params.C12_offset",
    "Verif.Params.C12_injective",
    "Verif.Params.C12_surjective",
    "Verif.Params.C12_parentheses_violated",
    "Verif.Params.C12_parentheses_never"
   ],
   "note": "Plain comma separated indices; the parenthesised form is always refused (_violated)."
  },
  {
   "property": "C13",
   "status": "partial",
   "theorems": [
    "Verif.Params.C13_round_trip_partial",
    "Verif.Params.C13_too_small",
    "Verif.Params.C13_long64_violated",
    "Verif.Params.C13_storage_violated",
    "Verif.Params.C13_three_dims_copy_nothing"
   ],
   "note": "Floating point types in one and two dimensions; integers on LP64, oversized buffers and three dimensions fail (_violated)."
  },
  {
   "property": "C14",
   "status": "partial",
   "theorems": [
    "Verif.Control.C14_reads_partial",
    "Verif.Control.C14_overrun_violated",
    "Verif.Control.C14_terminates",
    "Verif.Control.C14_size_violated",
    "Verif.Control.C14_last_line_violated",
    "Verif.Control.C14_double_slash_violated",
    "Verif.Control.C14_set_option",
    "Verif.Control.C14_set_overrun_violated"
   ],
   "note": "Whole reader modelled on character streams (fgets, comments, blank lines, record headers). Proved: well-formed files whose records have the declared type and do not exceed the declared size are read exactly (C14_reads_partial); reading ends for every file (C14_terminates); -set options in bounds (C14_set_option). Refuted in the code: overrun by larger records, size not updated, last line without newline, // inside a word, -set with too many values."
  },
  {
   "property": "C15",
   "status": "partial",
   "theorems": [
    "Verif.ParFile.C15_violated",
    "Verif.ParFile.C15_lines_partial",
    "Verif.ParFile.C15_desc_violated"
   ],
   "note": "The property is false: C15_violated proves for every saved file whose first parameter is savable that reading it back is rejected with 'too many values' (each saved line ends with a blank, whose trailing newline counts as a value). C15_desc_violated: multi-line descriptions keep only the last line. C15_lines_partial: without the blank at the line end all values are restored exactly."
  },
  {
   "property": "C16",
   "status": "partial",
   "theorems": [
    "Verif.VarFile.C16_restore_partial",
    "Verif.VarFile.C16_mismatch",
    "Verif.VarFile.C16_dims",
    "Verif.VarFile.C16_any_text",
    "Verif.VarFile.C16_untouched",
    "Verif.VarFile.C16_no_file",
    "Verif.VarFile.C16_now_violated",
    "Verif.VarFile.C16_info_violated",
    "Verif.VarFile.C16_zero_dims_violated",
    "Verif.VarFile.C16_key_violated"
   ],
   "note": "Proved for saved files whose lines fit the reader's buffers: step count, delta as printed, every declared variable and nothing else (C16_restore_partial); wrong dimensions or declarations (C16_dims, C16_mismatch); any text (C16_any_text, C16_untouched). The full property fails: the time is never restored (C16_now_violated), information lines of 79 to 88 characters (C16_info_violated), keys over 48 characters (C16_key_violated), public variables without dimensions (C16_zero_dims_violated)."
  },
  {
   "property": "C17",
   "status": "partial",
   "theorems": [
    "Verif.TimeLoop.C17_sound",
    "Verif.TimeLoop.C17_steps",
    "Verif.TimeLoop.C17_malformed_violated",
    "Verif.TimeLoop.C17_blank_violated"
   ],
   "note": "One data file: exactly the records inside the window, in order, numbered, with the right increments and end code (C17_steps); for arbitrary files (blank and malformed lines, several files) the run ends and every step is a record of a file inside the window with a positive increment (C17_sound). Refuted: a malformed next line suppresses the record before it; blank line before the window is an error."
  },
  {
   "property": "C18",
   "status": "partial",
   "theorems": [
    "Verif.TimeLoop.C18_merge_partial",
    "Verif.TimeLoop.C18_first_file_ends_violated",
    "Verif.TimeLoop.C18_closed_file_violated",
    "Verif.TimeLoop.C18_same_day_violated"
   ],
   "note": "Any number of files with disjoint days, first file ending last: merged without loss in time order. Refuted for the other cases (records lost, closed file read, same-day records dropped)."
  },
  {
   "property": "C19",
   "status": "partial",
   "theorems": [
    "Verif.CallModules.C19_phase",
    "Verif.CallModules.C19_program_partial",
    "Verif.CallModules.C19_routines",
    "Verif.CallModules.C19_blank",
    "Verif.CallModules.C19_name_mode",
    "Verif.CallModules.C19_mode_violated",
    "Verif.CallModules.C19_empty_mode_violated",
    "Verif.CallModules.C19_name_mode_violated",
    "Verif.CallModules.C19_declare_error_violated"
   ],
   "note": "Proved for the four simulation modes: every phase is orderly and the program goes on only after success. Fails for an unsupported or empty model_mode (reports success without calling any module), in _name mode (errors ignored) and for the program's declare phase (errors only printed). What the module routines do is a parameter; the single_run hooks are not modelled."
  },
  {
   "property": "C20",
   "status": "partial",
   "theorems": [
    "Verif.EndPer.C20_decode",
    "Verif.EndPer.C20_encode",
    "Verif.EndPer.C20_run_partial",
    "Verif.EndPer.C20_calendar",
    "Verif.EndPer.C20_day_violated",
    "Verif.EndPer.C20_gap_violated"
   ],
   "note": "Decoding is exact for all states and inputs. The flags are right for runs that visit every day with regular steps; two counterexamples show duplicate end-of-day flags (records in the last tenth of a step before midnight) and stale leap-year lengths when 1 January has no record. Double rounding is an arbitrary function with error at most 2^-30."
  },
  {
   "property": "C21",
   "status": "partial",
   "theorems": [
    "Verif.IPq.C21_unique_partial",
    "Verif.IPq.C21_isolated_partial",
    "Verif.IPq.C21_bad_instance_partial",
    "Verif.IPq.C21_answer_partial",
    "Verif.IPq.C21_wrap_violated"
   ],
   "note": "Any engine, any history of library requests with at most 2^31 creations: identifiers unique, instance state and answers equal to those of an isolated instance, bad identifiers answered -6 without any change. Beyond that identifiers wrap and repeat (C21_wrap_violated). Not modelled: concurrent calls (the registry lock is released before the instance is used)."
  },
  {
   "property": "C22",
   "status": "proved",
   "theorems": [
    "Verif.IPq.C22_lines",
    "Verif.IPq.C22_run"
   ],
   "note": "Every history of the 16 modelled calls on a new instance, every engine."
  },
  {
   "property": "C23",
   "status": "proved",
   "theorems": [
    "Verif.SelOut.C23_rectangular",
    "Verif.SelOut.C23_get",
    "Verif.SelOut.C23_counts",
    "Verif.SelOut.C23_bad_variable"
   ],
   "note": "Every history of pushes, row ends and clears; every integer row, column and variable type code. The specification computes the expected cell from the history alone."
  },
  {
   "property": "C24",
   "status": "proved",
   "theorems": [
    "Verif.SelOut.C24_restored"
   ],
   "note": "Any selection of rows of any reachable table, deserialized one after the other into an empty table."
  },
  {
   "property": "C25",
   "status": "partial",
   "theorems": [
    "Verif.IPq.C25_captured_partial",
    "Verif.IPq.C25_lost_violated",
    "Verif.IPq.C25_extra_violated",
    "Verif.IPq.C25_message_violated"
   ],
   "note": "Blocks whose switch equals that of the block selected for reading. The code ignores the block number when it consults the switch: text lost or captured wrongly (C25_lost_violated, C25_extra_violated, C25_message_violated)."
  },
  {
   "property": "C26",
   "status": "partial",
   "theorems": [
    "Verif.Sbl.C26_ranges",
    "Verif.Sbl.C26_everything_kept",
    "Verif.Sbl.C26_delete_partial",
    "Verif.Sbl.C26_mixed_violated",
    "Verif.Sbl.C26_out_of_range_violated",
    "Verif.Sbl.C26_largest_violated",
    "Verif.Sbl.C26_copy_partial",
    "Verif.Sbl.C26_copy_targets",
    "Verif.Sbl.C26_copy_zero_violated",
    "Verif.Sbl.C26_copy_endless_violated"
   ],
   "note": "Lists and ranges, DELETE and COPY requests for every layout, case and sign. Partial: an empty list mixed with numbered lists, numbers outside int, the largest int, and COPY ranges across zero or ending at -1 are refuted (C26_*_violated). DUMP's own reader is not modelled."
  },
  {
   "property": "C27",
   "status": "partial",
   "theorems": [
    "Verif.Nd.C27_dictionary",
    "Verif.Nd.C27_roundtrip_partial",
    "Verif.Nd.C27_empty_name_violated",
    "Verif.Nd.C27_long_word_violated",
    "Verif.Nd.C27_newline_violated"
   ],
   "note": "Dictionary for any word sequence; round trip of any list of maps for names that are nonempty, newline-free and at most 255 characters. Violated for other names: an empty name shifts the values, a long word loses all later words, a newline splits a word."
  },
  {
   "property": "C28",
   "status": "partial",
   "theorems": [
    "Verif.Nd.C28_add",
    "Verif.Nd.C28_sum",
    "Verif.Nd.C28_order",
    "Verif.Nd.C28_multiply",
    "Verif.Nd.C28_mixture",
    "Verif.Nd.C28_reaction_mixture",
    "Verif.Nd.C28_zero_violated",
    "Verif.Nd.C28_scale_partial"
   ],
   "note": "Values are exact rationals (no rounding). add_extensive, multiply, mixtures (cxxSolution from a mix) and the reaction-step accumulation, for any list of parts. Scaling a solution by 0 is a no-op in the code (C28_zero_violated), other factors proved."
  },
  {
   "property": "C29",
   "status": "partial",
   "theorems": [
    "Verif.Nd.C29_simplify_partial",
    "Verif.Nd.C29_total",
    "Verif.Nd.C29_activities",
    "Verif.Nd.C29_order_violated",
    "Verif.Nd.C29_merge_partial",
    "Verif.Nd.C29_merge_violated"
   ],
   "note": "Simplification proved for names whose characters do not sort before '(' (every name the engine makes) with '(' only in names of at least 4 characters; sums by name and activity scaling without restriction. Merging proved for sources given as elements; merging valence states removes the wrong element (C29_merge_violated)."
  },
  {
   "property": "C30",
   "status": "partial",
   "theorems": [
    "Verif.Lines.C30_line_ends",
    "Verif.Lines.C30_logical_partial",
    "Verif.Lines.C30_read_partial",
    "Verif.Lines.C30_plain_partial",
    "Verif.Lines.C30_kind",
    "Verif.Lines.C30_include_line",
    "Verif.Lines.C30_semicolon_violated",
    "Verif.Lines.C30_comment_violated",
    "Verif.Lines.C30_include_violated",
    "Verif.Lines.C30_echo_violated"
   ],
   "note": "Line splitting, comments, continuation, separators and include files of PHRQ_io for any text with any line ends. Partial: text has no backslash directly followed by '#' or ';', and include files are nested finitely (fuel in the model, every large enough fuel gives the same result). Violated otherwise: backslash before ';' joins, backslash before '#' does not protect, a file including itself never ends, the echo at end of file repeats a character."
  },
  {
   "property": "C31",
   "status": "partial",
   "theorems": [
    "Verif.Tally.C31_table",
    "Verif.Tally.C31_refused",
    "Verif.Tally.C31_columns",
    "Verif.Tally.C31_overlap_violated",
    "Verif.Tally.C31_alternative_formula_violated",
    "Verif.Tally.C31_kinetics_formula_violated"
   ],
   "note": "Exact rationals; element lists, totals and moles of the reactants are taken from the engine's stores before and after the step, fill factor not 0. Cells, additional row, untouched cells, refusal, columns proved for every table and reactant list when the caller declares at least as many rows as the table has. Violated: one row less is accepted and the additional row runs over (C31_overlap_violated); phases with alternative formulas and kinetic reactants sharing a rate name are reported wrongly. get_all_components (choice of rows) is not modelled."
  },
  {
   "property": "C32",
   "status": "partial",
   "theorems": [
    "Verif.Mms.C32_request_partial",
    "Verif.Mms.C32_evaporation_partial",
    "Verif.Mms.C32_fill",
    "Verif.Mms.C32_temperature_violated",
    "Verif.Mms.C32_missing_violated",
    "Verif.Mms.C32_negative_violated"
   ],
   "note": "All solution/fraction lists, reactant selections and stores, for an abstract chemistry; the generated text is read back by a small interpreter of MIX/SAVE/USE/COPY/END. %g rounding is the parameter near. Violated: reaction temperature dropped by the fall-through in entity_exists (C32_temperature_violated); a missing solution in an evaporation request re-runs the previous request and reports success (C32_missing_violated); several negative fractions (C32_negative_violated). Fill factor positive (otherwise only a message is printed)."
  },
  {
   "property": "C33",
   "status": "partial",
   "theorems": [
    "Verif.FString.C33_pad",
    "Verif.FString.C33_length",
    "Verif.FString.C33_to_library",
    "Verif.FString.C33_roundtrip",
    "Verif.FString.C33_roundtrip_f2c_partial",
    "Verif.FString.C33_nonascii_violated",
    "Verif.FString.C33_selected_output"
   ],
   "note": "All texts and lengths. Full for the Fortran module interface (trim); for f2cstring (library built without the module) all trailing characters that are not printable ASCII are lost (C33_nonascii_violated). Texts without NUL characters; malloc succeeds."
  },
  {
   "property": "C34",
   "status": "proved",
   "theorems": [
    "Verif.SolnNum.C34_unique",
    "Verif.SolnNum.C34_range",
    "Verif.SolnNum.C34_table"
   ],
   "note": "Numbers of all reservoirs (both time levels) are distinct for up to 999 MRUs, 99 bins, 998999 data sources and 10^8 segments (declared maxima 500/50/41/100), single precision arithmetic of the code included; the numbers of the rows initialised are pairwise different."
  },
  {
   "property": "C35",
   "status": "partial",
   "theorems": [
    "Verif.SolnNum.C35_indices",
    "Verif.SolnNum.C35_inside",
    "Verif.SolnNum.C35_time",
    "Verif.SolnNum.C35_unique",
    "Verif.SolnNum.C35_table_fits",
    "Verif.SolnNum.C35_contents_partial",
    "Verif.SolnNum.C35_chemvar_partial",
    "Verif.SolnNum.C35_chemvar",
    "Verif.SolnNum.C35_reactants_partial",
    "Verif.SolnNum.C35_bins_violated",
    "Verif.SolnNum.C35_reactants_violated",
    "Verif.SolnNum.C35_combined_violated"
   ],
   "note": "Indices recovered, rows inside the table, shared by both time levels and distinct for all reservoirs: proved. That the row is the one initialised for the reservoir (contents, chemical variables, reactants) is proved when every MRU has the maximal number of bins and refuted otherwise; the disused reservoir kind 6 shares rows with bins (refuted)."
  },
  {
   "property": "C36",
   "status": "partial",
   "theorems": [
    "Verif.Intcp.C36_intercept",
    "Verif.Intcp.C36_step_partial",
    "Verif.Intcp.C36_history_partial",
    "Verif.Intcp.C36_storage",
    "Verif.Intcp.C36_leaf_fall_violated",
    "Verif.Intcp.C36_grass_violated"
   ],
   "note": "Balance, bounds and whole-history balance proved for steps where the canopy takes part and the season does not end; storage never negative at every step. Fails when leaves fall (the water on the lost leaves is dropped) and when grass is covered by snow (storage discarded). Reals are exact rationals."
  },
  {
   "property": "C37",
   "status": "partial",
   "theorems": [
    "Verif.Snow.C37_day",
    "Verif.Snow.C37_range",
    "Verif.Snow.C37_defined_partial",
    "Verif.Snow.C37_run_partial",
    "Verif.Snow.C37_initial",
    "Verif.Snow.C37_nexlag_violated",
    "Verif.Snow.C37_start_violated"
   ],
   "note": "Proved for exact arithmetic and documented parameter ranges (Mru.Ok), for every function set meeting Fn.Ok. Missing: nexlag below 2, its default, writes outside arrays (C37_nexlag_violated); a run starting on a dry day without snow uses an unassigned temperature (C37_start_violated), so the theorem over runs assumes the first day has snow or precipitation."
  },
  {
   "property": "C38",
   "status": "partial",
   "theorems": [
    "Verif.Topmod.C38_never_stops",
    "Verif.Topmod.C38_step_partial",
    "Verif.Topmod.C38_tolerance",
    "Verif.Topmod.C38_range_partial",
    "Verif.Topmod.C38_run_partial",
    "Verif.Topmod.C38_initial",
    "Verif.Topmod.C38_defined",
    "Verif.Topmod.C38_wilting_violated"
   ],
   "note": "One unit, exact rationals; EXP, SQRT, 10**x and the Newton iteration of EXPINF are parameters. C38_step_partial and C38_run_partial: the balance for one step and for whole runs when the area fractions of the bins add to one, except for at most 1e-7 m per step that the code sets to zero; C38_tolerance: the bound under the tolerance accepted at initialisation. C38_range_partial: deficits and storages stay in range and no flow is negative (the solver must not step back). C38_never_stops: 'double recharge' is unreachable for any state. C38_defined: no division by zero or missing schedule. C38_initial: accepted initial states qualify if theta_0 is not below the wilting point; C38_wilting_violated: this is not checked and evapotranspiration becomes negative. Missing: exact equality (the code drops storage below 1e-7 m), rounding of single precision; gw_ext is an uninitialised array in the module and is an arbitrary input here."
  },
  {
   "property": "C39",
   "status": "partial",
   "theorems": [
    "Verif.Route.C39_step_partial",
    "Verif.Route.C39_defined",
    "Verif.Route.C39_run_partial",
    "Verif.Route.C39_initial",
    "Verif.Route.C39_start",
    "Verif.Route.C39_delay",
    "Verif.Route.C39_loss_violated"
   ],
   "note": "Proved for channels without losses: water balance of every step and of whole runs, state never negative (also with losses), discharge equals the convolution of inflow and ordinates, runs are defined, and an accepted initialisation meets the hypotheses. With channel losses the balance fails (C39_loss_violated): the loss is recorded but never removed from the channel. Reals are exact rationals; initial water for internal irrigation (route_clark.F:684-698) is not modelled."
  },
  {
   "property": "C40",
   "status": "partial",
   "theorems": [
    "Verif.Route.C40_accepted",
    "Verif.Route.C40_sum",
    "Verif.Route.C40_share",
    "Verif.Route.C40_point_violated",
    "Verif.Route.C40_table_violated",
    "Verif.Route.C40_overrun_violated"
   ],
   "note": "Proved for tables with at least two points and growing distances ending at 1: acceptance exactly for the right nhydro, ordinates not negative and adding up to the area fraction, prefix sums follow the table. Violated when all points lie a whole number of steps away (C40_point_violated, no ordinates), for tables not ending at 1 (C40_table_violated) and for nhydro too small (C40_overrun_violated, out of bounds before the check). Reals are exact rationals."
  },
  {
   "property": "C41",
   "status": "proved",
   "theorems": [
    "Verif.Precip.C41_precip",
    "Verif.Precip.C41_nonnegative",
    "Verif.Precip.C41_thresholds",
    "Verif.Precip.C41_share",
    "Verif.Precip.C41_irrigation",
    "Verif.Precip.C41_dry",
    "Verif.Precip.C41_split_violated"
   ],
   "note": "Proved for all temperatures, thresholds and amounts, in the precipitation module and after the irrigation module. C41_split_violated: the irrigation module divides mixtures anew even without irrigation, so the separate adjustment of rain and snow is lost. Reals are exact rationals."
  },
  {
   "property": "C42",
   "status": "partial",
   "theorems": [
    "Verif.SolnNum.C42_accepted",
    "Verif.SolnNum.C42_sum",
    "Verif.SolnNum.C42_rejected",
    "Verif.SolnNum.C42_unchanged",
    "Verif.SolnNum.C42_negative_partial",
    "Verif.SolnNum.C42_after_evaporation_violated",
    "Verif.SolnNum.C42_rejected_violated"
   ],
   "note": "Acceptance criterion and treatment of each fraction proved for all lists; negative fractions listed after evaporation/melt are kept and rejected mixes are made nevertheless (both refuted)."
  },
  {
   "property": "C43",
   "status": "partial",
   "theorems": [
    "Verif.Chem.C43_flow",
    "Verif.Chem.C43_reaction",
    "Verif.Chem.C43_history",
    "Verif.Chem.C43_bins",
    "Verif.Chem.C43_final",
    "Verif.Chem.C43_parts",
    "Verif.Chem.C43_start",
    "Verif.Chem.C43_downstream_violated",
    "Verif.Chem.C43_stream_volume_violated",
    "Verif.Chem.C43_stream_inputs_violated"
   ],
   "note": "update_chem, evaporation bookkeeping and the start of a step over any history: flows and hillslope reactions reach exactly the accounts they concern, composites are sums over reservoirs, unsaturated zone = riparian + upland. Violated for stream segments: water passed downstream is recorded several times, stream composite volume is overwritten and its internal transfers count as inputs only (C43_*_violated)."
  },
  {
   "property": "C44",
   "status": "partial",
   "theorems": [
    "Verif.FString.C44_in_order",
    "Verif.FString.C44_line_partial",
    "Verif.FString.C44_copies_partial",
    "Verif.FString.C44_wide_violated"
   ],
   "note": "All lists of pairs and all library behaviours; with the library's COPY (C26) the requested pairs are copied. Targets below 10^9: with ten digits the numbers run together (C44_wide_violated); keywords up to 54 characters (longer ones are a runtime error)."
  },
  {
   "property": "C45",
   "status": "proved",
   "theorems": [
    "Verif.Top2c.C45_accepted",
    "Verif.Top2c.C45_refused",
    "Verif.Top2c.C45_areas",
    "Verif.Top2c.C45_inflow"
   ],
   "note": "Reals are exact rationals."
  },
  {
   "property": "C46",
   "status": "partial",
   "theorems": [
    "Verif.Params.C46_two_dims_partial",
    "Verif.Params.C46_one_dim_partial",
    "Verif.Params.C46_long64_violated",
    "Verif.Params.C46_three_dims_violated"
   ],
   "note": "Floating point types in one and two dimensions; integers on LP64 and three dimensions fail (_violated)."
  },
  {
   "property": "C47",
   "status": "partial",
   "theorems": [
    "Verif.Control.C47_integer_iff",
    "Verif.Control.C47_integer_violated",
    "Verif.Control.C47_string_partial",
    "Verif.Control.C47_string_padding_violated"
   ],
   "note": "Exact condition for control_integer_ (only one signed byte is returned) and the copy part of control_string_; refuted: integers outside -128..127 and blank padding."
  },
  {
   "property": "C49",
   "status": "proved",
   "theorems": [
    "Verif.SelOut.C49_matrix"
   ],
   "note": "Every history; column-major layout and inactive value."
  },
  {
   "property": "C50",
   "status": "partial",
   "theorems": [
    "Verif.IPq.C50_messages_partial",
    "Verif.IPq.C50_results_partial",
    "Verif.IPq.C50_stopped_violated",
    "Verif.IPq.C50_accumulate_violated",
    "Verif.IPq.C50_load_violated"
   ],
   "note": "Error and warning lines after every run; output, log and selected-output lines after runs not stopped by an error. Refuted for stopped runs, for AccumulateLine and for failing LoadDatabase."
  },
  {
   "property": "C51",
   "status": "proved",
   "theorems": [
    "Verif.IPq.C51_no_leftovers",
    "Verif.IPq.C51_tables"
   ],
   "note": "Every engine, every instance: no leftovers (C51_no_leftovers) and the exact table of every block (C51_tables)."
  },
  {
   "property": "C52",
   "status": "partial",
   "theorems": [
    "Verif.IPq.C52_refused",
    "Verif.IPq.C52_failed_load_partial",
    "Verif.IPq.C52_test_violated"
   ],
   "note": "Refusal without a database, and load errors leave no database; a database whose test run fails is still used (C52_test_violated)."
  },
  {
   "property": "C53",
   "status": "partial",
   "theorems": [
    "Verif.Nd.C53_mean",
    "Verif.Nd.C53_reaction_mean_partial",
    "Verif.Nd.C53_evaporation_violated",
    "Verif.Nd.C53_weights_violated"
   ],
   "note": "Exact rationals. Means proved for positive fractions; with a negative fraction the reaction step's weights are wrong (C53_evaporation_violated) and add_intensive does not scale names only the first map has."
  },
  {
   "property": "C54",
   "status": "partial",
   "theorems": [
    "Verif.Precip.C54_diverted_partial",
    "Verif.Precip.C54_first_violated"
   ],
   "note": "Proved for every step but the first; the first step records the diversion twice (C54_first_violated)."
  },
  {
   "property": "C55",
   "status": "partial",
   "theorems": [
    "Verif.Route.C55_delivered_partial",
    "Verif.Route.C55_available",
    "Verif.Route.C55_schedule_violated",
    "Verif.Route.C55_pump_violated"
   ],
   "note": "Proved for units whose schedule has the number of their segment and which stay within the pump capacity; C55_schedule_violated and C55_pump_violated show that both conditions are needed. C55_available is proved without channel losses."
  },
  {
   "property": "C56",
   "status": "proved",
   "theorems": [
    "Verif.Topmod.C56_bin",
    "Verif.Topmod.C56_total"
   ],
   "note": "C56_bin: for any state, inputs and functions. Exact rationals. The bound of 1e-7 m is part of the statement."
  },
  {
   "property": "C57",
   "status": "partial",
   "theorems": [
    "Verif.Topmod.C57_printed_partial",
    "Verif.Topmod.C57_pumping_violated"
   ],
   "note": "C57_printed_partial: for whole runs from an accepted initialisation the printed balance is the water pumped for irrigation plus at most 1e-7 m per step, when area fractions add to one. C57_pumping_violated: with pumping the printed balance does not close because pumped water is not in the sum."
  },
  {
   "property": "C58",
   "status": "partial",
   "theorems": [
    "Verif.Snow.C58_quarter_partial",
    "Verif.Snow.C58_day_violated",
    "Verif.Snow.C58_bare_violated"
   ],
   "note": "Holds in the first quarter of a day (C58_quarter_partial, dry cold pack). Violated over a day: the rate is reduced by the cover again in every quarter (C58_day_violated), and becomes 0 for the rest of the day after snow on bare ground (C58_bare_violated)."
  },
  {
   "property": "C59",
   "status": "proved",
   "theorems": [
    "Verif.Snow.C59_form",
    "Verif.Snow.C59_all",
    "Verif.Snow.C59_cover"
   ],
   "note": "Exact arithmetic; the quarter temperatures are those computed by the code from the day's extremes (temps)."
  },
  {
   "property": "C60",
   "status": "proved",
   "theorems": [
    "Verif.Chem.C60_balance",
    "Verif.Chem.C60_next"
   ],
   "note": "Hypothesis: the concentration passed in is that of the complete mixture (what the engine computes is not modelled here). Isotopes are excluded."
  },
  {
   "property": "C61",
   "status": "partial",
   "theorems": [
    "Verif.Chem.C61_flow_partial",
    "Verif.Chem.C61_final_violated",
    "Verif.Chem.C61_gain_partial",
    "Verif.Chem.C61_loss_violated"
   ],
   "note": "Holds for inputs (C61_flow_partial, C61_gain_partial) and outputs through calls; violated for the final content, which is weighted with the exported volume (C61_final_violated), and for outputs where groundwater is lost (C61_loss_violated)."
  },
  {
   "property": "C62",
   "status": "partial",
   "theorems": [
    "Verif.ParFile.C62_file",
    "Verif.ParFile.C62_more",
    "Verif.ParFile.C62_count",
    "Verif.ParFile.C62_any_text",
    "Verif.ParFile.C62_untouched",
    "Verif.ParFile.C62_fallback",
    "Verif.ParFile.C62_last_undeclared_violated"
   ],
   "note": "C62_file, C62_more, C62_count, C62_untouched, C62_fallback hold in full; C62_any_text lists the undefined outcomes that remain for malformed text; C62_last_undeclared_violated: an undeclared last parameter closes the file twice, so files must end with a declared parameter. Conversion of number text is a parameter; 64-bit long storage not modelled."
  },
  {
   "property": "C63",
   "status": "partial",
   "theorems": [
    "Verif.ParFile.C63_dims",
    "Verif.ParFile.C63_any_text",
    "Verif.ParFile.C63_untouched",
    "Verif.ParFile.C63_undeclared_violated",
    "Verif.ParFile.C63_names_violated",
    "Verif.ParFile.C63_hang_violated"
   ],
   "note": "C63_dims, C63_any_text, C63_untouched; three defects proved as C63_undeclared_violated, C63_names_violated, C63_hang_violated (index names of an undeclared dimension, too few names on the last dimension, a note on the last line)."
  },
  {
   "property": "C48",
   "status": "proved",
   "theorems": [
    "Verif.DataLine.C48_header",
    "Verif.DataLine.C48_values",
    "Verif.DataLine.C48_position",
    "Verif.DataLine.C48_readvar",
    "Verif.DataLine.C48_readvar_error",
    "Verif.DataLine.C48_run"
   ],
   "note": "Number conversion to float/double and the range check of strtod are parameters; times are exact rationals. Violations for malformed text are under C65-C67."
  },
  {
   "property": "C64",
   "status": "proved",
   "theorems": [
    "Verif.DataLine.C64_fields",
    "Verif.DataLine.C64_reject",
    "Verif.DataLine.C64_order",
    "Verif.DataLine.C64_injective",
    "Verif.DataLine.C64_midnight"
   ],
   "note": "Fields written as whole numbers (seconds any decimal number). Existing times: dates of the civil calendar, 0:00:00 to 23:59:59."
  },
  {
   "property": "C65",
   "status": "partial",
   "theorems": [
    "Verif.DataLine.C65_ranges_partial",
    "Verif.DataLine.C65_date_violated",
    "Verif.DataLine.C65_seconds_violated"
   ],
   "note": "Only the fixed ranges are checked: 30 February and seconds above 59 are accepted (violations proved)."
  },
  {
   "property": "C66",
   "status": "partial",
   "theorems": [
    "Verif.DataLine.C66_range_partial",
    "Verif.DataLine.C66_missing_violated",
    "Verif.DataLine.C66_text_violated",
    "Verif.DataLine.C66_fraction_violated",
    "Verif.DataLine.C66_range_violated",
    "Verif.DataLine.C66_header_violated"
   ],
   "note": "Only a range error stops reading; all other malformed values are silently taken as 0 or misplaced, and the run ends as if complete (violations proved)."
  },
  {
   "property": "C67",
   "status": "partial",
   "theorems": [
    "Verif.DataLine.C67_same_header_partial",
    "Verif.DataLine.C67_headers_violated"
   ],
   "note": "Holds if all files have the same header; otherwise the last header is used for all files (violation proved)."
  },
  {
   "property": "C68",
   "status": "proved",
   "theorems": [
    "Verif.Formula.C68_formula",
    "Verif.Formula.C68_terminates",
    "Verif.Formula.C68_complete"
   ],
   "note": ""
  },
  {
   "property": "C69",
   "status": "partial",
   "theorems": [
    "Verif.Formula.C69_parts_partial",
    "Verif.Formula.C69_parts_violated",
    "Verif.Formula.C69_group_violated",
    "Verif.Formula.C69_bracket_violated"
   ],
   "note": "Holds if only the last part has a number; several numbered parts multiply, a colon part in a group followed by a number is refused, an opening bracket at the end reads past the text (violations proved)."
  },
  {
   "property": "C70",
   "status": "proved",
   "theorems": [
    "Verif.Formula.C70_combine"
   ],
   "note": ""
  },
  {
   "property": "C71",
   "status": "proved",
   "theorems": [
    "Verif.Formula.C71_value",
    "Verif.Formula.C71_names"
   ],
   "note": ""
  },
  {
   "property": "C72",
   "status": "partial",
   "theorems": [
    "Verif.Formula.C72_fraction_partial",
    "Verif.Formula.C72_fraction_violated",
    "Verif.Formula.C72_octal_violated",
    "Verif.Formula.C72_range_violated"
   ],
   "note": "The value of a fractional charge is right; equal fractional charges in different spellings are different species, leading zeros mean octal, large charges wrap (violations proved)."
  },
  {
   "property": "C73",
   "status": "proved",
   "theorems": [
    "Verif.Formula.C73_species",
    "Verif.Formula.C73_phase"
   ],
   "note": ""
  },
  {
   "property": "C74",
   "status": "partial",
   "theorems": [
    "Verif.Formula.C74_composition_partial",
    "Verif.Formula.C74_sulfur_violated",
    "Verif.Formula.C74_phase_violated",
    "Verif.Formula.C74_long_violated"
   ],
   "note": "Holds for formulas without (s), (g), (S), (G); (S) and (G) groups are dropped from the formula, names of 256 or more characters end the process (violations proved)."
  },
  {
   "property": "C75",
   "status": "proved",
   "theorems": [
    "Verif.Solar.C75_interpolation",
    "Verif.Solar.C75_start",
    "Verif.Solar.C75_range"
   ],
   "note": ""
  },
  {
   "property": "C76",
   "status": "partial",
   "theorems": [
    "Verif.Solar.C76_first_day_partial",
    "Verif.Solar.C76_december_violated",
    "Verif.Solar.C76_gap_violated"
   ],
   "note": "Proved: the first day of a simulation that starts on 21 December. Violated: the whole year after it, and the time after a missing day at which a table entry begins."
  },
  {
   "property": "C77",
   "status": "proved",
   "theorems": [
    "Verif.Solar.C77_estimate",
    "Verif.Solar.C77_measured"
   ],
   "note": ""
  },
  {
   "property": "C78",
   "status": "partial",
   "theorems": [
    "Verif.Solar.C78_received_partial",
    "Verif.Solar.C78_first_unit_violated",
    "Verif.Solar.C78_polar_violated"
   ],
   "note": "Proved: non-negative, and right if the first unit is horizontal. Violated: the first unit is taken as the horizontal surface whatever its slope; undefined when its potential radiation is zero."
  },
  {
   "property": "C79",
   "status": "proved",
   "theorems": [
    "Verif.Climate.C79_month"
   ],
   "note": ""
  },
  {
   "property": "C80",
   "status": "partial",
   "theorems": [
    "Verif.Climate.C80_recovers_partial",
    "Verif.Climate.C80_gap_violated"
   ],
   "note": "Proved: right from the next first of a month. Violated: a missing first day leaves the rates of an earlier month."
  },
  {
   "property": "C81",
   "status": "proved",
   "theorems": [
    "Verif.Climate.C81_mean",
    "Verif.Climate.C81_range"
   ],
   "note": ""
  },
  {
   "property": "C82",
   "status": "partial",
   "theorems": [
    "Verif.Climate.C82_start_partial",
    "Verif.Climate.C82_start_violated",
    "Verif.Climate.C82_hourly_violated",
    "Verif.Climate.C82_zero_violated"
   ],
   "note": "Proved: during the start the mean is taken with zeros before the first step. Violated: biased start, period counted in time steps, period 0 writes outside the array."
  },
  {
   "property": "C83",
   "status": "proved",
   "theorems": [
    "Verif.Climate.C83_season"
   ],
   "note": ""
  },
  {
   "property": "C84",
   "status": "partial",
   "theorems": [
    "Verif.Climate.C84_on_partial",
    "Verif.Climate.C84_cold_violated",
    "Verif.Climate.C84_last_month_violated",
    "Verif.Climate.C84_first_day_violated"
   ],
   "note": "Proved: switched on only after the index was exceeded. Violated: cold years, last month, first day."
  },
  {
   "property": "C85",
   "status": "proved",
   "theorems": [
    "Verif.Climate.C85_day",
    "Verif.Climate.C85_daily",
    "Verif.Climate.C85_hamon"
   ],
   "note": ""
  },
  {
   "property": "C86",
   "status": "partial",
   "theorems": [
    "Verif.Climate.C86_own_day_partial",
    "Verif.Climate.C86_first_hour_violated",
    "Verif.Climate.C86_two_days_violated"
   ],
   "note": "Proved for daily steps. Violated: shorter steps use the temperature of the first step of the day, longer ones the value of one day."
  },
  {
   "property": "C87",
   "status": "proved",
   "theorems": [
    "Verif.Climate.C87_accepted",
    "Verif.Climate.C87_average",
    "Verif.Climate.C87_split"
   ],
   "note": ""
  },
  {
   "property": "C88",
   "status": "proved",
   "theorems": [
    "Verif.Climate.C88_units",
    "Verif.Climate.C88_same",
    "Verif.Climate.C88_step"
   ],
   "note": ""
  },
  {
   "property": "C89",
   "status": "partial",
   "theorems": [
    "Verif.Climate.C89_read_partial",
    "Verif.Climate.C89_fahrenheit_violated"
   ],
   "note": "Violated: the temperature in degrees Celsius remains the mean of the extremes."
  },
  {
   "property": "C90",
   "status": "proved",
   "theorems": [
    "Verif.Output.C90_file",
    "Verif.Output.C90_columns",
    "Verif.Output.C90_refused",
    "Verif.Output.C90_off"
   ],
   "note": "Number formats of the C library are parameters. Elements are addressed as in C12."
  },
  {
   "property": "C91",
   "status": "partial",
   "theorems": [
    "Verif.Output.C91_text_violated",
    "Verif.Output.C91_short_violated",
    "Verif.Output.C91_long_violated"
   ],
   "note": "Violated in all three cases."
  },
  {
   "property": "C92",
   "status": "proved",
   "theorems": [
    "Verif.Output.C92_files",
    "Verif.Output.C92_columns",
    "Verif.Output.C92_refused"
   ],
   "note": "Number and time formats are parameters."
  },
  {
   "property": "C93",
   "status": "partial",
   "theorems": [
    "Verif.Output.C93_integers_partial",
    "Verif.Output.C93_integers_violated",
    "Verif.Output.C93_arrays_violated"
   ],
   "note": "Right if the first variables of the request have different dimensions and the others repeat them. Violated otherwise (the file is chosen with the number of the dimension), and only the first row of arrays is written."
  },
  {
   "property": "C94",
   "status": "proved",
   "theorems": [
    "Verif.Output.C94_complete",
    "Verif.Output.C94_lines",
    "Verif.Output.C94_saved",
    "Verif.Output.C94_failed"
   ],
   "note": "Steps of the data are given by C17; what the modules do by C19."
  },
  {
   "property": "C95",
   "status": "proved",
   "theorems": [
    "Verif.CmdLine.C95_options",
    "Verif.CmdLine.C95_separate",
    "Verif.CmdLine.C95_model_name"
   ],
   "note": "Options with arguments of their own (-debug): C96."
  },
  {
   "property": "C96",
   "status": "partial",
   "theorems": [
    "Verif.CmdLine.C96_debug_violated",
    "Verif.CmdLine.C96_debug_partial",
    "Verif.CmdLine.C96_incomplete_violated",
    "Verif.CmdLine.C96_many_violated"
   ],
   "note": "Right if the control file is named after -debug. Violated: the level is taken as control file; incomplete options read past the arguments; the 101st setting is written past the array."
  },
  {
   "property": "C97",
   "status": "proved",
   "theorems": [
    "Verif.ObsChem.C97_header",
    "Verif.ObsChem.C97_refused",
    "Verif.ObsChem.C97_first"
   ],
   "note": "Words of at most 12 characters, line of at most 1000, at most 100 columns; the others are in C98."
  },
  {
   "property": "C98",
   "status": "partial",
   "theorems": [
    "Verif.ObsChem.C98_unit_missing_violated",
    "Verif.ObsChem.C98_blanks_violated",
    "Verif.ObsChem.C98_long_violated",
    "Verif.ObsChem.C98_solute_violated",
    "Verif.ObsChem.C98_constant_violated"
   ],
   "note": "Violated in all cases: missing unit uses what the variable holds, two blanks are refused though the order is right, long names cannot be matched, unknown solutes read outside the table, sources are not read with constant precipitation."
  },
  {
   "property": "C99",
   "status": "proved",
   "theorems": [
    "Verif.ObsChem.C99_units",
    "Verif.ObsChem.C99_unchanged",
    "Verif.ObsChem.C99_step"
   ],
   "note": "Exact arithmetic. Samples and sources in the file or no sources (otherwise C101)."
  },
  {
   "property": "C100",
   "status": "proved",
   "theorems": [
    "Verif.ObsChem.C100_run"
   ],
   "note": "Records written one per line; times as whole numbers."
  },
  {
   "property": "C101",
   "status": "partial",
   "theorems": [
    "Verif.ObsChem.C101_malformed_violated",
    "Verif.ObsChem.C101_short_violated",
    "Verif.ObsChem.C101_sources_violated"
   ],
   "note": "Violated in all three cases."
  },
  {
   "property": "C102",
   "status": "partial",
   "theorems": [
    "Verif.ObsChem.C102_uses_partial",
    "Verif.ObsChem.C102_samples_violated"
   ],
   "note": "Right if the sources are in the file or there are none; otherwise samples become solutions and are not recorded."
  },
  {
   "property": "C103",
   "status": "partial",
   "theorems": [
    "Verif.Reservoir.C103_step",
    "Verif.Reservoir.C103_snow_partial",
    "Verif.Reservoir.C103_run",
    "Verif.Reservoir.C103_composite",
    "Verif.Reservoir.C103_paths"
   ],
   "note": "snow: only if the fluxes agree with each other (shown for the modules in C104) and no throughfall below a litre occurs (C104_litre_violated)"
  },
  {
   "property": "C104",
   "status": "partial",
   "theorems": [
    "Verif.Reservoir.C104_step",
    "Verif.Reservoir.C104_run",
    "Verif.Reservoir.C104_modules",
    "Verif.Reservoir.C104_litre_violated"
   ],
   "note": "proved for fluxes that agree with each other, which C104_modules shows for those of the modules; fails for throughfall below a litre"
  },
  {
   "property": "C105",
   "status": "partial",
   "theorems": [
    "Verif.Reservoir.C105_step_partial",
    "Verif.Reservoir.C105_saturated",
    "Verif.Reservoir.C105_canopy_partial",
    "Verif.Reservoir.C105_run_partial",
    "Verif.Reservoir.C105_canopy_run_partial",
    "Verif.Reservoir.C105_initial",
    "Verif.Reservoir.C105_leaf_fall_violated"
   ],
   "note": "soil up to 1e-7 m per step, the amount the soil module itself drops (C38); canopy as long as interception accounts for its water (C36); fails when leaves fall from a wet canopy"
  },
  {
   "property": "C106",
   "status": "partial",
   "theorems": [
    "Verif.Reservoir.C106_step_partial",
    "Verif.Reservoir.C106_run_partial",
    "Verif.Reservoir.C106_loss_violated",
    "Verif.Reservoir.C106_start_partial",
    "Verif.Reservoir.C106_start_violated"
   ],
   "note": "exact except for water lost and taken from streams, which stays in the stream volumes; start: one channel, no losses"
  },
  {
   "property": "C107",
   "status": "proved",
   "theorems": [
    "Verif.Reservoir.C107_report"
   ],
   "note": "for fluxes that agree with each other (C104_modules)"
  },
  {
   "property": "C108",
   "status": "partial",
   "theorems": [
    "Verif.Reservoir.C108_places",
    "Verif.Reservoir.C108_names_partial",
    "Verif.Reservoir.C108_summary_violated",
    "Verif.Reservoir.C108_no_solutes_violated",
    "Verif.Reservoir.C108_units_violated"
   ],
   "note": "places: detailed output with solutes; names: up to 999 units and segments, 99 bins; the rest is violated"
  },
  {
   "property": "C109",
   "status": "partial",
   "theorems": [
    "Verif.Summary.C109_totals",
    "Verif.Summary.C109_extremes",
    "Verif.Summary.C109_detail",
    "Verif.Summary.C109_table",
    "Verif.Summary.C109_chem",
    "Verif.Summary.C109_no_outflow_violated",
    "Verif.Summary.C109_step",
    "Verif.Summary.C109_step_chem",
    "Verif.Summary.C109_objective"
   ],
   "note": "Sums, means and extremes of accumulators and printed rows over exactly the steps of the period, and of the chemistry rows. Storms are counted as days by the code; without outflow chemistry means are 0/0 (C109_no_outflow_violated)."
  },
  {
   "property": "C110",
   "status": "partial",
   "theorems": [
    "Verif.Summary.C110_step",
    "Verif.Summary.C110_run",
    "Verif.Summary.C110_storage",
    "Verif.Summary.C110_table_violated",
    "Verif.Summary.C110_loss_violated"
   ],
   "note": "The change of storage is that of the storages printed (C110_storage). The printed error of the balance is exactly diversions less irrigation from streams in every step but the first (C110_step, C110_run), so it is not what is unexplained: C110_loss_violated, C110_table_violated."
  },
  {
   "property": "C111",
   "status": "partial",
   "theorems": [
    "Verif.Summary.C111_switches",
    "Verif.Summary.C111_rows",
    "Verif.Summary.C111_daily",
    "Verif.Summary.C111_day_step",
    "Verif.Summary.C111_dtinit_violated",
    "Verif.Summary.C111_chem_daily_violated"
   ],
   "note": "Rows and headings written at every step, for print_type 1 and 2 and any switches. Fails for days with dtinit below the step and for daily chemistry rows (C111_*_violated)."
  },
  {
   "property": "C112",
   "status": "partial",
   "theorems": [
    "Verif.Summary.C112_flow_violated",
    "Verif.Summary.C112_explanation_violated",
    "Verif.Summary.C112_detail",
    "Verif.Summary.C112_initial",
    "Verif.Summary.C112_table",
    "Verif.Summary.C112_table_head_violated",
    "Verif.Summary.C112_chem_partial",
    "Verif.Summary.C112_outlet_violated"
   ],
   "note": "Columns of the detailed and short tables, the initial storages and the chemistry rows of periods for any number of solutes. Fails for print_type 0, the explanation, steps at the outlet and the first rule of the short table (C112_*_violated). Digits are not modelled."
  },
  {
   "property": "C113",
   "status": "partial",
   "theorems": [
    "Verif.Transport.C113_unit_partial"
   ],
   "note": "For flows the mixing sequence provides for (Flow.Regular); each provision is shown necessary for conservation by a C114_*_violated theorem."
  },
  {
   "property": "C114",
   "status": "partial",
   "theorems": [
    "Verif.Transport.C114_unit_partial",
    "Verif.Transport.C114_bypass_violated",
    "Verif.Transport.C114_recharge_violated",
    "Verif.Transport.C114_rise_violated",
    "Verif.Transport.C114_pulse_violated",
    "Verif.Transport.C114_empty_violated",
    "Verif.Transport.C114_canopy_violated",
    "Verif.Transport.C114_leaves_violated"
   ],
   "note": "Partial: flows outside Flow.Regular are not conserved: irrigation that bypasses the unsaturated zone, recharge of bins that feed only preferential flow, a rising water table without percolation, pulses of ions with sublimation, empty bins that receive water, canopies that only hold back irrigation, leaves that come with overland flow."
  },
  {
   "property": "C115",
   "status": "partial",
   "theorems": [
    "Verif.Transport.C115_routed",
    "Verif.Transport.C115_volumes",
    "Verif.Transport.C115_conserved_partial",
    "Verif.Transport.C115_taken_violated"
   ],
   "note": "Routing and volumes proved; conservation where no water is taken or lost; otherwise the solute of that water stays in the stream (general formula in C115_taken_violated)."
  },
  {
   "property": "C116",
   "status": "partial",
   "theorems": [
    "Verif.Transport.C116_step_partial",
    "Verif.Transport.C116_tight_partial",
    "Verif.Transport.C116_run_partial",
    "Verif.Transport.C116_taken_violated"
   ],
   "note": "Per step and per run, with the excess of C115 as an explicit term; the step without excess in C116_tight_partial."
  },
  {
   "property": "C117",
   "status": "partial",
   "theorems": [
    "Verif.Transport.C117_unit_partial",
    "Verif.Transport.C117_balance_partial",
    "Verif.Transport.C117_reaction_violated",
    "Verif.Transport.C117_atmosphere_violated",
    "Verif.Transport.C117_path_violated"
   ],
   "note": "For flows the mixing sequence provides for (Flow.Regular, as in C113) and where all solutions hold the same mass of water (Full). Records of stream segments are not covered. Exceptions are shown by C117_*_violated."
  },
  {
   "property": "C118",
   "status": "partial",
   "theorems": [
    "Verif.Transport.C118_step_partial",
    "Verif.Transport.C118_run_partial",
    "Verif.Transport.C118_path_violated",
    "Verif.Transport.C118_rain_violated"
   ],
   "note": "For flows the mixing sequence provides for (Flow.Regular, as in C113) and where all solutions hold the same mass of water (Full). Rows of units; rows of stream segments, composites and isotopes are not covered. The input of deep preferential flow is entered with the concentration before reactions (C117_reaction_violated). Exceptions: C118_path_violated, C118_rain_violated."
  },
  {
   "property": "C119",
   "status": "partial",
   "theorems": [
    "Verif.Transport.C119_step_partial",
    "Verif.Transport.C119_run_partial",
    "Verif.Transport.C119_even_partial",
    "Verif.Transport.C119_reaction_violated",
    "Verif.Transport.C119_path_violated"
   ],
   "note": "For flows the mixing sequence provides for (Flow.Regular, as in C113) and where all solutions hold the same mass of water (Full). Amounts of solutes; volumes, temperature, pH, isotopes and the composites of the unsaturated zone and the basin are not covered. With reactions the composite balances but for the reactions of deposition and of water that has left its reservoir (C119_run_partial gives the difference, C119_reaction_violated a case); without a path of deep preferential flow its water is left out (C119_path_violated)."
  },
  {
   "property": "C120",
   "status": "partial",
   "theorems": [
    "Verif.Transport.C120_step_partial",
    "Verif.Transport.C120_run_partial",
    "Verif.Transport.C120_even_partial",
    "Verif.Transport.C120_taken_violated"
   ],
   "note": "For flows the mixing sequence provides for (Flow.Regular, as in C113), segments whose water from hillslopes is part of their water (Seg.Ok) and where all solutions hold the same mass of water (Full). Amounts of solutes; volumes, temperature, pH, isotopes are not covered. With reactions the composite balances but for those the composites of units leave out (C119); with diversions from streams or channel losses it shows too much output, by the amount given in C120_run_partial (C120_taken_violated)."
  },
  {
   "property": "C121",
   "status": "partial",
   "theorems": [
    "Verif.Basic.C121_value_partial",
    "Verif.Basic.C121_ends",
    "Verif.Basic.C121_consumes",
    "Verif.Basic.C121_not_violated",
    "Verif.Basic.C121_minus_violated",
    "Verif.Basic.C121_power_violated",
    "Verif.Basic.C121_mod_violated",
    "Verif.Basic.C121_and_violated"
   ],
   "note": "Partial: tokens as given (not the text of the line), scalar variables, functions that ask no chemistry; exact numbers; the specification has the values of the code for NOT, ^ of 0, MOD, AND (see the _violated theorems)."
  },
  {
   "property": "C122",
   "status": "proved",
   "theorems": [
    "Verif.Basic.C122_kept",
    "Verif.Basic.C122_order",
    "Verif.Basic.C122_found"
   ],
   "note": "Lines as tokens; line numbers without bound."
  },
  {
   "property": "C123",
   "status": "partial",
   "theorems": [
    "Verif.Basic.C123_runs_partial",
    "Verif.Basic.C123_forever_partial",
    "Verif.Basic.C123_bound",
    "Verif.Basic.C123_call",
    "Verif.Basic.C123_unnamed_violated"
   ],
   "note": "Partial: no GOTO, ON, arrays, DATA, conditions after WEND; IF ends its line; no loop contains a loop of its own variable with an unnamed NEXT (C123_unnamed_violated)."
  },
  {
   "property": "C124",
   "status": "proved",
   "theorems": [
    "Verif.Tsp.C124_consecutive",
    "Verif.Tsp.C124_anchor",
    "Verif.Tsp.C124_inverse",
    "Verif.Tsp.C124_onto",
    "Verif.Tsp.C124_newdate",
    "Verif.Tsp.C124_back",
    "Verif.Tsp.C124_numdays",
    "Verif.Tsp.C124_between",
    "Verif.Tsp.C124_year",
    "Verif.Tsp.C124_doy",
    "Verif.Tsp.C124_month",
    "Verif.Tsp.C124_zero_violated",
    "Verif.Tsp.C124_water"
   ],
   "note": "Proved for dates from -4712-01-01 on. Month lengths and water years except the year 0, where the code differs from its own day numbers (C124_zero_violated). Integer overflow is not modelled."
  },
  {
   "property": "C125",
   "status": "proved",
   "theorems": [
    "Verif.Tsp.C125_sorts",
    "Verif.Tsp.C125_order",
    "Verif.Tsp.C125_canonical"
   ],
   "note": "All lists of rational values. NaN is not modelled."
  },
  {
   "property": "C126",
   "status": "partial",
   "theorems": [
    "Verif.Tsp.C126_median",
    "Verif.Tsp.C126_half",
    "Verif.Tsp.C126_rank",
    "Verif.Tsp.C126_middle",
    "Verif.Tsp.C126_monotone",
    "Verif.Tsp.C126_upper",
    "Verif.Tsp.C126_lower_partial",
    "Verif.Tsp.C126_low_violated",
    "Verif.Tsp.C126_duration_violated",
    "Verif.Tsp.C126_scalar_violated",
    "Verif.Tsp.C126_exceed",
    "Verif.Tsp.C126_table",
    "Verif.Tsp.C126_period_violated",
    "Verif.Tsp.C126_period_witness_violated"
   ],
   "note": "Median, ranks, monotonicity, counts and order of tables proved. Not below the least value only for quantiles of at least one value (C126_lower_partial); refuted otherwise. The period of a flow-duration table is ignored by the code (C126_period_violated)."
  },
  {
   "property": "C127",
   "status": "partial",
   "theorems": [
    "Verif.Tsp.C127_reduce",
    "Verif.Tsp.C127_statistics",
    "Verif.Tsp.C127_median_violated"
   ],
   "note": "Selection of terms and all statistics but the median proved; the median is refuted (C127_median_violated). Values within 1e30 in size, the code's initial extremes."
  },
  {
   "property": "C128",
   "status": "partial",
   "theorems": [
    "Verif.Tsp.C128_volume",
    "Verif.Tsp.C128_additive",
    "Verif.Tsp.C128_bounds",
    "Verif.Tsp.C128_last_violated",
    "Verif.Tsp.C128_second_violated",
    "Verif.Tsp.C128_months",
    "Verif.Tsp.C128_annual_violated",
    "Verif.Tsp.C128_last_witness_violated",
    "Verif.Tsp.C128_first_witness_violated"
   ],
   "note": "Area, additivity, bounds and the list of months proved; for the periods found by the program refuted (C128_last_violated, C128_second_violated, C128_annual_violated)."
  },
  {
   "property": "C129",
   "status": "proved",
   "theorems": [
    "Verif.Tsp.C129_base",
    "Verif.Tsp.C129_span",
    "Verif.Tsp.C129_unique"
   ],
   "note": "Proved with missing values; days are 32-bit integers."
  },
  {
   "property": "C130",
   "status": "partial",
   "theorems": [
    "Verif.Tsp.C130_duration_partial",
    "Verif.Tsp.C130_unique",
    "Verif.Tsp.C130_monotone",
    "Verif.Tsp.C130_total",
    "Verif.Tsp.C130_months_violated"
   ],
   "note": "Proved with delays; the unit of months is refuted (C130_months_violated)."
  },
  {
   "property": "C131",
   "status": "partial",
   "theorems": [
    "Verif.Hysep.C131_interval",
    "Verif.Hysep.C131_half_partial",
    "Verif.Hysep.C131_half_violated",
    "Verif.Hysep.C131_sliding_partial",
    "Verif.Hysep.C131_sliding_bounds_partial",
    "Verif.Hysep.C131_sliding_missing_violated",
    "Verif.Hysep.C131_sliding_short_violated",
    "Verif.Hysep.C131_sliding_large_violated",
    "Verif.Hysep.C131_fixed_partial",
    "Verif.Hysep.C131_fixed_bounds_partial",
    "Verif.Hysep.C131_fixed_short_violated",
    "Verif.Hysep.C131_fixed_end_violated",
    "Verif.Hysep.C131_locmin_flow",
    "Verif.Hysep.C131_locmin_between_partial",
    "Verif.Hysep.C131_locmin_minimum_partial",
    "Verif.Hysep.C131_locmin_ends_partial",
    "Verif.Hysep.C131_locmin_none_violated",
    "Verif.Hysep.C131_locmin_short_violated",
    "Verif.Hysep.C131_locmin_unassigned_violated"
   ],
   "note": "Partial: flows of at most 100000 and records not shorter than the interval (each shown to fail otherwise); fixed intervals and local minima for records without missing flows; the logarithmic line between minima is a parameter; the time of day of the new series (midnight, integer division) is read only."
  },
  {
   "property": "C132",
   "status": "partial",
   "theorems": [
    "Verif.TspEq.C132_equation_value_partial",
    "Verif.TspEq.C132_sign_before_power_violated",
    "Verif.TspEq.C132_towers_violated"
   ],
   "note": "For every equation of the grammar (any size and nesting): the value of PARSE + EVALUATE is the value of the grammar, refused exactly where undefined. Signs bind more than powers and powers go from left to right (violated). Cutting of text into terms and malformed equations are not covered."
  },
  {
   "property": "C133",
   "status": "partial",
   "theorems": [
    "Verif.Tsp.C133_moving_minimum_partial",
    "Verif.Tsp.C133_moving_minimum_large_violated",
    "Verif.Tsp.C133_moving_refused",
    "Verif.Tsp.C133_moving_lowest_partial",
    "Verif.Tsp.C133_moving_lowest_one_violated",
    "Verif.Tsp.C133_difference_partial",
    "Verif.Tsp.C133_base_level",
    "Verif.Tsp.C133_clean_refused",
    "Verif.Tsp.C133_clean_substitute",
    "Verif.Tsp.C133_clean_delete",
    "Verif.Tsp.C133_displace_refused_partial",
    "Verif.Tsp.C133_displace",
    "Verif.Tsp.C133_displace_sentinel_violated"
   ],
   "note": "Windows of more than one term and values up to 1e30; lags other than -9999. Violated: values over 1e30, windows of one term (times twice), a lag of -9999."
  },
  {
   "property": "C135",
   "status": "partial",
   "theorems": [
    "Verif.Tsp.C135_rows",
    "Verif.Tsp.C135_base",
    "Verif.Tsp.C135_two_violated",
    "Verif.Tsp.C135_bias",
    "Verif.Tsp.C135_relative_bias_partial",
    "Verif.Tsp.C135_relative_bias_violated",
    "Verif.Tsp.C135_standard_error",
    "Verif.Tsp.C135_nash",
    "Verif.Tsp.C135_relative_error",
    "Verif.Tsp.C135_coefficient",
    "Verif.Tsp.C135_coefficient_nash",
    "Verif.Tsp.C135_agreement",
    "Verif.Tsp.C135_volumetric_partial",
    "Verif.Tsp.C135_volumetric_violated"
   ],
   "note": "Rational numbers; the square root is a parameter. Violated: two terms are refused, relative bias with mean 0 is 1e30, volumetric efficiency with totals not positive."
  },
  {
   "property": "C134",
   "status": "partial",
   "theorems": [
    "Verif.Tsp.C134_period",
    "Verif.Tsp.C134_time_without_date",
    "Verif.Tsp.C134_open",
    "Verif.Tsp.C134_default_violated",
    "Verif.Tsp.C134_uniform_partial",
    "Verif.Tsp.C134_uniform_refused",
    "Verif.Tsp.C134_uniform_midnight_violated",
    "Verif.Tsp.C134_centre",
    "Verif.Tsp.C134_volumes"
   ],
   "note": "Months and years from times before 24:00. Violated: a first date without time starts at the end of the day; monthly and yearly series from 24:00 on shift by a day."
  },
  {
   "property": "C136",
   "status": "partial",
   "theorems": [
    "Verif.Tsp.C136_case",
    "Verif.Tsp.C136_unique_partial",
    "Verif.Tsp.C136_elements",
    "Verif.Tsp.C136_create",
    "Verif.Tsp.C136_create_refused",
    "Verif.Tsp.C136_erase_partial",
    "Verif.Tsp.C136_reuse",
    "Verif.Tsp.C136_double_violated",
    "Verif.Tsp.C136_g_table_violated",
    "Verif.Tsp.C136_c_table_violated",
    "Verif.Tsp.C136_compare_violated",
    "Verif.Tsp.C136_twice_violated"
   ],
   "note": "Names of characters up to z. Violated: series and C_TABLE with one name; characters after z; series from V_TABLEs, G_TABLEs and series named twice cannot be erased."
  },
  {
   "property": "C137",
   "status": "partial",
   "theorems": [
    "Verif.Tsp.C137_checks",
    "Verif.Tsp.C137_accepted",
    "Verif.Tsp.C137_refused",
    "Verif.Tsp.C137_stages",
    "Verif.Tsp.C137_reverse",
    "Verif.Tsp.C137_design",
    "Verif.Tsp.C137_design_band",
    "Verif.Tsp.C137_constant",
    "Verif.Tsp.C137_linear",
    "Verif.Tsp.C137_causal",
    "Verif.Tsp.C137_settles",
    "Verif.Tsp.C137_real",
    "Verif.Tsp.C137_quick",
    "Verif.Tsp.C137_clip",
    "Verif.Tsp.C137_quick_constant_violated",
    "Verif.Tsp.C137_alpha_violated"
   ],
   "note": "Blocks accepted, difference equations, design by bilinear transform, constants, linearity, causality, settling of a stage, separation of baseflow; violated: constant flow has no quick part, ALPHA below one."
  },
  {
   "property": "C138",
   "status": "partial",
   "theorems": [
    "Verif.Tsp.C138_periods_partial",
    "Verif.Tsp.C138_month_one_partial",
    "Verif.Tsp.C138_defined",
    "Verif.Tsp.C138_centre_violated",
    "Verif.Tsp.C138_merge_violated",
    "Verif.Tsp.C138_transform_violated",
    "Verif.Tsp.C138_median_violated"
   ],
   "note": "periods with their terms, dates and statistics for all series without gaps that hide a change of month or day; months of all years; when the block fails. Missing: gaps (merged periods), centre of years ending in March, greatest/least of transformed values, median: violated by the code"
  },
  {
   "property": "C139",
   "status": "partial",
   "theorems": [
    "Verif.Tsp.C139_peaks",
    "Verif.Tsp.C139_dominated_partial",
    "Verif.Tsp.C139_separate",
    "Verif.Tsp.C139_series",
    "Verif.Tsp.C139_time_violated",
    "Verif.Tsp.C139_event_partial",
    "Verif.Tsp.C139_end_violated",
    "Verif.Tsp.C139_disjoint",
    "Verif.Tsp.C139_truncated_violated",
    "Verif.Tsp.C139_start_violated",
    "Verif.Tsp.C139_last_violated",
    "Verif.Tsp.C139_overlap_violated",
    "Verif.Tsp.C139_overflow_violated"
   ],
   "note": "peaks are tops in order and apart; exact for tops far apart; dominance for whole values away from the first term; events and their disjointness. Missing: values that are not whole, the beginning and end of a series, overlapping events: violated by the code"
  },
  {
   "property": "C140",
   "status": "partial",
   "theorems": [
    "Verif.Soltab.C140_days",
    "Verif.Soltab.C140_angles",
    "Verif.Soltab.C140_entries",
    "Verif.Soltab.C140_sunset",
    "Verif.Soltab.C140_integral",
    "Verif.Soltab.C140_level",
    "Verif.Soltab.C140_level_positive",
    "Verif.Soltab.C140_lengthen",
    "Verif.Soltab.C140_parallel",
    "Verif.Soltab.C140_inclined_partial",
    "Verif.Soltab.C140_hours_violated"
   ],
   "note": "level units in full; inclined units on which the sun rises once and whose parallel surface is not beyond the pole. Hours are in units of twelve hours: violated by the code"
  },
  {
   "property": "C141",
   "status": "partial",
   "theorems": [
    "Verif.TspCtl.C141_blocks",
    "Verif.TspCtl.C141_only",
    "Verif.TspCtl.C141_settings_first",
    "Verif.TspCtl.C141_bad_header",
    "Verif.TspCtl.C141_override_violated",
    "Verif.TspCtl.C141_swallow_violated",
    "Verif.TspCtl.C141_empty_violated",
    "Verif.TspCtl.C141_truncated_violated",
    "Verif.TspCtl.C141_context_needed",
    "Verif.TspCtl.C141_titles",
    "Verif.TspCtl.C141_case"
   ],
   "note": "C141_blocks covers files of well-formed blocks with unquoted contexts; C141_only any file. The code breaks the claim in four ways: command-line context not in lower case, contexts cut at 25 characters, blocks lost after a skipped block without END or without other lines."
  },
  {
   "property": "C142",
   "status": "partial",
   "theorems": [
    "Verif.TspText.C142_date",
    "Verif.TspText.C142_date_real",
    "Verif.TspText.C142_other_order",
    "Verif.TspText.C142_time",
    "Verif.TspText.C142_time_real",
    "Verif.TspText.C142_instant",
    "Verif.TspText.C142_date_again",
    "Verif.TspText.C142_time_again",
    "Verif.TspText.C142_sample_again",
    "Verif.TspText.C142_sample_midnight_violated",
    "Verif.TspText.C142_cut_violated",
    "Verif.TspText.C142_year_zero_violated",
    "Verif.TspText.C142_far_violated",
    "Verif.TspText.C142_signs"
   ],
   "note": "Texts of three numbers are read exactly if they are dates of the calendar or times of day (C142_date, C142_time), whatever the text what is read is one (C142_date_real, C142_time_real), the orders of day and month differ by an exchange (C142_other_order), 24:00:00 is the next day (C142_instant) and listed series are read again (C142_date_again, C142_time_again, C142_sample_again). Not true of site sample files with 24:00:00, texts of more than 20 characters, year 0 and years above 9999 (the _violated theorems)."
  },
  {
   "property": "C143",
   "status": "partial",
   "theorems": [
    "Verif.TspSsf.C143_many",
    "Verif.TspSsf.C143_fits",
    "Verif.TspSsf.C143_only",
    "Verif.TspSsf.C143_one",
    "Verif.TspSsf.C143_one_violated",
    "Verif.TspSsf.C143_unordered_violated",
    "Verif.TspSsf.C143_mark_violated",
    "Verif.TspSsf.C143_names_violated",
    "Verif.TspSsf.C143_case",
    "Verif.TspSsf.C143_short"
   ],
   "note": "For files in the order of time the series are exactly the terms of site and period (C143_many for several sites mixed in any way, C143_one for one site whose rows are together); for all files nothing is stored outside the series of several sites (C143_fits), every term is of the site and not after the period (C143_only), short lines are errors (C143_short). Not true of one site in several places, of unordered files, of the mark X and of long names (the _violated theorems)."
  },
  {
   "property": "C144",
   "status": "partial",
   "theorems": [
    "Verif.TspStv.C144_block",
    "Verif.TspStv.C144_general",
    "Verif.TspStv.C144_exact",
    "Verif.TspStv.C144_errors",
    "Verif.TspStv.C144_absent",
    "Verif.TspStv.C144_fits",
    "Verif.TspStv.C144_missing_violated",
    "Verif.TspStv.C144_case",
    "Verif.TspStv.C144_names_violated",
    "Verif.TspStv.C144_unordered_violated"
   ],
   "note": "A block is accepted exactly if it is complete (C144_block); for every readable file with the series asked for the terms are given by C144_general, in the order of time they are exactly those of column and period (C144_exact); errors C144_errors, C144_absent; nothing is stored outside the series (C144_fits); names but for case (C144_case). Not true of unordered files, of headers where one series comes twice and another is missing, and of long names (the _violated theorems)."
  },
  {
   "property": "C145",
   "status": "partial",
   "theorems": [
    "Verif.Growth.C145_alloc",
    "Verif.Growth.C145_add",
    "Verif.Growth.C145_grow",
    "Verif.Growth.C145_resize_violated",
    "Verif.Growth.C145_update",
    "Verif.Growth.C145_umalloc",
    "Verif.Growth.C145_ucalloc_violated",
    "Verif.Growth.C145_base",
    "Verif.Growth.C145_modules",
    "Verif.Growth.C145_modules_same",
    "Verif.Growth.C145_connections"
   ],
   "note": "Any number of additions to tables of any size keeps all entries in order within the block (C145_add, C145_grow); registered places are updated (C145_update); umalloc and urealloc (C145_umalloc); the list of modules (C145_base, C145_modules, C145_modules_same, C145_connections). Not true of ucalloc and of lists made smaller (the _violated theorems)."
  },
  {
   "property": "C146",
   "status": "partial",
   "theorems": [
    "Verif.TspUfore.C146_all",
    "Verif.TspUfore.C146_short",
    "Verif.TspUfore.C146_errors",
    "Verif.TspUfore.C146_period",
    "Verif.TspUfore.C146_short_period",
    "Verif.TspUfore.C146_overflow_violated",
    "Verif.TspUfore.C146_step_violated"
   ],
   "note": "Exact for every increment without a period; with a period exact for increments up to a day and integers that hold the seconds, else violated: the program's integers are too small for every date from the year 1 on, and larger increments lose days."
  },
  {
   "property": "C147",
   "status": "partial",
   "theorems": [
    "Verif.TspGage.C147_clock",
    "Verif.TspGage.C147_general",
    "Verif.TspGage.C147_exact",
    "Verif.TspGage.C147_absent",
    "Verif.TspGage.C147_errors",
    "Verif.TspGage.C147_value_errors",
    "Verif.TspGage.C147_time_violated",
    "Verif.TspGage.C147_names_violated"
   ],
   "note": "Exact for lines in the order of time, different names in the header and the time column not behind all requested columns; the general law is C147_general. Violated for headers with equal names and for files with the time behind the requested columns."
  }
 ]
}