{
 "C01": {
  "note": "All valid civil dates from year 1 on; day numbers fixed by anchor plus successor."
 },
 "C02": {
  "note": "Years from 2 on. Year 1 calendar count uses an uninitialised value in the code (C02_year1_undefined)."
 },
 "C03": {
  "note": ""
 },
 "C04": {
  "note": "Dimension, variable and parameter tables: sorted after every history of declarations and keyed by exactly the accepted (for parameters: all recorded) names."
 },
 "C05": {
  "note": ""
 },
 "C06": {
  "note": "A rejected declaration leaves a damaged entry behind: see the _violated theorems."
 },
 "C07": {
  "note": ""
 },
 "C08": {
  "note": "All layouts of items with separators; numbers are parsed by an arbitrary total parser. Input without values succeeds with uninitialised storage (C08_empty_uninitialised)."
 },
 "C09": {
  "note": "Holds when no value is NaN; NaN defaults and unknown types are accepted (_violated)."
 },
 "C10": {
  "note": "For parameters that use the dimension once and keep it nonzero; the excluded cases are shown to fail (_violated)."
 },
 "C100": {
  "note": "Records written one per line; times as whole numbers."
 },
 "C101": {
  "note": "Violated in all three cases.",
  "status": "partial"
 },
 "C102": {
  "note": "Right if the sources are in the file or there are none; otherwise samples become solutions and are not recorded.",
  "status": "partial"
 },
 "C103": {
  "note": "snow: only if the fluxes agree with each other (shown for the modules in C104) and no throughfall below a litre occurs (C104_litre_violated)"
 },
 "C104": {
  "note": "proved for fluxes that agree with each other, which C104_modules shows for those of the modules; fails for throughfall below a litre"
 },
 "C105": {
  "note": "soil up to 1e-7 m per step, the amount the soil module itself drops (C38); canopy as long as interception accounts for its water (C36); fails when leaves fall from a wet canopy"
 },
 "C106": {
  "note": "exact except for water lost and taken from streams, which stays in the stream volumes; start: one channel, no losses"
 },
 "C107": {
  "note": "for fluxes that agree with each other (C104_modules)"
 },
 "C108": {
  "note": "places: detailed output with solutes; names: up to 999 units and segments, 99 bins; the rest is violated"
 },
 "C109": {
  "note": "Sums, means and extremes of accumulators and printed rows over exactly the steps of the period, and of the chemistry rows. Storms are counted as days by the code; without outflow chemistry means are 0/0 (C109_no_outflow_violated)."
 },
 "C11": {
  "note": ""
 },
 "C110": {
  "note": "The change of storage is that of the storages printed (C110_storage). The printed error of the balance is exactly diversions less irrigation from streams in every step but the first (C110_step, C110_run), so it is not what is unexplained: C110_loss_violated, C110_table_violated."
 },
 "C111": {
  "note": "Rows and headings written at every step, for print_type 1 and 2 and any switches. Fails for days with dtinit below the step and for daily chemistry rows (C111_*_violated)."
 },
 "C112": {
  "note": "Columns of the detailed and short tables, the initial storages and the chemistry rows of periods for any number of solutes. Fails for print_type 0, the explanation, steps at the outlet and the first rule of the short table (C112_*_violated). Digits are not modelled."
 },
 "C113": {
  "note": "For flows the mixing sequence provides for (Flow.Regular); each provision is shown necessary for conservation by a C114_*_violated theorem."
 },
 "C114": {
  "note": "Partial: flows outside Flow.Regular are not conserved: irrigation that bypasses the unsaturated zone, recharge of bins that feed only preferential flow, a rising water table without percolation, pulses of ions with sublimation, empty bins that receive water, canopies that only hold back irrigation, leaves that come with overland flow."
 },
 "C115": {
  "note": "Routing and volumes proved; conservation where no water is taken or lost; otherwise the solute of that water stays in the stream (general formula in C115_taken_violated)."
 },
 "C116": {
  "note": "Per step and per run, with the excess of C115 as an explicit term; the step without excess in C116_tight_partial."
 },
 "C117": {
  "note": "For flows the mixing sequence provides for (Flow.Regular, as in C113) and where all solutions hold the same mass of water (Full). Records of stream segments are not covered. Exceptions are shown by C117_*_violated.",
  "status": "partial"
 },
 "C118": {
  "note": "For flows the mixing sequence provides for (Flow.Regular, as in C113) and where all solutions hold the same mass of water (Full). Rows of units; rows of stream segments, composites and isotopes are not covered. The input of deep preferential flow is entered with the concentration before reactions (C117_reaction_violated). Exceptions: C118_path_violated, C118_rain_violated.",
  "status": "partial"
 },
 "C119": {
  "note": "For flows the mixing sequence provides for (Flow.Regular, as in C113) and where all solutions hold the same mass of water (Full). Amounts of solutes; volumes, temperature, pH, isotopes and the composites of the unsaturated zone and the basin are not covered. With reactions the composite balances but for the reactions of deposition and of water that has left its reservoir (C119_run_partial gives the difference, C119_reaction_violated a case); without a path of deep preferential flow its water is left out (C119_path_violated).",
  "status": "partial"
 },
 "C12": {
  "note": "Plain comma separated indices; the parenthesised form is always refused (_violated)."
 },
 "C120": {
  "note": "For flows the mixing sequence provides for (Flow.Regular, as in C113), segments whose water from hillslopes is part of their water (Seg.Ok) and where all solutions hold the same mass of water (Full). Amounts of solutes; volumes, temperature, pH, isotopes are not covered. With reactions the composite balances but for those the composites of units leave out (C119); with diversions from streams or channel losses it shows too much output, by the amount given in C120_run_partial (C120_taken_violated).",
  "status": "partial"
 },
 "C121": {
  "note": "Partial: tokens as given (not the text of the line), scalar variables, functions that ask no chemistry; exact numbers; the specification has the values of the code for NOT, ^ of 0, MOD, AND (see the _violated theorems).",
  "status": "partial"
 },
 "C122": {
  "note": "Lines as tokens; line numbers without bound."
 },
 "C123": {
  "note": "Partial: no GOTO, ON, arrays, DATA, conditions after WEND; IF ends its line; no loop contains a loop of its own variable with an unnamed NEXT (C123_unnamed_violated).",
  "status": "partial"
 },
 "C124": {
  "note": "Proved for dates from -4712-01-01 on. Month lengths and water years except the year 0, where the code differs from its own day numbers (C124_zero_violated). Integer overflow is not modelled.",
  "status": "proved"
 },
 "C125": {
  "note": "All lists of rational values. NaN is not modelled.",
  "status": "proved"
 },
 "C126": {
  "note": "Median, ranks, monotonicity, counts and order of tables proved. Not below the least value only for quantiles of at least one value (C126_lower_partial); refuted otherwise. The period of a flow-duration table is ignored by the code (C126_period_violated).",
  "status": "partial"
 },
 "C127": {
  "note": "Selection of terms and all statistics but the median proved; the median is refuted (C127_median_violated). Values within 1e30 in size, the code's initial extremes.",
  "status": "partial"
 },
 "C128": {
  "note": "Area, additivity, bounds and the list of months proved; for the periods found by the program refuted (C128_last_violated, C128_second_violated, C128_annual_violated).",
  "status": "partial"
 },
 "C129": {
  "note": "Proved with missing values; days are 32-bit integers.",
  "status": "proved"
 },
 "C13": {
  "note": "Floating point types in one and two dimensions; integers on LP64, oversized buffers and three dimensions fail (_violated)."
 },
 "C130": {
  "note": "Proved with delays; the unit of months is refuted (C130_months_violated).",
  "status": "partial"
 },
 "C131": {
  "note": "Partial: flows of at most 100000 and records not shorter than the interval (each shown to fail otherwise); fixed intervals and local minima for records without missing flows; the logarithmic line between minima is a parameter; the time of day of the new series (midnight, integer division) is read only.",
  "status": "partial"
 },
 "C132": {
  "note": "For every equation of the grammar (any size and nesting): the value of PARSE + EVALUATE is the value of the grammar, refused exactly where undefined. Signs bind more than powers and powers go from left to right (violated). Cutting of text into terms and malformed equations are not covered.",
  "status": "partial"
 },
 "C133": {
  "note": "Windows of more than one term and values up to 1e30; lags other than -9999. Violated: values over 1e30, windows of one term (times twice), a lag of -9999.",
  "status": "partial"
 },
 "C134": {
  "note": "Months and years from times before 24:00. Violated: a first date without time starts at the end of the day; monthly and yearly series from 24:00 on shift by a day.",
  "status": "partial"
 },
 "C135": {
  "note": "Rational numbers; the square root is a parameter. Violated: two terms are refused, relative bias with mean 0 is 1e30, volumetric efficiency with totals not positive.",
  "status": "partial"
 },
 "C136": {
  "note": "Names of characters up to z. Violated: series and C_TABLE with one name; characters after z; series from V_TABLEs, G_TABLEs and series named twice cannot be erased.",
  "status": "partial"
 },
 "C137": {
  "note": "Blocks accepted, difference equations, design by bilinear transform, constants, linearity, causality, settling of a stage, separation of baseflow; violated: constant flow has no quick part, ALPHA below one."
 },
 "C138": {
  "note": "periods with their terms, dates and statistics for all series without gaps that hide a change of month or day; months of all years; when the block fails. Missing: gaps (merged periods), centre of years ending in March, greatest/least of transformed values, median: violated by the code",
  "status": "partial"
 },
 "C139": {
  "note": "peaks are tops in order and apart; exact for tops far apart; dominance for whole values away from the first term; events and their disjointness. Missing: values that are not whole, the beginning and end of a series, overlapping events: violated by the code",
  "status": "partial"
 },
 "C14": {
  "note": "Whole reader modelled on character streams (fgets, comments, blank lines, record headers). Proved: well-formed files whose records have the declared type and do not exceed the declared size are read exactly (C14_reads_partial); reading ends for every file (C14_terminates); -set options in bounds (C14_set_option). Refuted in the code: overrun by larger records, size not updated, last line without newline, // inside a word, -set with too many values."
 },
 "C140": {
  "note": "level units in full; inclined units on which the sun rises once and whose parallel surface is not beyond the pole. Hours are in units of twelve hours: violated by the code",
  "status": "partial"
 },
 "C141": {
  "note": "C141_blocks covers files of well-formed blocks with unquoted contexts; C141_only any file. The code breaks the claim in four ways: command-line context not in lower case, contexts cut at 25 characters, blocks lost after a skipped block without END or without other lines.",
  "status": "partial"
 },
 "C142": {
  "note": "Texts of three numbers are read exactly if they are dates of the calendar or times of day (C142_date, C142_time), whatever the text what is read is one (C142_date_real, C142_time_real), the orders of day and month differ by an exchange (C142_other_order), 24:00:00 is the next day (C142_instant) and listed series are read again (C142_date_again, C142_time_again, C142_sample_again). Not true of site sample files with 24:00:00, texts of more than 20 characters, year 0 and years above 9999 (the _violated theorems).",
  "status": "partial"
 },
 "C143": {
  "note": "For files in the order of time the series are exactly the terms of site and period (C143_many for several sites mixed in any way, C143_one for one site whose rows are together); for all files nothing is stored outside the series of several sites (C143_fits), every term is of the site and not after the period (C143_only), short lines are errors (C143_short). Not true of one site in several places, of unordered files, of the mark X and of long names (the _violated theorems).",
  "status": "partial"
 },
 "C144": {
  "note": "A block is accepted exactly if it is complete (C144_block); for every readable file with the series asked for the terms are given by C144_general, in the order of time they are exactly those of column and period (C144_exact); errors C144_errors, C144_absent; nothing is stored outside the series (C144_fits); names but for case (C144_case). Not true of unordered files, of headers where one series comes twice and another is missing, and of long names (the _violated theorems)."
 },
 "C145": {
  "note": "Any number of additions to tables of any size keeps all entries in order within the block (C145_add, C145_grow); registered places are updated (C145_update); umalloc and urealloc (C145_umalloc); the list of modules (C145_base, C145_modules, C145_modules_same, C145_connections). Not true of ucalloc and of lists made smaller (the _violated theorems)."
 },
 "C146": {
  "note": "Exact for every increment without a period; with a period exact for increments up to a day and integers that hold the seconds, else violated: the program's integers are too small for every date from the year 1 on, and larger increments lose days.",
  "status": "partial"
 },
 "C147": {
  "note": "Exact for lines in the order of time, different names in the header and the time column not behind all requested columns; the general law is C147_general. Violated for headers with equal names and for files with the time behind the requested columns.",
  "status": "partial"
 },
 "C15": {
  "note": "The property is false: C15_violated proves for every saved file whose first parameter is savable that reading it back is rejected with 'too many values' (each saved line ends with a blank, whose trailing newline counts as a value). C15_desc_violated: multi-line descriptions keep only the last line. C15_lines_partial: without the blank at the line end all values are restored exactly.",
  "status": "partial"
 },
 "C16": {
  "note": "Proved for saved files whose lines fit the reader's buffers: step count, delta as printed, every declared variable and nothing else (C16_restore_partial); wrong dimensions or declarations (C16_dims, C16_mismatch); any text (C16_any_text, C16_untouched). The full property fails: the time is never restored (C16_now_violated), information lines of 79 to 88 characters (C16_info_violated), keys over 48 characters (C16_key_violated), public variables without dimensions (C16_zero_dims_violated).",
  "status": "partial"
 },
 "C17": {
  "note": "One data file: exactly the records inside the window, in order, numbered, with the right increments and end code (C17_steps); for arbitrary files (blank and malformed lines, several files) the run ends and every step is a record of a file inside the window with a positive increment (C17_sound). Refuted: a malformed next line suppresses the record before it; blank line before the window is an error."
 },
 "C18": {
  "note": "Any number of files with disjoint days, first file ending last: merged without loss in time order. Refuted for the other cases (records lost, closed file read, same-day records dropped)."
 },
 "C19": {
  "note": "Proved for the four simulation modes: every phase is orderly and the program goes on only after success. Fails for an unsupported or empty model_mode (reports success without calling any module), in _name mode (errors ignored) and for the program's declare phase (errors only printed). What the module routines do is a parameter; the single_run hooks are not modelled.",
  "status": "partial"
 },
 "C20": {
  "note": "Decoding is exact for all states and inputs. The flags are right for runs that visit every day with regular steps; two counterexamples show duplicate end-of-day flags (records in the last tenth of a step before midnight) and stale leap-year lengths when 1 January has no record. Double rounding is an arbitrary function with error at most 2^-30.",
  "status": "partial"
 },
 "C21": {
  "note": "Any engine, any history of library requests with at most 2^31 creations: identifiers unique, instance state and answers equal to those of an isolated instance, bad identifiers answered -6 without any change. Beyond that identifiers wrap and repeat (C21_wrap_violated). Not modelled: concurrent calls (the registry lock is released before the instance is used)."
 },
 "C22": {
  "note": "Every history of the 16 modelled calls on a new instance, every engine."
 },
 "C23": {
  "note": "Every history of pushes, row ends and clears; every integer row, column and variable type code. The specification computes the expected cell from the history alone."
 },
 "C24": {
  "note": "Any selection of rows of any reachable table, deserialized one after the other into an empty table."
 },
 "C25": {
  "note": "Blocks whose switch equals that of the block selected for reading. The code ignores the block number when it consults the switch: text lost or captured wrongly (C25_lost_violated, C25_extra_violated, C25_message_violated)."
 },
 "C26": {
  "note": "Lists and ranges, DELETE and COPY requests for every layout, case and sign. Partial: an empty list mixed with numbered lists, numbers outside int, the largest int, and COPY ranges across zero or ending at -1 are refuted (C26_*_violated). DUMP's own reader is not modelled."
 },
 "C27": {
  "note": "Dictionary for any word sequence; round trip of any list of maps for names that are nonempty, newline-free and at most 255 characters. Violated for other names: an empty name shifts the values, a long word loses all later words, a newline splits a word."
 },
 "C28": {
  "note": "Values are exact rationals (no rounding). add_extensive, multiply, mixtures (cxxSolution from a mix) and the reaction-step accumulation, for any list of parts. Scaling a solution by 0 is a no-op in the code (C28_zero_violated), other factors proved."
 },
 "C29": {
  "note": "Simplification proved for names whose characters do not sort before '(' (every name the engine makes) with '(' only in names of at least 4 characters; sums by name and activity scaling without restriction. Merging proved for sources given as elements; merging valence states removes the wrong element (C29_merge_violated)."
 },
 "C30": {
  "note": "Line splitting, comments, continuation, separators and include files of PHRQ_io for any text with any line ends. Partial: text has no backslash directly followed by '#' or ';', and include files are nested finitely (fuel in the model, every large enough fuel gives the same result). Violated otherwise: backslash before ';' joins, backslash before '#' does not protect, a file including itself never ends, the echo at end of file repeats a character."
 },
 "C31": {
  "note": "Exact rationals; element lists, totals and moles of the reactants are taken from the engine's stores before and after the step, fill factor not 0. Cells, additional row, untouched cells, refusal, columns proved for every table and reactant list when the caller declares at least as many rows as the table has. Violated: one row less is accepted and the additional row runs over (C31_overlap_violated); phases with alternative formulas and kinetic reactants sharing a rate name are reported wrongly. get_all_components (choice of rows) is not modelled."
 },
 "C32": {
  "note": "All solution/fraction lists, reactant selections and stores, for an abstract chemistry; the generated text is read back by a small interpreter of MIX/SAVE/USE/COPY/END. %g rounding is the parameter near. Violated: reaction temperature dropped by the fall-through in entity_exists (C32_temperature_violated); a missing solution in an evaporation request re-runs the previous request and reports success (C32_missing_violated); several negative fractions (C32_negative_violated). Fill factor positive (otherwise only a message is printed).",
  "status": "partial"
 },
 "C33": {
  "note": "All texts and lengths. Full for the Fortran module interface (trim); for f2cstring (library built without the module) all trailing characters that are not printable ASCII are lost (C33_nonascii_violated). Texts without NUL characters; malloc succeeds.",
  "status": "partial"
 },
 "C34": {
  "note": "Numbers of all reservoirs (both time levels) are distinct for up to 999 MRUs, 99 bins, 998999 data sources and 10^8 segments (declared maxima 500/50/41/100), single precision arithmetic of the code included; the numbers of the rows initialised are pairwise different."
 },
 "C35": {
  "note": "Indices recovered, rows inside the table, shared by both time levels and distinct for all reservoirs: proved. That the row is the one initialised for the reservoir (contents, chemical variables, reactants) is proved when every MRU has the maximal number of bins and refuted otherwise; the disused reservoir kind 6 shares rows with bins (refuted)."
 },
 "C36": {
  "note": "Balance, bounds and whole-history balance proved for steps where the canopy takes part and the season does not end; storage never negative at every step. Fails when leaves fall (the water on the lost leaves is dropped) and when grass is covered by snow (storage discarded). Reals are exact rationals.",
  "status": "partial"
 },
 "C37": {
  "note": "Proved for exact arithmetic and documented parameter ranges (Mru.Ok), for every function set meeting Fn.Ok. Missing: nexlag below 2, its default, writes outside arrays (C37_nexlag_violated); a run starting on a dry day without snow uses an unassigned temperature (C37_start_violated), so the theorem over runs assumes the first day has snow or precipitation.",
  "status": "partial"
 },
 "C38": {
  "note": "One unit, exact rationals; EXP, SQRT, 10**x and the Newton iteration of EXPINF are parameters. C38_step_partial and C38_run_partial: the balance for one step and for whole runs when the area fractions of the bins add to one, except for at most 1e-7 m per step that the code sets to zero; C38_tolerance: the bound under the tolerance accepted at initialisation. C38_range_partial: deficits and storages stay in range and no flow is negative (the solver must not step back). C38_never_stops: 'double recharge' is unreachable for any state. C38_defined: no division by zero or missing schedule. C38_initial: accepted initial states qualify if theta_0 is not below the wilting point; C38_wilting_violated: this is not checked and evapotranspiration becomes negative. Missing: exact equality (the code drops storage below 1e-7 m), rounding of single precision; gw_ext is an uninitialised array in the module and is an arbitrary input here.",
  "status": "partial"
 },
 "C39": {
  "note": "Proved for channels without losses: water balance of every step and of whole runs, state never negative (also with losses), discharge equals the convolution of inflow and ordinates, runs are defined, and an accepted initialisation meets the hypotheses. With channel losses the balance fails (C39_loss_violated): the loss is recorded but never removed from the channel. Reals are exact rationals; initial water for internal irrigation (route_clark.F:684-698) is not modelled."
 },
 "C40": {
  "note": "Proved for tables with at least two points and growing distances ending at 1: acceptance exactly for the right nhydro, ordinates not negative and adding up to the area fraction, prefix sums follow the table. Violated when all points lie a whole number of steps away (C40_point_violated, no ordinates), for tables not ending at 1 (C40_table_violated) and for nhydro too small (C40_overrun_violated, out of bounds before the check). Reals are exact rationals.",
  "status": "partial"
 },
 "C41": {
  "note": "Proved for all temperatures, thresholds and amounts, in the precipitation module and after the irrigation module. C41_split_violated: the irrigation module divides mixtures anew even without irrigation, so the separate adjustment of rain and snow is lost. Reals are exact rationals.",
  "status": "proved"
 },
 "C42": {
  "note": "Acceptance criterion and treatment of each fraction proved for all lists; negative fractions listed after evaporation/melt are kept and rejected mixes are made nevertheless (both refuted)."
 },
 "C43": {
  "note": "update_chem, evaporation bookkeeping and the start of a step over any history: flows and hillslope reactions reach exactly the accounts they concern, composites are sums over reservoirs, unsaturated zone = riparian + upland. Violated for stream segments: water passed downstream is recorded several times, stream composite volume is overwritten and its internal transfers count as inputs only (C43_*_violated).",
  "status": "partial"
 },
 "C44": {
  "note": "All lists of pairs and all library behaviours; with the library's COPY (C26) the requested pairs are copied. Targets below 10^9: with ten digits the numbers run together (C44_wide_violated); keywords up to 54 characters (longer ones are a runtime error).",
  "status": "partial"
 },
 "C45": {
  "note": "Reals are exact rationals.",
  "status": "proved"
 },
 "C46": {
  "note": "Floating point types in one and two dimensions; integers on LP64 and three dimensions fail (_violated)."
 },
 "C47": {
  "note": "Exact condition for control_integer_ (only one signed byte is returned) and the copy part of control_string_; refuted: integers outside -128..127 and blank padding."
 },
 "C48": {
  "note": "Number conversion to float/double and the range check of strtod are parameters; times are exact rationals. Violations for malformed text are under C65-C67."
 },
 "C49": {
  "note": "Every history; column-major layout and inactive value."
 },
 "C50": {
  "note": "Error and warning lines after every run; output, log and selected-output lines after runs not stopped by an error. Refuted for stopped runs, for AccumulateLine and for failing LoadDatabase."
 },
 "C51": {
  "note": "Every engine, every instance: no leftovers (C51_no_leftovers) and the exact table of every block (C51_tables)."
 },
 "C52": {
  "note": "Refusal without a database, and load errors leave no database; a database whose test run fails is still used (C52_test_violated)."
 },
 "C53": {
  "note": "Exact rationals. Means proved for positive fractions; with a negative fraction the reaction step's weights are wrong (C53_evaporation_violated) and add_intensive does not scale names only the first map has."
 },
 "C54": {
  "note": "Proved for every step but the first; the first step records the diversion twice (C54_first_violated).",
  "status": "partial"
 },
 "C55": {
  "note": "Proved for units whose schedule has the number of their segment and which stay within the pump capacity; C55_schedule_violated and C55_pump_violated show that both conditions are needed. C55_available is proved without channel losses."
 },
 "C56": {
  "note": "C56_bin: for any state, inputs and functions. Exact rationals. The bound of 1e-7 m is part of the statement."
 },
 "C57": {
  "note": "C57_printed_partial: for whole runs from an accepted initialisation the printed balance is the water pumped for irrigation plus at most 1e-7 m per step, when area fractions add to one. C57_pumping_violated: with pumping the printed balance does not close because pumped water is not in the sum.",
  "status": "partial"
 },
 "C58": {
  "note": "Holds in the first quarter of a day (C58_quarter_partial, dry cold pack). Violated over a day: the rate is reduced by the cover again in every quarter (C58_day_violated), and becomes 0 for the rest of the day after snow on bare ground (C58_bare_violated).",
  "status": "partial"
 },
 "C59": {
  "note": "Exact arithmetic; the quarter temperatures are those computed by the code from the day's extremes (temps).",
  "status": "proved"
 },
 "C60": {
  "note": "Hypothesis: the concentration passed in is that of the complete mixture (what the engine computes is not modelled here). Isotopes are excluded.",
  "status": "proved"
 },
 "C61": {
  "note": "Holds for inputs (C61_flow_partial, C61_gain_partial) and outputs through calls; violated for the final content, which is weighted with the exported volume (C61_final_violated), and for outputs where groundwater is lost (C61_loss_violated).",
  "status": "partial"
 },
 "C62": {
  "note": "C62_file, C62_more, C62_count, C62_untouched, C62_fallback hold in full; C62_any_text lists the undefined outcomes that remain for malformed text; C62_last_undeclared_violated: an undeclared last parameter closes the file twice, so files must end with a declared parameter. Conversion of number text is a parameter; 64-bit long storage not modelled.",
  "status": "partial"
 },
 "C63": {
  "note": "C63_dims, C63_any_text, C63_untouched; three defects proved as C63_undeclared_violated, C63_names_violated, C63_hang_violated (index names of an undeclared dimension, too few names on the last dimension, a note on the last line).",
  "status": "partial"
 },
 "C64": {
  "note": "Fields written as whole numbers (seconds any decimal number). Existing times: dates of the civil calendar, 0:00:00 to 23:59:59."
 },
 "C65": {
  "note": "Only the fixed ranges are checked: 30 February and seconds above 59 are accepted (violations proved)."
 },
 "C66": {
  "note": "Only a range error stops reading; all other malformed values are silently taken as 0 or misplaced, and the run ends as if complete (violations proved)."
 },
 "C67": {
  "note": "Holds if all files have the same header; otherwise the last header is used for all files (violation proved)."
 },
 "C69": {
  "note": "Holds if only the last part has a number; several numbered parts multiply, a colon part in a group followed by a number is refused, an opening bracket at the end reads past the text (violations proved)."
 },
 "C72": {
  "note": "The value of a fractional charge is right; equal fractional charges in different spellings are different species, leading zeros mean octal, large charges wrap (violations proved)."
 },
 "C74": {
  "note": "Holds for formulas without (s), (g), (S), (G); (S) and (G) groups are dropped from the formula, names of 256 or more characters end the process (violations proved)."
 },
 "C76": {
  "note": "Proved: the first day of a simulation that starts on 21 December. Violated: the whole year after it, and the time after a missing day at which a table entry begins.",
  "status": "partial"
 },
 "C78": {
  "note": "Proved: non-negative, and right if the first unit is horizontal. Violated: the first unit is taken as the horizontal surface whatever its slope; undefined when its potential radiation is zero.",
  "status": "partial"
 },
 "C80": {
  "note": "Proved: right from the next first of a month. Violated: a missing first day leaves the rates of an earlier month.",
  "status": "partial"
 },
 "C82": {
  "note": "Proved: during the start the mean is taken with zeros before the first step. Violated: biased start, period counted in time steps, period 0 writes outside the array.",
  "status": "partial"
 },
 "C84": {
  "note": "Proved: switched on only after the index was exceeded. Violated: cold years, last month, first day.",
  "status": "partial"
 },
 "C86": {
  "note": "Proved for daily steps. Violated: shorter steps use the temperature of the first step of the day, longer ones the value of one day.",
  "status": "partial"
 },
 "C89": {
  "note": "Violated: the temperature in degrees Celsius remains the mean of the extremes.",
  "status": "partial"
 },
 "C90": {
  "note": "Number formats of the C library are parameters. Elements are addressed as in C12."
 },
 "C91": {
  "note": "Violated in all three cases.",
  "status": "partial"
 },
 "C92": {
  "note": "Number and time formats are parameters."
 },
 "C93": {
  "note": "Right if the first variables of the request have different dimensions and the others repeat them. Violated otherwise (the file is chosen with the number of the dimension), and only the first row of arrays is written.",
  "status": "partial"
 },
 "C94": {
  "note": "Steps of the data are given by C17; what the modules do by C19."
 },
 "C95": {
  "note": "Options with arguments of their own (-debug): C96."
 },
 "C96": {
  "note": "Right if the control file is named after -debug. Violated: the level is taken as control file; incomplete options read past the arguments; the 101st setting is written past the array.",
  "status": "partial"
 },
 "C97": {
  "note": "Words of at most 12 characters, line of at most 1000, at most 100 columns; the others are in C98."
 },
 "C98": {
  "note": "Violated in all cases: missing unit uses what the variable holds, two blanks are refused though the order is right, long names cannot be matched, unknown solutes read outside the table, sources are not read with constant precipitation.",
  "status": "partial"
 },
 "C99": {
  "note": "Exact arithmetic. Samples and sources in the file or no sources (otherwise C101)."
 }
}