# Formal model of WEBMOD: design

Target: usgs-coupled/webmod at the pinned commit, source in `/repo` (read as text only, never built or run).
The model is Lean 4 (4.33.0) under `lean/Verif`. Mathlib modules are imported one by one.

## 1. Layout

| Path | Contents |
|------|----------|
| `lean/Verif/Model/*.lean` | executable definitions modelling the code; each definition cites file and lines in `/repo` and names its simplifications |
| `lean/Verif/Spec/*.lean` | small independent specifications, written from the English property and the documentation, not from the code |
| `lean/Verif/Lemmas/*.lean` | helper lemmas, no claims |
| `lean/Verif/Props/*.lean` | the property theorems `Cnn_...`, each followed by an `example` with concrete data that meets its hypotheses |
| `lean/Verif/Axioms.lean` | `#print axioms` for every property theorem (generated) |
| `properties.jsonl` | the properties in English |
| `MANIFEST.json` | property -> status, theorems, note (generated) |
| `AXIOMS.md` | the axioms each property theorem depends on (generated) |
| `seeded/LOG.jsonl` | bugs seeded into the model and the theorems that noticed |
| `tools/` | `mkmanifest.py`, `note.py`, `axioms.py` (generators), `mutate.py` (seeded bugs, works on a scratch copy) |

Conventions

* A name ending in `_partial` proves only part of the English property; the docstring and the note in `MANIFEST.json` say what is missing.
* A name containing `_violated` proves that the code as written does not have the property: a concrete reachable witness, or a general statement of what happens instead.
* Undefined behaviour of C, C++ and Fortran (out-of-bounds access, use of an uninitialised value, null pointer, double `fclose`, division by zero in integers, loops that never end) is a separate outcome (`none`, `.ub`, `.error`), never a default value. Theorems that say "the run is defined" exclude it.
* Whatever is outside the modelled code (the chemistry engine, module bodies, number formatting and parsing, rounding, transcendental functions) is a parameter of the model. Theorems hold for every value of the parameter, or for those meeting a stated hypothesis (`Fn.Ok`, `Single`, `Double`, ...).

## 2. Trusted base

1. Lean's kernel.
2. Axioms: no theorem depends on anything but `propext`, `Classical.choice`, `Quot.sound`; `AXIOMS.md` lists them per theorem. No `sorry`, no added axioms, no `native_decide`, no `bv_decide`. Concrete witnesses are checked with `decide` or `decide +kernel` (evaluation by the kernel).
3. The reading of the C, C++ and Fortran sources recorded in `lean/Verif/Model`. No tool extracts the model from the code; the citations let a reader compare line by line.
4. The C library and Fortran run-time functions modelled in `Model/CFile.lean`, `Model/CText.lean` (`fgets`, `feof`, `strtok`, `isspace`, ...) after the language standards.
5. Numbers. C `int`/`long` are mathematical integers except where the model says otherwise (identifier wrap-around in C21, LP64 sizes in C13/C46, single-precision rounding in C34/C35, double rounding in C20). Hydrology and chemistry reals are exact rationals: rounding, overflow to infinity and NaN are not modelled except where a quotient 0/0 is an explicit outcome (C41, C09).

## 3. What is modelled and what is not

| Model file | Code | Not modelled |
|------------|------|--------------|
| `Calendar` | `mmf_c/src/julday.c`, `julconvert.c`, `timing.c` (calendar arithmetic) | hours/minutes of `Mdate` formatting |
| `Tables` | `sort_dims.c`, `sort_params.c`, `sort_vars.c`, `decldim.c`, `dim_addr.c`, `getdim.c`, `var_addr.c`, `param_addr.c`, `declvar.c` | allocation failure |
| `Params` | `str_to_vals.c`, `load_param.c`, `declparam.c`, `reset_dim.c`, `get_elem_add.c`, `getvar.c`, `putvar`, `getparam.c` | messages; `getparamstring` |
| `Control` | `read_control.c`, `decl_control.c`, `control_addr.c`, `control_var.c`, `control_array.c`, the `-set` loop of `mmf.c` | `read_control`'s second attempt after an error |
| `ParFile` | `read_params.c`, `save_params.c` | copies made by `updateparam`, message texts |
| `VarFile` | `save_vars.c`, `read_vars.c` | 64-bit `long` over `int` storage |
| `TimeLoop` | `read_line.c` (`read_line`, `FILE_with_next_ts`), the loop of `batch_run.c` | graphics hooks |
| `DataLine` | `read_datainfo.c`; `read_line.c` (header, first record, times and values of a line); `readvar.c` | `DATA_find_end`, `DATA_close`; `strtod` for `inf`, `nan`, hexadecimal; conversion to float and its range check are parameters |
| `CallModules` | `call_modules_webmod.F`, phases of `mmf.c`, `batch_run.c` | module bodies (parameter), `single_run` hooks |
| `Output` | `batch_run_functions.c`, `create_vstats.c`, `write_vstats.c`, `check_vars.c`, order of `batch_run.c` | failures to open files, number formats (parameters), summary statistics (never called) |
| `CmdLine` | `parse_args.c`, arrays in `mmf.c` | signals and signal handling |
| `ObsChem` | `obs_chem.F` (species_id, unit_id, obsc_init, obsc_run), use of rows in `phreeq_mms.F90:6677-6732` | floating point; formatted messages; list-directed input is modelled for integer, real and malformed items separated by blanks (no repeat counts, no null values, no slash) |
| `Reservoir` | `webmod_res.F` (webrinit, webrrun: volumes of all reservoirs, streams, basin, reported depths), table and names of output files in `io.F:292-306`, `webmod_res.F:1649-2033`, `phreeq_mms.F90:5452-6180` | floating point; contents of files; observed discharge; some reported depths; infinities after division by zero (the model ends) |
| `Summary` | `web_sum.F` (accumulators, balance, objective functions, rows, formats and headings of `hydro.out` and `chem.out`) | digits of numbers; the explanations at the head of the files; restarted runs (`nstep.ne.0` at the start); logarithm (parameter) |
| `EndPer` | `io.F` (`iorun`) and the decoding in five consumers | other variables of `io.F` |
| `Precip`, `Intcp`, `Snow`, `Topmod`, `Top2c`, `Route` | `precip_web.F`, `irrig_web.F`, `intcp_prms.F`, `nwsmelt_topg.F`, `topmod_chem.F`, `top2clark.F`, `route_clark.F` (init and run) | basin averages, summary and debug output, objective functions, net radiation `DQNET`; `EXP`, `SQRT`, `SIN`, powers and the Newton iteration of `EXPINF` are parameters |
| `Solar` | `ccsolrad_web.F` (`csolinit`, `csolrun`) | the table itself (`soltab_prms.F`), the power function (parameter) |
| `Climate` | `temp_1sta_prms.F`, `potet_hamon_prms.F`, `basin_topg.F` (init and run), temperatures in `obs_webmod.F` | other variables of `obs_webmod.F`, `EXP` (parameter) |
| `SolnNum` | `phreeq_mms.F90`: `solnnum`, `isoln`, `checkfracs`, `fill_ent`, initialisation of the reservoir table | |
| `Chem` | `phreeq_mms.F90`: `update_chem`, accounting in `fractionate`, groundwater added to unit and basin (7101-7124, 8784-8792), start of a step | order of the mixing calls in `phreeqmms_run` (histories of calls are arbitrary), concentrations come from the engine |
| `Mms` | `IPhreeqcMMS.cpp` callbacks, `fortran.cpp` `RunMixF`, `entity_exists` | the chemistry (parameter), `%g` rounding (parameter) |
| `FString` | `fwrap.cpp`, `IPhreeqc_interface.F90`, `phr_multicopy.f90` | |
| `IPhreeqc` | `IPhreeqc.cpp`, `ErrorReporter.hxx`, `IPhreeqcLib.cpp` | files, dump string, component lists, BASIC callbacks, concurrency; the engine is a parameter |
| `SelOut` | `CSelectedOutput.cpp`, `Var.c` | allocation failure |
| `Lines` | `PHRQ_io.cpp`, `Parser.cxx` line reader | bytes above 127, stream errors |
| `StorageBinList` | `StorageBinList.cpp`, DELETE and COPY readers, `copy_entities` | DUMP's own option reader |
| `NameDouble` | `NameDouble.cxx`, `Dictionary.cpp`, mixing in `Solution.cxx`, `step.cpp` | logarithms |
| `Tally` | `tally.cpp` | `get_all_components` |
| `Formula` | `parse.cpp` (`parse_eq`, `check_eqn`, `get_charge`, `get_coef`, `get_elt`, `get_elts_in_species`, `get_num`, `get_species`, `get_token` and the equation reader), `elt_list_combine`, equations in `read_species`, `read_phases` | secondary master species, the tables of species and elements, rounding of coefficients, locale |
| `Transport` | `phreeq_mms.F90` (`phreeqmms_run` 6389-9243: solutions mixed for units and segments, what is recorded), with `webmod_res` | reactions (parameter), several solutes, isotopes, temperature, pH; division by zero ends the model |
| `TransportChem` | `phreeq_mms.F90` (`phreeqmms_run` 6389-9243: arguments of the calls of `update_chem`, start of a step), with `Transport`, `SolnNum` and `Chem` | isotopes (`ch_mru_permil_*`, `ch_basin_permil_*`), what other modules set between calls (arbitrary) |
| `Basic`, `BasicRun` | `PBasic.cpp`: `expr` and the functions below it, `parseinput` after the line is cut into tokens, `findline`, `exec`, LET, GOTO, IF, FOR, NEXT, WHILE, WEND, GOSUB, RETURN, SAVE, PUNCH, END, REM | cutting lines into tokens (`parse`), arrays, DATA and READ, ON, functions that ask the chemistry, `exp` and the like (parameters), format of PUNCH |
| `TspDate` | TSPROC, `tsproc-trunk/tsproc-master/src/tsp_utilities.F90`: `julian_day`, `gregorian_date`, `newdate`, `numdays`, `numsecs`, `day_of_year`, `leap`, `num_days_in_year`, `num_days_in_month`, `water_year_and_day` | overflow of integers; the other parts of TSPROC (readers of WDM, SSF and other files, PEST files, graphics) |
| `TspSort`, `TspStat` | TSPROC: `quick_sort`, `median`, `quantile_vector`, `quantile_scalar` (`tsp_utilities.F90`), `numterms`, `beg_end_check` (`tsp_command_processors.F90`), `reduce_span`, `statistics`, `flow_duration` after the block has been read (`tsp_time_series_processors.F90`) | reading of blocks, names and contexts; NaN and rounding; square root, logarithm and powers are parameters |
| tsproc-master/src: tsp_command_processors.F90 `volume_interp_s`, `time_interp_s`; tsp_utilities.F90 `make_date_list`; tsp_time_series_processors.F90 `volume`, `time_base`, `time_duration` (computations) | `Model/TspInterp.lean` | rational numbers; reading of blocks and date files left out; `extrap`, `direction` of `time_interp_s` (never given) left out; `HUGE` of an empty `maxval` as gfortran |
| tsproc-master/src: tsp_equation_parser.F90 `PARSE` from the marking of functions on, `EXPNEG`, `COMPRESS`, `EVALUATE`, `FUNCEVAL` | `Model/TspEquation.lean` | rational numbers; `GETNEXT` (cutting of text), names of series and `@_` functions left out: terms are given with their values; functions but `abs` and powers are parameters; a function of a term that is no number (`abs(*)`), which takes whatever `rterm` holds, is an error |
| tsproc-master/src: wsc_additions.F90 `FIXED`, `SLIDE`, `LOCMIN` and the choice of the interval in `usgs_hysep` (1388-1401) | `Model/TspHysep.lean` | rational flows; reads outside the arrays, undefined variables and a write to the constant 0 given as argument are one outcome; `10**(t*(log10 b - log10 a)+log10 a)` is a parameter; parsing of the block, dates and the new series left out |
| tsproc-master/src: tsp_time_series_processors.F90 `moving_window`, `series_difference`, `series_base_level`, `series_clean`, `displace` | `Model/TspTransform.lean` | rational numbers, unbounded integers (the interval of `displace` in seconds overflows from 24856 days on); reading of the block, names and the place of the new series left out |
| tsproc-master/src: tsp_time_series_processors.F90 `compare_series` | `Model/TspCompare.lean` | rational numbers, the square root is a parameter; each statistic a function of its own; reading of the block and the place of the table left out |
| tsproc-master/src: tsp_command_processors.F90 `date_check`; tsp_time_series_processors.F90 `new_series_uniform`, and the times and values of `vol_to_series` | `Model/TspUniform.lean` | rational numbers, unbounded integers; a time of day is its number of seconds; reading of the block, names and the place of the new series left out; a write past the temporary series is `none` |
| tsproc-master/src: tsp_command_processors.F90 `get_new_series_name`, `get_new_table_name`, `get_series_name`, `get_table_name`; tsp_time_series_processors.F90 `erase_entity`; tsp_utilities.F90 `str_compare`, `casetrans`, `uppercase_fn` | `Model/TspNames.lean` | characters are codes; what series and tables hold is a parameter, but for the flag of double precision; cutting of words from lines, contexts and messages left out; a block makes one entity (blocks that read several series compare their names with each other) |
| tsproc-master/src/tsp_time_series_processors.F90 `bfilter`, `lpdes`, `hpdes`, `bpdes` | `Model/TspFilter.lean` | reals are any ordered field (examples with rational numbers, tangents and cosines instantiated with real numbers in `C137_real`); the code's value of pi is pi; the test for large terms of band pass is made after all terms; words, names and contexts left out |
| tsproc-master/src/wsc_additions.F90 `period_stats` | `Model/TspPeriod.lean` | reals are rational numbers; transformation and square root are parameters; of the date of the period before the whole date of its first term is kept; words, names and contexts left out |
| tsproc-master/src/wsc_additions.F90 `hydro_peaks`, `hydro_events`, `get_event` | `Model/TspPeak.lean` | reals are rational numbers, quotients with divisor zero as in IEEE arithmetic; RISE_LAG and FALL_LAG are given (the code leaves them unset otherwise); writes outside of arrays are an outcome of their own; words, names and contexts left out |
| webmod.d/src/soltab_prms.F `stinit` | `Model/Soltab.lean` | reals are real numbers with the trigonometric functions of Mathlib, decimal constants as written; one unit and one day at a time; single precision left out; times of sunrise and sunset, which are declared and never assigned, left out |
| TSPROC: tsp_command_processors.F90 `get_next_block`, `Process_Settings`, `get_context`, `test_context`, `find_end`; tsp_utilities.F90 `linesplit`, `getfile`; the loops of tsp_main.F90 and tsp_main_loop.F90 | `Model/TspControl.lean` | characters are codes; what a block does is a function of its lines and the store, left open; a block that is processed is read to its END before anything is done; messages, errors of reading and the branch UNROLL_CONTROL_FILE left out |
| TSPROC: tsp_utilities.F90 `char2date`, `char2time`, `a2i`, dates and times in `read_rest_of_sample_line`; dates of VOLUME_CALCULATION; dates and times of LIST_OUTPUT | `Model/TspText.lean` | characters are codes; the edit descriptor `i` reads an optional sign and digits up to 2147483647 and passes over blanks; messages left out |
| TSPROC: tsp_input.F90 `get_mul_series_ssf`, `get_ssf_series` from the opening of the file on; tsp_utilities.F90 `read_rest_of_sample_line`; `alloc_tempseries` | `Model/TspSample.lean` | a line is given as its words and the text after the fourth; numbers are rationals, unreadable ones `none`; lines of separators only left out; both passes are modelled, stores with their bounds; blocks, names of series and messages left out |
| TSPROC: tsp_input.F90 `get_mul_series_statvar` | `Model/TspStatvar.lean` | names are the texts that `getfile` finds; rows are dates, times and rational values, unreadable ones `none` (so are rows with too few values, where the program reads on in the next line); both passes with the bounds of stores, the column number 0 as undefined behaviour; keywords FILE, CONTEXT, DATE_n, TIME_n and the places of the series left out |
| MMF: build_lists.c without `DELETE_list`; the growth of tables in declvar.c, declparam.c, read_datainfo.c, alloc_space.c; `updateparam` of getparam.c; umalloc_etc.c; the names of modules in call_modules.c; print_model_info.c | `Model/Growth.lean` | memory as lists of cells, never written cells are `none`, accesses outside a block end the model; `malloc` and `realloc` succeed except in the allocation routines; the sorting of the tables is in `Model/Tables.lean` |
| TSPROC: `get_ufore_series` (tsp_input.F90) from the reference date on | `Model/TspUfore.lean` | integers up to a parameter `lim`, totals of seconds above it are undefined; reals as rationals, unreadable values as `none`; the reading of the block, the opening of the file and the search for a free series are left out |
| TSPROC: `get_mul_series_gsflow_gage` (tsp_input.F90) from the header on | `Model/TspGage.lean` | lines as lists of words, words as numbers or `none`; words that were not looked for in the line are an undefined outcome; reals as rationals, no integer overflow; the reading of the block and the places of the series are left out |

Not modelled at all: the PHREEQC numerical solver (Newton iteration, activity models, kinetics integration, inverse modelling, transport): its correctness is a statement about convergence in floating point and cannot be expressed in this exact model. Also not modelled: the graphical interface hooks.

## 4. Method per property

| id | model | proof |
|----|-------|-------|
| C01-C03 | `julday` and day-of-year with exact floors | linear arithmetic per month against a "next civil day" specification |
| C04, C05 | bubble sort on lists, bisection | loop invariants (permutation, sorted suffix; key between low and high), induction over declaration histories |
| C06 | `declvar` leaving a damaged entry | general negation; partial for histories without late failures |
| C07 | `decldim`, `declfix`, `getdim` state machine | invariant over histories; `declfix` refuted |
| C08, C09 | `str_to_vals`, `load_param`, `declparam` | closed form of the decoded array by induction on tokens; decision logic |
| C10, C11 | `resize_param`, clamp in `reset_dim` | index arithmetic |
| C12 | `CheckIndices`, `GetElemAddress` | mixed-radix bijection |
| C13, C46 | `getvar`/`putvar`/`getparam` with explicit buffers and strides | round trip by index arithmetic; LP64 refuted |
| C14, C47 | control table and character-level reader | induction over the lines of well-formed files; termination for any text |
| C15, C62, C63 | writer and character-level reader of parameter files | invariant over the reading loop; C15 refuted for every saved file |
| C16 | writer and reader of the state file | reader run on the written text, induction over variables |
| C17, C18 | `read_line` over record streams | induction over the records; several files by a merge specification |
| C19 | call sequence as a fold with arbitrary module bodies | induction over the module list |
| C20 | `iorun` with arbitrary rounding | invariant over the run |
| C21, C22, C25, C50-C52 | instances, registry, line accumulator as state machines over an arbitrary engine | invariants over histories, refinement to isolated instances |
| C23, C24, C49 | selected-output table | invariant over histories; refinement to a function of the history |
| C26 | number lists, DELETE, COPY | set semantics by induction on tokens |
| C27-C29, C53 | dictionary, sorted maps, mixing | induction on lists, lookup lemmas, sums over sorted maps |
| C30 | character-level line reader | refinement to a specification splitter |
| C31 | tally table and transfer | index arithmetic, induction over reactants |
| C32 | generated request read back by a small interpreter | equality with the requested effect for every abstract chemistry |
| C33, C44 | string conversion, copy loop | list lemmas, induction |
| C34, C35 | `solnnum`, `isoln` with single-precision rounding | linear arithmetic, rounding of small integers is exact |
| C36 | `intercept`, evaporation | field arithmetic, induction over steps |
| C37, C58, C59 | snow day (four quarters) | balance per branch, induction over steps |
| C38, C56, C57 | TOPMODEL bins and unit | balance per branch, sum over bins, induction over steps |
| C39, C40, C55 | routing arrays and ordinates | telescoping sums, convolution, prefix sums of the table |
| C41, C54 | precipitation and irrigation | case analysis, field arithmetic |
| C42 | `checkfracs` | induction over the list |
| C43, C60, C61 | `update_chem` accounts | per update, then over histories |
| C45 | scatter-add | induction over units |
| C48 | text of a data file to buffers and variables, character level | induction over header lines, records and columns; time steps by C17 |
| C64, C65 | `EXTRACT_time`, `julday` with time of day | parsing lemmas; integer seconds; C65 refuted |
| C66, C67 | as C48 | concrete files; missing values for all headers |
| C68, C69 | recursive-descent reader with explicit fuel, shown never to run out | grammar as an inductive type, induction on formulas; fuel by induction on the text |
| C70 | sort and merge | permutation lemmas |
| C71, C72 | `get_charge` with `strtol` base 0 and conversion to `int` | digit lemmas |
| C73, C74 | equation reader and balance check | induction over the species of each side, sums over permutations |
| C75, C76 | position in the solar table | invariant over any number of years, with the calendar lemmas of C01 |
| C77, C78 | radiation received | bounds |
| C79, C80 | lapse rates kept between steps | induction over records |
| C81, C82 | rotating buffer | state of the buffer for all histories |
| C83, C84 | season switch | invariant against a chronological definition of the season |
| C85, C86 | daily value divided among steps | sums over steps |
| C87-C89 | areas, averages, temperature units | field arithmetic |
| C90, C91 | statistic file as text | model output equal to a specified text, for all requests and steps |
| C92, C93 | animation files as texts | projection of interleaved writes on one file, fold over steps |
| C94 | sequence of events | case analysis, induction over steps |
| C95, C96 | list of options written as words | fold over options |
| C97, C98 | file as list of lines; header as list of words | induction on words; round trip of the scanner |
| C99, C100, C101 | record as list of rows; list-directed read into variables that keep their old values | overlay of read values; induction on steps and on lines skipped |
| C102 | list of uses of rows | pointwise equality of lists |
| C103 | rows of all matrices of a unit | each row by its definition; chains by induction over the run |
| C104 | columns of all reservoirs; three modules and the volumes as one step of a unit | sums over bins, distribution of the water at the ground; invariant of runs |
| C105 | states of the modules beside the volumes | refinement: abstraction relation kept by every step, errors add up |
| C106 | units, streams, basin | sums over units; invariant of runs |
| C107 | record of reported depths | sums over units of identities of C104 |
| C108 | list of names, size of table | counting; digits determine the number |
| C109 | accumulators of five periods with restart flags, rows as lists of values under labels | invariant: accumulators are sums over the steps since the last restart |
| C110 | composition of the reports of the basin (C107) with the balance of the summary | induction over the run |
| C111 | print switches, rows due at a step | case analysis; induction over the steps |
| C112 | Fortran formats as lists of edit descriptors, rows as columns with values; headings as text | layout lemma for any format; kernel computation of the columns of fixed headings; induction over solutes |
| C113 | solutions as water and moles under the names `solnnum` numbers; the mixing sequence as written, reactions a parameter | a contract for each section of the sequence (solutions changed, moles), composed |
| C114 | the same, with inert reactions | summing the equations of C113 |
| C115 | loop over segments; volumes from `webmod_res` | induction over segments; link to the routing of volumes |
| C116 | composition of `webmod_res` and the transport | frame lemmas for units, exchange of sums over units and segments, induction over the run |
| C117 | log of the calls of `update_chem` and of the volumes, as written by the sections | for each section what it records on each row, composed; append of logs |
| C118 | log of C117 translated into events of the tables of C43, with the rows of `isoln` (C34, C35); everything else the calls take is arbitrary | each record changes only its row (places of different keys differ); sums over the log; records of other units and of segments are quiet; induction over the steps |
| C119 | the same log and tables; flows of groundwater added to unit and basin directly are events of their own | sums over the log of calls flagged as crossing the boundary; records of other units and of segments are hushed; the sum of the reactions of the rows; balance of the unit with slack for reactions; induction over the steps |
| C120 | the same log and tables; reactions of a segment are recorded with the number of the segment (`sited`) | each record's effect on the basin is that on its unit, but for calls flagged for one of them only (`rise`, `seep`) and the reactions of segments; sums over the units; induction over units, segments and steps |
| C121 | tokens; mutually recursive readers by level (`eat`, `chain`) with fuel, `factor` and `link` for what is done at a level | specification: trees, their value, and their text with the fewest parentheses; fuel is enough for every token list (each call takes a token); induction over trees, for all levels and continuations |
| C122 | the list of lines with removal and insertion (`enterAt`), `findline` | induction over the lines typed: sorted, membership is the last definition; a sorted list is determined by its members |
| C123 | `step`: a statement at a place with loop records, or a new line; `iter` | specification: structured programs with a fuelled big-step meaning (`Task.run`), and their text in front of a continuation; lemmas for the scans (`skipif`, `skiploop`, `skipfor`) over texts; simulation by induction over the fuel and over programs, with the place after the statement and the loop records restored |
| C124 | the closed formulas with truncating division | specification: valid dates and the next day; day number rewritten with floors for months counted from March, successor by cases of months; the inverse in four stages (400 years, year, month, day); induction over the days |
| C125 | arrays as functions of the position, scans and partition with fuel and reads outside the array as failure | invariant of the partition (both scans have a sentinel; the parts are smaller), permutations of positions, induction over the fuel |
| C126 | sorted list, real index, interpolation | any two sorted permutations are equal; values at ranks; counting by position in the sorted list |
| C127 | the loop of `numterms`, folds over the slice | an ordered series is terms before, within and after the period; counting loop over the three; invariants of the folds |
| C128 | `volume` against `area`, a sum of trapezoids cut to the period | first interval, middle and last one by induction over the intervals; area additive by cases of the cut; months as set of periods |
| C129 | loops of `time_interp_s` and `time_base` | invariant: all terms before the start index are before the next time; value by cases of the interval |
| C130 | loop of `time_duration` | induction over the series: the list of excursions with an open first one; excursions unique; without delay the sum of fractions of intervals |
| C132 | lists of terms: marking of functions, signs, reductions in the order of the code | terms as trees of operands; each search of the code finds the leftmost place in the tree (mutual induction, nothing straddles two groups); a reduction at the highest level keeps the value of the flat sequence (a fold with pending sum and product); signs by induction over those not yet expanded |
| C131 | the three methods of `usgs_hysep` over lists of flows | windows cut from the record as slices, least element of a slice; intervals by induction over those filled; one period for a complete record, pairs of following minima by induction over the list of minima |
| C133 | each block as a map over the terms with their positions | windows as slices of the values; members of a window by position; sublists keep the order of times; sums of differences telescope by induction; equal intervals by induction over following terms |
| C135 | terms of the period as in C126, sums as folds | the terms taken are those `within` the period; sums of squares and absolute values are 0 only if each is; triangle inequality term by term for the index of agreement |
| C134 | the loops as a fold with the room left in the temporary series | calendar arithmetic with floors (C124): a month is at least 28 days, a year at least 365; the state after k steps by induction; the loop ends before its room by the estimate |
| C136 | arrays of optional entries, one for each kind | invariant over all sequences of blocks: names in lower case, unique in each array and across arrays but series and C_TABLEs; search and look-up characterised under the invariant |
| C137 | filter over an ordered field, loops written as in the code (five terms, then the others) | difference equations have one solution; sums, beginnings and constants are solutions; stability by the quadratic form of the recurrence, which shrinks by a constant factor |
| C138 | loop over the terms with counts, dates of C124 | induction over the terms with the groups found so far; numbers of periods grow with the day because the next day is never in an earlier one; sum of squared deviations by algebra |
| C139 | loop over three neighbouring terms with the peaks found so far | invariants of the loop (order, distance, last peak; dominance; exactness), carried by one induction; places of dates by induction over the terms |
| C140 | closed formula over real numbers | integrals and inverse functions of Mathlib; the normal of a slope and the direction to the sun as vectors, written independently of the code; bounds on pi for the constants |
| C141 | files as lists of lines | well-formed blocks are written as pieces with their words and separators, independent of the readers of the model; induction over the blocks; an invariant of the loop for files of any form |
| C142 | texts as lists of characters | the texts are three runs of digits with separators, their values given by powers of ten; dates are those of the calendar of C124; soundness for arbitrary texts by cases of the readers; the round trip uses C124's inverse of `julian_day` |
| C143 | files as lists of lines, two passes | the rows of a site and their terms are defined on the file alone; the passes are compared by induction over the lines (the counts of the first bound the stores of the second); exactness by an invariant that a series once begun has only later rows before it and a site past the end only later ones |
| C144 | header, rows and keywords as lists | the block is characterised by an induction three keywords at a time; the columns by an induction over the header (last line or none, number of matches); both passes by induction over the rows against filters of the rows by time |
| C145 | memory blocks with bounds, three growth rules | the invariant "the table holds these entries" is kept by each addition, then induction over the additions; names of modules by the place of name i in the block of all names |
| C146 | both passes over the file, with bounded integers and bounded series | induction over the values: the counting pass gives the number of terms between two times, the storing pass the terms themselves; times increase, so that the early end loses nothing |
| C147 | header scan, both passes over the lines, bounded series | the columns by induction over the header with the number of names found so far; both passes by induction over the lines; times by the shift rule of the floor function |

## 5. Where the code does not have the property

Each item is either proved (`_violated` theorem named) or an observation made while reading (marked "read").

Framework (`mmf_c`)
* C02: calendar day count of year 1 uses an uninitialised Julian day (`C02_year1_undefined`).
* C06: a declaration rejected late leaves an entry with an uninitialised key; lookups are then undefined (`C06_violated`, `C06_violated_always`).
* C07: `declfix` marks the alphabetically last dimension instead of the declared one (`C07_fixed_violated`, `C07_fixed_rejected_violated`).
* C08/C09: a value list without values "succeeds" with uninitialised storage; NaN defaults and unknown types are accepted (`C08_empty_uninitialised`, `C09_*_violated`). Read: tokens of 128 characters overflow; redeclaring a failed parameter dereferences null.
* C10: growing from size 0 reads index -1, shrinking to 0 loses the default, square parameters are read out of bounds (`C10_*_violated`).
* C12: parenthesised element indices are always refused (`C12_parentheses_violated`).
* C13/C46: on LP64 integers are garbled and overrun; three-dimensional data are not copied (`C13_*`, `C46_*_violated`).
* C14: larger control records overrun storage, sizes are not updated, a last line without newline loses a character, `//` inside a word reads before the buffer, `-set` overruns (`C14_*_violated`).
* C15: every saved parameter file whose first parameter is savable is rejected on reading (`C15_violated`); multi-line descriptions keep the last line (`C15_desc_violated`).
* C16: time not restored, long information lines and long keys break reading, public variables without dimensions fail (`C16_*_violated`).
* C17/C18: a malformed next line suppresses the record before it, a blank line before the start is an error, an exhausted first file hides the others, a closed file is read, same-day records are dropped (`C17_*`, `C18_*_violated`).
* C65: 30 February and any number of seconds are accepted (`C65_*_violated`).
* C66: missing and non-numeric values become 0, also in all later columns; a fraction in an integer column shifts the columns; a range error ends the run as a normal end; a header error is only a warning (`C66_*_violated`). Read: a line over 2047 characters is split into two records; an information line of 80 or more characters spills into the header; a header without records uses an unfilled buffer; names of 80 or more characters overflow in `readvar`.
* C67: all files are read with the header of the last one (`C67_headers_violated`).
* C19: unsupported `model_mode` reports success without calling modules, `_name` mode ignores errors, the program only prints declare errors (`C19_*_violated`).
* C20: two end-of-day flags for one day, stale leap-year lengths (`C20_*_violated`).
* C47: `control_integer_` returns one signed byte, `control_string_` pads with zero bytes (`C47_*_violated`).
* C62/C63: an undeclared last parameter closes the file twice; index names of an undeclared dimension, too few names on the last dimension, a note on the last line (`C62_*`, `C63_*_violated`).
* C91: text variables have no column, requests shorter than announced and names of 50 or more characters are undefined behaviour (`C91_*_violated`).
* C93: integers are written to the file of another dimension; of arrays with several dimensions only the first row is written (`C93_*_violated`).
* C96: the level of `-debug` is taken as control file; incomplete options and more than 100 settings are undefined behaviour (`C96_*_violated`). Read: the program always exits with status 1; a run without a step in its window ends without the closing message; error texts are used as format strings; the histogram of `stats` would be written out of bounds (never called); `getdimname` does not check the index.

Chemistry library
* C21: identifiers repeat after 2^31 creations (`C21_wrap_violated`). Read: the registry lock is released before the instance is used.
* C25: the selected-output string switch is looked up without the block number (`C25_*_violated`).
* C26: empty lists mixed with numbers, numbers outside `int`, ranges to the largest `int`, COPY ranges across zero or ending at -1 (`C26_*_violated`).
* C27-C29, C53: empty, long or multi-line names; factor 0; `merge_redox` drops the last character; weights with negative fractions (`*_violated`).
* C30: `\;` and `\#`, files including themselves, echo at end of file (`C30_*_violated`).
* C31: one row too few is accepted and overlaps; alternative formulas and shared rate names are misreported (`C31_*_violated`).
* C32: reaction temperature dropped, a missing solution re-runs the previous request with status OK, several negative fractions (`C32_*_violated`).
* C33/C44: trailing non-ASCII characters lost, ten-digit targets run together (`*_violated`).
* C50/C52: stale or missing lines after stopped runs, `AccumulateLine` and failed loads; a database whose test fails is still used (`*_violated`).
* C69: several numbered colon parts multiply, a colon part in a group followed by a number is refused, an opening bracket at the end reads past the text (`C69_*_violated`).
* C72: `+2.5` and `+2.50` are different species, `+010` is 8, `+4294967295` is -1 (`C72_*_violated`).
* C74: `(S)` and `(G)` groups are removed from the formula of the species or phase defined; a name of 256 or more characters ends the process (`C74_*_violated`). Read: the equation `=` uses a token that does not exist.

Hydrology and solutes (`webmod.d`)
* C35/C42: rows of units with fewer bins are not the initialised ones; rejected mixes are made nevertheless (`*_violated`).
* C76: starting on 21 December, or after a missing day at which a table entry begins, radiation is extrapolated for the rest of the year (`C76_*_violated`).
* C78: unit 1 is taken as the horizontal surface; division by zero when the sun does not rise there (`C78_*_violated`).
* C80: a missing first day of a month leaves the lapse rates of an earlier month (`C80_gap_violated`).
* C82: reaction temperatures start from zeros, are averaged over steps instead of days, a period of 0 writes outside the array (`C82_*_violated`).
* C84: in a cold year transpiration starts after the season; it ends before month `transp_end`; an index exceeded on the first day is noticed a day late (`C84_*_violated`). Read: records a month apart have the same day number and are taken as one day; `mru_pansta` is read with the type real.
* C86: with short steps the temperature of the first step of the day counts for all; a step of two days has the evapotranspiration of one (`C86_*_violated`).
* C89: temperatures of short steps in degrees Fahrenheit are not used (`C89_fahrenheit_violated`). Read: the messages about `temp_units` are exchanged.
* C36: falling leaves and snow-covered grass lose water (`C36_*_violated`).
* C37/C58: default `nexlag` writes outside arrays, first dry day uses an unassigned temperature, ground melt is reduced again every quarter (`*_violated`).
* C38/C57: moisture below the wilting point is accepted and makes evapotranspiration negative; the printed balance omits pumped water (`*_violated`). Read: `gw_ext` and `QOBS` are never filled.
* C39/C40/C55: channel losses are never removed; whole-number travel times lose all water; tables not ending at 1; too small `nhydro` writes out of bounds; irrigation taken from the wrong schedule (`*_violated`).
* C41/C54: the irrigation module divides mixtures anew; the first diversion is counted twice (`*_violated`).
* C43/C61: water passed downstream is recorded several times, stream volumes are overwritten, composite temperature and pH are weighted with the exported volume, and groundwater that is lost (8784-8792) adds to the volume of the outputs of unit and basin but not to their temperature and pH, so that the means shown are too small (`C61_loss_violated`).
* C98: a missing last unit is whatever the variable holds; two blanks are refused; names of more than 12 characters cannot match; a solute that is not in the table reads outside of it; sources are not read when precipitation is constant (`C98_*_violated`). Read: `'\f'` and `'\r'` in `LENGTH` are two characters and never match; `unit_id` compares a ninth unit outside its list; the message about the end of the file is replaced by the one about times.
* C101: a value that is not a number silently leaves the old values, a short line is continued with the next one, sources that are not in the file get temperature and pH of samples or memory outside the array (`C101_*_violated`).
* C102: if sources are not in the file, samples become solutions and are not recorded (`C102_samples_violated`).
* C103/C104: less than a litre of water dripping from the canopy is dropped on its way, but counted in the snowpack and the soil (`C104_litre_violated`).
* C105: when leaves fall from a wet canopy, the interception module loses water the volume keeps (`C105_leaf_fall_violated`).
* C106: water lost from a stream or taken from it leaves the basin but stays in the stream, and is routed downstream again (`C106_loss_violated`); at the start, depths over the basin are multiplied with the areas of channels, which with two equal channels gives half of the water (`C106_start_violated`).
* C108: the table of output files has no place for the files of streams with summary output, and is not allocated without solutes; beyond 999 units all share one name (`C108_*_violated`).
* C109: with no outflow or evaporation in a period, the means of the chemistry table are 0/0 (`C109_no_outflow_violated`). Read: totals of storms are those of days.
* C110: the error of the water balance is diversions less irrigation from streams, so it reports an error where there is none, and does not see water lost from streams (`C110_loss_violated`); the short table prints only the first of two groundwater inflows and no diversions, so its columns do not add up (`C110_table_violated`).
* C111: with steps of a day and `dtinit` below 24 no daily rows are written; the chemistry table has no daily rows (`C111_*_violated`).
* C112: with `print_type` 0 integers are written with real edit descriptors, and with an explanation (default) a real second with an integer one, which stops the program (`C112_flow_violated`, `C112_explanation_violated`); rows of steps at the outlet are shifted against the heading (`C112_outlet_violated`); the rule at the head of the short table is one column to the left (`C112_table_head_violated`). Read: the explanation calls `Can_evap` what the heading calls `Int_evap`.
* C114: solute is lost or created where irrigation bypasses the unsaturated zone, since the inputs of the saturated zone leave out the columns of irrigation (`C114_bypass_violated`); where a bin feeds only preferential flow, or the water table rises without percolation, since recharge is mixed only for bins and units with percolation (`C114_recharge_violated`, `C114_rise_violated`); where ions leave the pack in a pulse while snow sublimates (`C114_pulse_violated`); where an empty bin receives water (`C114_empty_violated`); where a canopy only holds back irrigation (`C114_canopy_violated`); where leaves come while there is overland flow (`C114_leaves_violated`). Read: masses recorded as outputs use the solution before reaction while the reservoir downstream receives the reacted one; the snowpack never reacts on days with flows; conservation needs every solution to hold the same mass of water.
* C115, C116: water taken or lost from a stream leaves its solute behind (`C115_taken_violated`, `C116_taken_violated`). Read: the solution above the uppermost segment is never renewed, and is pure water after the first step; in the first step solutions are not carried over, so that the solution of a deep path without flow is pure water in the second.
* C117: water lost to deep groundwater and deep preferential flow are recorded with the concentration before reactions, while the solution passed on is that after (`C117_reaction_violated`); deposition is recorded on its row as it was before equilibration with the atmosphere (`C117_atmosphere_violated`); with `qpref_max` 0 volumes but no final amount are recorded for the deep path (`C117_path_violated`).
* C118: with `qpref_max` 0 the row of the deep path has the volume of its water but no amount (`C118_path_violated`); the call for rain (6826) passes `ires` as an earlier call has left it: if that was a stream segment, rain is entered as an input of the streams (`C118_rain_violated`). Read, not modelled: `ch_mru_permil_*` and `ch_basin_permil_*` for groundwater (7115-7128) accumulate the delta of the composite, not that of the water that enters.
* C119: the composite of a unit does not balance where there are reactions (`C119_reaction_violated`): deposition is recorded before it exchanges with the atmosphere, water that leaves a reservoir is recorded as leaving before its reactions and as entering the next reservoir or the stream after them, while reactions are recorded for the water that remains only. Without a path of deep preferential flow the solute in its water is left out (`C119_path_violated`).
* C120: water diverted from a stream is entered twice as output of the basin: when it falls on the unit (`phreeq_mms.F90:6961-7003`) and with its segment (`9191-9193`); neither it nor what is lost from channels is taken from the water in the segment. The output is too much by exactly these amounts (`C120_run_partial`, `C120_taken_violated`).
* C121: NOT is the complement of the bits, so that NOT of a comparison is -1 or -2 and never 0: `IF NOT (a = b) THEN` is always taken (`C121_not_violated`). A sign binds more than `^`: `-2^2` is 4 (`C121_minus_violated`). `0^0` and `0^-1` are 0 (`C121_power_violated`). MOD adds 1e-14: `7 MOD 3 = 1` is false (`C121_mod_violated`). AND, OR, XOR drop fractions: `0.5 AND 1` is 0 (`C121_and_violated`). The specification has these values; C121 is about the structure.
* C123: a FOR loop that is not entered, with a loop of the same variable inside whose NEXT does not name it, is left at the NEXT of the inner loop (`C123_unnamed_violated`). Excluded by `Stm.clear`. Read: leaving a loop with GOTO keeps its record, so that a later NEXT without variable goes on with the loop that was left.
* C124: `leap` is false for the year 0, which the day numbers treat as a leap year (`C124_zero_violated`).
* C126: the quantile of less than one value lies below the least value, on the line through the two least (`C126_low_violated`); with 30 to 198 flows and a least flow of 0 the default table has a negative flow (`C126_duration_violated`). The period given for a table is written in its heading but the flows are those of the whole series (`C126_period_violated`, `C126_period_witness_violated`). The scalar and the vector version of the quantile differ (`C126_scalar_violated`; the scalar one is not called). Read: `flow_duration` checks the period against series number 0 if no series is named.
* C127: the median of a block STATISTICS is that of the whole series without transformation, whatever period and transformation are asked for (`C127_median_violated`).
* C128: months and years found by the program end at 23:59:59: the last second before the next one is lost (`C128_second_violated`), and if the last term is before the end of its day, as in every daily series, the last volume is the number -3.1e37, which is printed (`C128_last_violated`, `C128_last_witness_violated`). They begin at 0:00: with daily flows at noon the line of the first two is prolonged backwards (`C128_first_witness_violated`). A year counts as complete with 350 terms, not days, and begins with its January and ends with its December whether there are any (`C128_annual_violated`).
* C130: a month is a twelfth of 356.25 days instead of 365.25 (`C130_months_violated`).
* C132: a sign binds more than `^`: `-2^2` is 4 (`C132_sign_before_power_violated`); powers are taken from left to right: `2^3^2` is 64 (`C132_towers_violated`). Read: `abs(*)` and `-*3` are not refused but take the number last stored at the place of the operator.
* C131: a missing flow within a sliding interval makes the baseflow negative (`C131_sliding_missing_violated`); records shorter than half a sliding interval are read past their end (`C131_sliding_short_violated`); flows over 100000 have a baseflow of 100000 (`C131_sliding_large_violated`). Fixed intervals: fewer than eleven days, fewer days than the interval, or a missing first flow are undefined (`C131_fixed_short_violated`: read before the arrays, undefined variable, write to a constant argument); for every missing flow among the last eleven the last day loses its baseflow (`C131_fixed_end_violated`). Local minima: without a minimum the baseflow is -999 (`C131_locmin_none_violated`), for a record shorter than the interval 0 (`C131_locmin_short_violated`), and the day after a short period is never assigned (`C131_locmin_unassigned_violated`); intervals of 1 and even ones below 11 find no minimum, all above 11 are as 11 (`C131_half_violated`).
- C133: a moving minimum starts from 1e30, so a window of larger values gets 1e30 (`C133_moving_minimum_large_violated`); with a window of one term the first and the last time come twice (`C133_moving_lowest_one_violated`); a lag of -9999 terms is taken for a missing one (`C133_displace_sentinel_violated`). Read only: the interval in `displace` is multiplied as a default integer.
- C135: two common terms are refused although the message asks for at least two (`C135_two_violated`); the relative bias with a mean of 0 is 1e30 (`C135_relative_bias_violated`); the volumetric efficiency divides by a total that can be 0, and is above 1 for negative totals (`C135_volumetric_violated`).
- C134: a first date without a time is taken at 24:00, so nothing of that day is in the period (`C134_default_violated`); a monthly or yearly series from 24:00 on has its first term a day later in the month than all others (`C134_uniform_midnight_violated`).
- C136: a new series is not compared with C_TABLEs, so both can have one name (`C136_c_table_violated`); names are compared after a change to upper case that tests the first character of the name instead of each one against `z`, so `a{` and `a[` are the same (`C136_compare_violated`); a series made from a V_TABLE cannot be erased, since `val` was never allocated (`C136_double_violated`), nor a G_TABLE (`C136_g_table_violated`), nor a series named twice in a block (`C136_twice_violated`). Read only: the flag of double precision is never reset when the element is used again.
- C137: the filter for baseflow starts with a quick part equal to the flow, so a constant flow has a quick part that only fades with the powers of ALPHA (`C137_quick_constant_violated`); ALPHA of one and more is accepted, and then all of a constant flow is quick (`C137_alpha_violated`). Stability of band pass and of several stages together is not proved.
- C138: the centre of a year that ends in March is dated in the next year (`C138_centre_violated`); months and days are compared by number only, so January of two years without a term between is one month (`C138_merge_violated`); greatest value, least value and range of all periods but the first start with the untransformed value (`C138_transform_violated`); the median is accepted and its value never assigned (`C138_median_violated`).
- C139: the height of the last peak is an integer variable, so a lower peak can replace a higher one (`C139_truncated_violated`); near the first term MIN_PEAK is not tested and tops below the first term are dropped (`C139_start_violated`); the last term but one is never a peak (`C139_last_violated`); times of day are lost by an integer division (`C139_time_violated`); an event that reaches the last term ends with its peak (`C139_end_violated`); events that overlap repeat terms (`C139_overlap_violated`) and can be written outside of the temporary series (`C139_overflow_violated`).
- C140: the table declared as hours between sunrise and sunset has units of twelve hours (`C140_hours_violated`). Units on which the sun can rise twice and units beyond the pole are not covered by `C140_inclined_partial`; there the code uses 3.14159 and 6.28318 in place of pi, and results are only close.
- C141: a context on the command line is not put in lower case, so one with a capital matches no block (`C141_override_violated`); contexts are compared in their first 25 characters (`C141_truncated_violated`); a block for another context takes the following block with it when its END is missing (`C141_swallow_violated`) or when it has no line besides its contexts, because its own END has then been read already (`C141_empty_violated`).
- C142: `read_rest_of_sample_line` calls `char2time` without `ignore_24`, so 24:00:00 is refused in site sample files, although their readers go on to turn 86400 seconds into the next day and blocks take it (`C142_sample_midnight_violated`); dates are cut to 20 characters before they are checked (`C142_cut_violated`); 29 February of the year 0 is counted and written but not read (`C142_year_zero_violated`); years above 9999 are written as asterisks, which are no date (`C142_far_violated`).
- C143: `get_ssf_series` counts the rows of a site up to the first row of another site and allocates the temporary series accordingly, but stores the rows of the whole file: if the site comes again, it writes outside the arrays (`C143_one_violated`, for every such file). In files that are not in the order of time, terms before the period are taken and terms in it are lost (`C143_unordered_violated`). The mark `X` is not taken as `x` (`C143_mark_violated`), and sites are compared in 18 characters (`C143_names_violated`).
- C144: `get_mul_series_statvar` compares the number of matching header lines with the number of series before it looks for missing ones; if a variable asked for comes twice in the header and another is missing, it reads `rval(0)` (`C144_missing_violated`, for every such header). In the first pass rows after the period are skipped, in the second they end the reading: in a file that is not in the order of time the series claims terms that were never stored (`C144_unordered_violated`; the general law is `C144_general`). Variables of more than 50 characters cannot be asked for (`C144_names_violated`).
- C145: `ucalloc` lacks braces: it ends the program in every call, also if it got memory (`C145_ucalloc_violated`; nothing in the model calls it). A list made smaller by `RESIZE_list` by more than 100 entries is written outside its block at the next addition (`C145_resize_violated`; only `ADD_to_list` calls it). Not modelled: `module_names` is declared as a control variable of strings, `module_x` and others as one of long integers, but they are characters and integers of type int; only `print_model_info` reads them, as what they are.
- C146: with DATE_1 or DATE_2 the program multiplies Julian days by 86400 in integers of 4 bytes, which is too large for every date from the year 1 on (`C146_overflow_violated`; the commented-out line before it counted days from 1970). With integers that are large enough the period is exact for increments up to a day (`C146_period`); above, only one day is carried per step, so that terms are stored at wrong times, and more may be stored than were counted (`C146_step_violated`). Without dates any increment is exact (`C146_all`).
- C147: the second pass looks for as many words of a line as the last requested column needs, but also takes the time from the line; if the time stands behind the requested columns, the times are those of stale positions (`C147_time_violated`, every such file). A name that is twice in the header counts twice, and a requested column may then be missing without a message (`C147_names_violated`). The first pass counts all lines of the period, the second one stops at the first line after it (`C147_general`): with lines out of order the series claims more terms than are stored.
