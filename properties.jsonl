{"id": "C01", "title": "Consecutive dates get consecutive Julian day numbers", "statement": "For every valid civil date from year 1 on, the Julian day number computed for the following civil day is exactly one larger; this holds across month ends, leap days, year ends and the October 1582 calendar switch, so day numbers order dates and never repeat.", "quantifier": "all valid dates (year, month, day) with year >= 1, and all pairs of such dates", "why_tests_cant": "There is no upper bound on years and the error modes (century leap days, month tables, 1582) hit isolated days; a finite list of dates cannot exclude one bad day.", "anchors": ["mmf_c/src/julday.c:julday"]}
{"id": "C02", "title": "Day-of-year functions count 1..366 and restart on the right day", "statement": "For every date, the calendar, water-year, solar-year and spring-year day counts are between 1 and 366, equal 1 exactly on the first day of that kind of year (Jan 1, Oct 1, Dec 22, Mar 21) and otherwise exceed the count of the previous day by one.", "quantifier": "all valid dates with year >= 2 and all four year kinds", "why_tests_cant": "Unbounded number of years; off-by-one errors occur only next to the reference day or in leap years.", "anchors": ["mmf_c/src/timing.c:julian", "mmf_c/src/julday.c:julday"]}
{"id": "C03", "title": "Leap-year predicate and weekday agree with the day numbering", "statement": "For every Gregorian year the leap-year predicate is true exactly when that year has 366 numbered days, and the weekday of consecutive days cycles through 0..6.", "quantifier": "all years after 1582, all days", "why_tests_cant": "Ranges over all years; century exceptions are rare.", "anchors": ["mmf_c/src/julconvert.c:isleap,dayofweek", "mmf_c/src/julday.c:julday"]}
{"id": "C04", "title": "Declared variables stay sorted and nothing is lost", "statement": "After any sequence of declarations the variable, parameter and dimension tables are sorted by key and contain exactly the declared entries, each once.", "quantifier": "all finite sequences of declarations with arbitrary distinct keys", "why_tests_cant": "Sorting and lookup interact over histories of any length and key order.", "anchors": ["mmf_c/src/sort_vars.c:sort_vars", "mmf_c/src/sort_params.c:sort_params", "mmf_c/src/sort_dims.c:sort_dims"]}
{"id": "C05", "title": "Variable lookup finds exactly the declared variables", "statement": "On any sorted table of distinct keys, looking a key up returns the entry with that key when one exists and fails when none exists; the search always terminates.", "quantifier": "all table sizes, all keys", "why_tests_cant": "Binary search boundary errors depend on table size and on the position of the key.", "anchors": ["mmf_c/src/var_addr.c:var_addr"]}
{"id": "C06", "title": "A rejected variable declaration leaves the variable database usable", "statement": "If a variable declaration reports an error, every previously declared variable can still be found and no new entry appears.", "quantifier": "all declaration histories mixing accepted and rejected declarations", "why_tests_cant": "Needs all interleavings of successful and failing declarations.", "anchors": ["mmf_c/src/declvar.c:declvar"]}
{"id": "C07", "title": "Dimension declarations are validated and retrievable", "statement": "A dimension declaration is accepted exactly when the name is new and 0 <= value <= max; after any history, asking for the value of an accepted dimension returns its value and asking for an unknown one returns -1. A dimension declared as fixed is the one marked fixed.", "quantifier": "all sequences of dimension declarations", "why_tests_cant": "Depends on the whole declaration history and on alphabetical order of names.", "anchors": ["mmf_c/src/decldim.c:decldim,declfix", "mmf_c/src/getdim.c:getdim", "mmf_c/src/dim_addr.c:dim_addr"]}
{"id": "C08", "title": "Decoding a value list fills every element as documented", "statement": "Decoding a parameter default string for an array of n elements produces exactly n values: the listed values with n*v repeat counts expanded, truncated to n, and repeated cyclically when fewer than n are given; malformed repeat counts are rejected.", "quantifier": "all token lists (non-empty), all array sizes", "why_tests_cant": "Unbounded list lengths, repeat counts and sizes.", "anchors": ["mmf_c/src/str_to_vals.c:str_to_vals"]}
{"id": "C09", "title": "Accepted parameter defaults lie within their declared bounds", "statement": "When a parameter declaration is accepted, for every element minimum <= maximum and minimum <= default <= maximum, and the current value equals the default.", "quantifier": "all declarations: any sizes, bounds and default lists", "why_tests_cant": "Universally quantified over element positions and value lists.", "anchors": ["mmf_c/src/load_param.c:load_param", "mmf_c/src/declparam.c:declparam"]}
{"id": "C10", "title": "Resizing a dimension preserves surviving parameter elements", "statement": "When a dimension of a parameter is resized, every element whose indices exist before and after keeps its value, new positions along the dimension take the value of the last old position, and no memory outside the old array is read.", "quantifier": "all parameters with any number of dimensions, any old and new sizes, any index tuple", "why_tests_cant": "Index arithmetic over arbitrary dimension tuples; empty dimensions are corner cases.", "anchors": ["mmf_c/src/reset_dim.c:reset_dim,resize_param"]}
{"id": "C11", "title": "Dimension-bounded parameters never exceed the dimension", "statement": "After a dimension change every parameter whose maximum is bounded by that dimension has all its values at most the new dimension value.", "quantifier": "all parameters, sizes and values", "why_tests_cant": "Quantifies over all elements and all size changes.", "anchors": ["mmf_c/src/reset_dim.c:reset_dim"]}
{"id": "C12", "title": "Element references map one-to-one onto storage", "statement": "An index string is accepted exactly when it has one index per dimension, each between 1 and the dimension value; accepted index tuples map to offsets inside the array, two different tuples never share an offset, and every offset is reached.", "quantifier": "all dimension tuples, all index tuples", "why_tests_cant": "Unbounded dimensions; collisions are invisible to sampled tests.", "anchors": ["mmf_c/src/get_elem_add.c:CheckIndices,GetElemAddress"]}
{"id": "C13", "title": "Variables read back what was written", "statement": "For a declared one- or two-dimensional variable, storing an array and reading it back with the same size returns the stored elements; nothing outside the declared storage or the caller's buffer is accessed.", "quantifier": "all dimension values and maxima, all array contents, all caller buffer sizes", "why_tests_cant": "Stride selection depends on the relation between value, maximum and buffer size; a sample misses the mismatching combinations.", "anchors": ["mmf_c/src/getvar.c:getvar", "mmf_c/src/putvar.c:putvar"]}
{"id": "C14", "title": "Control file values never overrun declared storage", "statement": "Reading a control file stores each record's values in the storage of that control variable without writing past its end, and afterwards the variable has the size and values given in the file.", "quantifier": "all control declarations and all control files", "why_tests_cant": "The failing inputs are files whose record is larger than the declaration.", "anchors": ["mmf_c/src/read_control.c:rc,read_control", "mmf_c/src/decl_control.c:decl_control"]}
{"id": "C15", "title": "A saved parameter file can be read back", "statement": "Reading the values section written for a parameter of any size restores exactly the saved values without an error.", "quantifier": "all parameter sizes and values", "why_tests_cant": "Round trips must hold for all contents.", "anchors": ["mmf_c/src/save_params.c:save_params", "mmf_c/src/read_params.c:READ_param_values"]}
{"id": "C16", "title": "A saved model state can be restored", "statement": "Restoring a state file written by the save operation, under the same declarations, restores every dimension check, the step count and all variable values exactly.", "quantifier": "all variable tables, sizes and values", "why_tests_cant": "Round trip over unbounded tables.", "anchors": ["mmf_c/src/save_vars.c:save_vars", "mmf_c/src/read_vars.c:read_vars"]}
{"id": "C17", "title": "The time loop delivers exactly the records inside the simulation window", "statement": "With one data file ordered by time, the sequence of time steps run by the model is exactly the file's records between start and end time, in order, numbered 1,2,3,..., each with a positive time increment.", "quantifier": "all data files (any number of records), all start and end times", "why_tests_cant": "Histories of any length with records before, in and after the window.", "anchors": ["mmf_c/src/read_line.c:read_line,FILE_with_next_ts", "mmf_c/src/batch_run.c:batch_run"]}
{"id": "C18", "title": "Data from several input files are merged without loss", "statement": "With several data files, every record of every file inside the window is delivered.", "quantifier": "all numbers of files and all interleavings of record times", "why_tests_cant": "The failing interleavings need one file to end before another.", "anchors": ["mmf_c/src/read_line.c:FILE_with_next_ts,read_line"]}
{"id": "C19", "title": "Modules run in the documented order and the first failure stops the step", "statement": "Each phase calls the modules in the documented fixed order, every module exactly once, stops at the first module that reports an error and returns that error; the phase succeeds exactly when all modules succeed.", "quantifier": "all module outcomes", "why_tests_cant": "Every combination of failing modules.", "anchors": ["webmod.d/src/call_modules_webmod.F:call_modules"]}
{"id": "C20", "title": "End-of-period flags survive encoding", "statement": "The end-of-period code published each step decodes, in every consumer, to exactly the storm/day/month/year/run flags that were set.", "quantifier": "all dates, time steps and end times", "why_tests_cant": "Decoding relies on nesting of the flags for every date.", "anchors": ["webmod.d/src/io.F:iorun", "webmod.d/src/route_clark.F:routecrun", "webmod.d/src/topmod_chem.F:topmrun"]}
{"id": "C21", "title": "Instance identifiers are never confused", "statement": "Every created chemistry instance receives an identifier never used before; operations on an identifier affect that instance only; operations on an identifier that was never created or was destroyed report a bad-instance code and change nothing.", "quantifier": "all histories of create, destroy and use operations", "why_tests_cant": "Histories of unbounded length.", "anchors": ["IPhreeqcMMS/IPhreeqc/src/IPhreeqcLib.cpp:CreateIPhreeqc,DestroyIPhreeqc", "IPhreeqcMMS/IPhreeqc/src/IPhreeqc.cpp:IPhreeqc::IPhreeqc"]}
{"id": "C22", "title": "Accumulated input is exactly the lines added since the last run", "statement": "After any history of adding lines, running and clearing, the accumulated text is the concatenation, in order and each followed by a newline, of the lines added since the last clear or, if a line was added after a run, since that run; running does not lose lines until the next line is added.", "quantifier": "all histories of AccumulateLine, RunAccumulated, ClearAccumulatedLines, RunString, RunFile", "why_tests_cant": "A protocol property over all histories.", "anchors": ["IPhreeqcMMS/IPhreeqc/src/IPhreeqc.cpp:AccumulateLine,RunAccumulated,ClearAccumulatedLines"]}
{"id": "C23", "title": "Selected-output tables stay rectangular and accesses are bounds-checked", "statement": "After any history of adding values and ending rows the table is rectangular: every column has one cell per completed row plus at most one pending cell; reading cell (r,c) succeeds exactly for 0 <= r < row count and 0 <= c < column count, returns the heading in row 0 and the last value pushed for that row and heading otherwise; other indices return the invalid-row or invalid-column code.", "quantifier": "all histories of pushes and row ends, all row and column numbers", "why_tests_cant": "Columns can be created at any row in any order.", "anchors": ["IPhreeqcMMS/IPhreeqc/src/CSelectedOutput.cpp:PushBack,EndRow,Get,GetRowCount,GetColCount"]}
{"id": "C24", "title": "Serialized selected-output rows are restored unchanged", "statement": "Serializing rows of a selected-output table and deserializing them restores the headings, the types and the values of every cell.", "quantifier": "all tables and rows", "why_tests_cant": "Round trip over unbounded tables with mixed types and strings of any length.", "anchors": ["IPhreeqcMMS/IPhreeqc/src/CSelectedOutput.cpp:Serialize,DeSerialize"]}
{"id": "C25", "title": "Selected-output string switch applies to the user number it was set for", "statement": "Turning string output on or off for one selected-output block changes the captured text of that block only.", "quantifier": "all sets of selected-output blocks, all switch settings", "why_tests_cant": "Needs several blocks with different settings.", "anchors": ["IPhreeqcMMS/IPhreeqc/src/IPhreeqc.cpp:get_sel_out_string_on,GetSelectedOutputString"]}
{"id": "C26", "title": "Number lists in DUMP/DELETE/COPY mean what the manual says", "statement": "A list of numbers and ranges n-m selects exactly the numbers listed (each range inclusive, in either order), negative numbers included; an empty list selects everything, and adding a number to 'everything' leaves it unchanged.", "quantifier": "all lists of tokens", "why_tests_cant": "Unbounded ranges and mixtures of signs.", "anchors": ["IPhreeqcMMS/IPhreeqc/src/phreeqcpp/StorageBinList.cpp:StorageBinListItem::Augment"]}
{"id": "C27", "title": "String dictionary and name/value serialization round-trip", "statement": "Serializing name/value maps through a shared dictionary and deserializing restores every name and value; equal words share one index, different words get different indices.", "quantifier": "all word sequences and maps", "why_tests_cant": "Round trip over arbitrary word sequences.", "anchors": ["IPhreeqcMMS/IPhreeqc/src/phreeqcpp/Dictionary.cpp:Find", "IPhreeqcMMS/IPhreeqc/src/phreeqcpp/NameDouble.cxx:Serialize,Deserialize"]}
{"id": "C28", "title": "Mixing element totals is linear", "statement": "Adding one solution's totals scaled by a factor to another gives, for every element, the sum of its own amount and the scaled amount; adding several solutions in any order gives the same totals; scaling multiplies every total.", "quantifier": "all element maps, factors and orders", "why_tests_cant": "Quantifies over all maps and permutations.", "anchors": ["IPhreeqcMMS/IPhreeqc/src/phreeqcpp/NameDouble.cxx:add_extensive,multiply", "IPhreeqcMMS/IPhreeqc/src/phreeqcpp/Solution.cxx:add,multiply,cxxSolution(mix)", "IPhreeqcMMS/IPhreeqc/src/phreeqcpp/step.cpp:add_mix,add_solution"]}
{"id": "C29", "title": "Combining redox states preserves element totals", "statement": "Simplifying redox states replaces the valence-state entries of an element by one entry with their sum, for every element; hydrogen, oxygen and charge entries are left out. The total of an element asked for by name is the same sum. Scaling the activities of an element changes exactly its entries. Merging a list of totals replaces every state of the elements it names and changes nothing else.", "quantifier": "all sorted maps of element and valence names", "why_tests_cant": "The merge walk depends on name order.", "anchors": ["IPhreeqcMMS/IPhreeqc/src/phreeqcpp/NameDouble.cxx:Simplify_redox,merge_redox,Multiply_activities_redox,Get_total_element"]}
{"id": "C30", "title": "Logical input lines: comments, separators and continuations", "statement": "Reading input yields the same logical lines as splitting at newlines and semicolons after removing comments and joining backslash continuations; every input byte belongs to exactly one logical line and reading terminates.", "quantifier": "all input texts", "why_tests_cant": "All byte sequences, including odd combinations at end of file.", "anchors": ["IPhreeqcMMS/IPhreeqc/src/phreeqcpp/common/PHRQ_io.cpp:get_logical_line,get_line"]}
{"id": "C31", "title": "Tally tables report final minus initial amounts in the right cells", "statement": "The stored tally table holds in cell (row, column) the change of that component caused by that reactant divided by the fill factor, the two solution columns hold the conservative and reacted totals, and writes stay inside the caller's array whenever the declared dimensions are accepted.", "quantifier": "all table dimensions, component lists and reactant lists", "why_tests_cant": "Layout errors show only for particular dimension combinations.", "anchors": ["IPhreeqcMMS/IPhreeqc/src/phreeqcpp/tally.cpp:store_tally_table,diff_tally_table"]}
{"id": "C32", "title": "The mixing request is translated faithfully", "statement": "For every mixing request the generated input mixes exactly the given solutions with the given fractions, saves to the requested numbers, and uses/saves exactly the reactants that exist; scaling by the fill factor is undone afterwards.", "quantifier": "all lists of solutions and fractions, all reactant selections", "why_tests_cant": "Combinatorial choice of reactants and any number of solutions.", "anchors": ["IPhreeqcMMS/src/IPhreeqcMMS.cpp:PreMixCallback"]}
{"id": "C33", "title": "Fortran string conversion is loss-free", "statement": "A C string copied into a Fortran variable that is long enough and converted back is unchanged up to trailing blanks; longer strings are truncated, never overrun.", "quantifier": "all strings and lengths", "why_tests_cant": "All lengths, including the boundary.", "anchors": ["IPhreeqcMMS/IPhreeqc/src/fwrap.cpp:f2cstring,padfstring"]}
{"id": "C34", "title": "Solution numbers are unique", "statement": "Distinct model reservoirs (time level, reservoir kind, MRU, topographic bin, stream segment, data source) receive distinct PHREEQC solution numbers for all dimension sizes the model admits.", "quantifier": "all reservoirs within the declared dimension maxima", "why_tests_cant": "Millions of combinations; a collision silently mixes unrelated waters.", "anchors": ["webmod.d/src/phreeq_mms.F90:solnnum"]}
{"id": "C35", "title": "Solution numbers invert to unique table rows", "statement": "Each reservoir's solution number inverts to a row of the chemistry table inside the table, the two time levels of a reservoir share the row, and different reservoirs have different rows.", "quantifier": "all dimension sizes and reservoirs", "why_tests_cant": "Row layout arithmetic over all sizes.", "anchors": ["webmod.d/src/phreeq_mms.F90:isoln,solnnum"]}
{"id": "C36", "title": "Canopy interception conserves water", "statement": "Precipitation equals net precipitation plus cover-weighted increase of interception storage; storage never exceeds the capacity after an interception event and never becomes negative; canopy evaporation never exceeds potential evaporation or the stored water.", "quantifier": "all depths, capacities, covers and histories", "why_tests_cant": "Real-valued inputs and unbounded histories.", "anchors": ["webmod.d/src/intcp_prms.F:intercept,intrun"]}
{"id": "C37", "title": "The snowpack conserves water", "statement": "For every sequence of time steps, weather and parameters, precipitation equals melt plus rain on bare soil plus sublimation plus change of water stored in the pack (ice, liquid, lagged and routed water); no store becomes negative; a vanished pack holds no water.", "quantifier": "all histories of any length, all real-valued inputs and energy terms", "why_tests_cant": "Conservation over unbounded histories with many branches.", "anchors": ["webmod.d/src/nwsmelt_topg.F:nwsmrun,ROUTE,HEATWATR,AESNOW"]}
{"id": "C38", "title": "The hillslope water balance closes", "statement": "For each MRU and step, water input plus groundwater inflow equals evapotranspiration plus discharge plus losses plus pumping plus change of root-zone, unsaturated and saturated storage; root-zone deficit stays between 0 and its maximum, unsaturated storage stays non-negative, and the internal 'double recharge' stop cannot be reached.", "quantifier": "all bins, parameters, states and histories", "why_tests_cant": "Conservation over all branches and bins.", "anchors": ["webmod.d/src/topmod_chem.F:topmrun"]}
{"id": "C39", "title": "Channel routing conserves water", "statement": "Water entering the channel network leaves it at the outlet, by diversion or by channel loss, or is still stored; storage never becomes negative.", "quantifier": "all routing histograms, inflow histories and diversion requests", "why_tests_cant": "Conservation over all histories.", "anchors": ["webmod.d/src/route_clark.F:routecrun"]}
{"id": "C40", "title": "Routing histograms distribute the whole inflow", "statement": "The time-delay ordinates of each channel are non-negative and add up to the channel's area fraction, for every distance-area table ending at 1.", "quantifier": "all distance-area tables, velocities and time steps", "why_tests_cant": "Real-valued tables of any length.", "anchors": ["webmod.d/src/route_clark.F:routecinit"]}
{"id": "C41", "title": "Precipitation form: rain plus snow equals deposition", "statement": "For every temperature and deposition, rain plus snow equals the (adjusted) deposition, neither is negative, and the pure-rain / pure-snow thresholds are respected.", "quantifier": "all temperatures, thresholds and amounts", "why_tests_cant": "Real-valued inputs.", "anchors": ["webmod.d/src/precip_web.F:pptrun", "webmod.d/src/irrig_web.F:irrrun"]}
{"id": "C42", "title": "Mixing fractions are validated", "statement": "A mix is accepted only if the fractions sum to one within 0.001; negative fractions other than evaporation or snowmelt are replaced by zero before use.", "quantifier": "all lists of solutions and fractions", "why_tests_cant": "Any number and order of fractions.", "anchors": ["webmod.d/src/phreeq_mms.F90:checkfracs"]}
{"id": "C43", "title": "Solute masses are accounted to the right reservoirs", "statement": "Each input, output or reaction recorded for a reservoir adds the same amount to every composite (basin, MRU, unsaturated zone, stream) the reservoir belongs to, and water leaving a stream segment appears once as input of the next segment.", "quantifier": "all sequences of updates", "why_tests_cant": "Histories of updates of any length.", "anchors": ["webmod.d/src/phreeq_mms.F90:update_chem"]}
{"id": "C44", "title": "Copying reservoirs copies exactly the requested pairs", "statement": "A multi-copy request copies each requested pair in order, skips pairs with a negative index and stops at the first failure, reporting it.", "quantifier": "all lists of pairs and failure patterns", "why_tests_cant": "All lists and failure positions.", "anchors": ["IPhreeqcMMS/src/phr_multicopy.f90:phr_multicopy"]}
{"id": "C45", "title": "Areas and inflows are aggregated without loss", "statement": "Channel areas and area fractions are the sums over the MRUs draining to them, the total hillslope discharge equals the total channel inflow, and initialisation is refused when the fractions do not sum to one within 0.0001.", "quantifier": "all MRU-to-channel assignments", "why_tests_cant": "All assignments of any number of MRUs.", "anchors": ["webmod.d/src/top2clark.F:top2cinit,top2crun"]}
{"id": "C46", "title": "Parameter values handed to a module equal the values in the data base", "statement": "A module that asks for a one or two dimensional parameter receives element (i,j) of the data base at row i, column j of its own array, whatever the declared maximum of its first dimension, no other cell of its array is changed, and a too small array is refused.", "quantifier": "all parameter types, dimensions, declared maxima and array contents", "why_tests_cant": "All combinations of current and maximum dimensions.", "anchors": ["mmf_c/src/getparam.c:getparam,paramcopy"]}
{"id": "C47", "title": "Control values handed to Fortran modules equal the stored values", "statement": "A module asking for an integer or a text control variable by name receives the stored value, text blank padded to the length of the caller's string.", "quantifier": "all names, all stored values, all lengths of the receiving string", "why_tests_cant": "Only values outside one signed byte, or texts of particular lengths, go wrong.", "anchors": ["mmf_c/src/control_var.c:control_integer_,control_string_"]}
{"id": "C49", "title": "Selected output as a matrix of doubles agrees with the table", "statement": "The matrix of doubles built from a selected-output table has one row per completed row and one column per heading, stored by columns; each element is the number in that cell (whole numbers converted), or the inactive value if the cell is empty, text or an error.", "quantifier": "all histories of pushes and row ends, all rows and columns", "why_tests_cant": "Columns appear in any order at any row, so any mixture of missing, text and numeric cells can occur.", "anchors": ["IPhreeqcMMS/IPhreeqc/src/CSelectedOutput.cpp:Doublize"]}
{"id": "C50", "title": "Line-by-line results agree with the whole texts", "statement": "After any call, reading the output, log, error, warning and selected-output texts line by line gives exactly the lines of the corresponding whole text.", "quantifier": "all histories of calls, all engine behaviours (any messages, any output, errors that stop the run)", "why_tests_cant": "Texts and lines are kept separately; which calls and which ways of ending a run update both can only be settled over all histories.", "anchors": ["IPhreeqcMMS/IPhreeqc/src/IPhreeqc.cpp:do_run,update_errors,AccumulateLine,LoadDatabase,GetSelectedOutputValue,GetErrorStringLine,GetOutputStringLine"]}
{"id": "C51", "title": "Results of a run contain nothing of earlier runs", "statement": "The tables, texts, messages and the return code of a run depend only on the input, the chemical state and the user's settings, never on results or messages left by earlier calls; the table of each selected-output block holds exactly the values of this run.", "quantifier": "all instances, all inputs, all engine behaviours", "why_tests_cant": "A leftover shows only for particular earlier histories.", "anchors": ["IPhreeqcMMS/IPhreeqc/src/IPhreeqc.cpp:check_database,do_run,EndRow,fpunchf,RunString,RunFile,RunAccumulated"]}
{"id": "C52", "title": "Runs are refused unless a database was loaded successfully", "statement": "If no database is loaded, or the last load reported an error, every run returns 1 with exactly one error message, produces no tables and leaves the chemical state untouched.", "quantifier": "all instances and histories, all databases, all inputs", "why_tests_cant": "Loading can fail at any point of any database text.", "anchors": ["IPhreeqcMMS/IPhreeqc/src/IPhreeqc.cpp:check_database,load_db,load_db_str,LoadDatabase,LoadDatabaseString,test_db"]}
{"id": "C53", "title": "Intensive numbers of a mixture are water-weighted means", "statement": "Temperature, pH, pe, ionic strength, activity of water, density, viscosity and pressure of a mixture are the means of those of its parts, weighted with the mass of water each part contributes.", "quantifier": "all stored solutions, all lists of fractions", "why_tests_cant": "Any number of parts and any sign of the fractions; evaporation uses negative ones.", "anchors": ["IPhreeqcMMS/IPhreeqc/src/phreeqcpp/step.cpp:add_mix,add_solution", "IPhreeqcMMS/IPhreeqc/src/phreeqcpp/Solution.cxx:add"]}
{"id": "C54", "title": "Diverted volume equals irrigation applied", "statement": "The volume recorded as diverted from each channel segment in a time step equals the irrigation water put on the model response units supplied by that segment in that step.", "quantifier": "all numbers of units and segments, all schedules, sources and depths, all steps", "why_tests_cant": "Any number of units may share a segment and schedules are unbounded histories.", "anchors": ["webmod.d/src/irrig_web.F:irrrun"]}
{"id": "C55", "title": "Irrigation scheduled from a segment is what is removed from it", "statement": "The irrigation depths that the routing schedules for the next step on the units supplied by a channel segment amount to exactly the volume it removes from that segment, and never more than the water in it.", "quantifier": "all channel networks, schedules, sources, pump capacities and inflows", "why_tests_cant": "Any number of units may compete for the water of a segment.", "anchors": ["webmod.d/src/route_clark.F:routecrun"]}
{"id": "C56", "title": "Published water of each hillslope bin balances", "statement": "For every bin with an area, the water above the water table that is published for the chemistry changes in a step by exactly infiltration plus wetting from the saturated zone minus recharge, direct flow, evapotranspiration and the volume handed over to the saturated zone by the moving water table (up to 1e-7 m of storage set to zero), and it always equals the value computed from root-zone deficit, unsaturated storage and water-table depth.", "quantifier": "all bins, parameters, states and histories", "why_tests_cant": "The chemistry mixes solutions with these volumes; any branch that breaks the identity silently creates or loses solute.", "anchors": ["webmod.d/src/topmod_chem.F:topmrun", "webmod.d/src/topmod_chem.F:topminit"]}
{"id": "C57", "title": "The water balance printed for each unit closes", "statement": "At the end of any run the balance printed for a unit (initial storage plus inputs minus outputs minus final storage) is zero up to the water set to zero by rounding.", "quantifier": "all parameters and all histories of inputs", "why_tests_cant": "A conservation check over whole runs of arbitrary length and every source and sink.", "anchors": ["webmod.d/src/topmod_chem.F:topmrun (BAL, 2982-2998)"]}
{"id": "C58", "title": "Ground melt is the daily rate on the covered area", "statement": "While snow remains, the melt caused by heat from the ground during a day is the daily ground-melt parameter times the snow-covered fraction, a quarter of it in each quarter of the day.", "quantifier": "all packs, parameters and weather", "why_tests_cant": "The amount depends on the cover in every quarter of every day; with full cover, the usual test case, the error is invisible.", "anchors": ["webmod.d/src/nwsmelt_topg.F:nwsmrun"]}
{"id": "C59", "title": "Snow, rain and snow-covered area follow the weather", "statement": "Precipitation is counted as snow for exactly those quarters of the day whose temperature does not exceed the threshold and as rain for the others; together they are the whole precipitation. A pack covers between 5 % and 100 % of the unit, and a unit without ice has no cover.", "quantifier": "all days, packs, temperatures and parameters", "why_tests_cant": "All combinations of temperature and pack states.", "anchors": ["webmod.d/src/nwsmelt_topg.F:nwsmrun,AESNOW"]}
{"id": "C60", "title": "The solute balance of a hillslope reservoir closes", "statement": "For every solute that is not an isotope, if the water handed over for the last output and the reaction has the concentration of the complete mixture, the final moles of the reservoir equal its initial moles plus inputs minus outputs plus production, and the final moles of one step are the initial moles throughout the next.", "quantifier": "all tables, reservoirs, solutes, volumes, concentrations and sequences of updates", "why_tests_cant": "Must hold for all compositions and for histories of any length.", "anchors": ["webmod.d/src/phreeq_mms.F90:update_chem,phreeqmms_run"]}
{"id": "C61", "title": "Published mean temperature and pH are volume-weighted", "statement": "The temperature and pH published for the inputs, outputs and final content of a composite are the means of its parts weighted with their volumes.", "quantifier": "all updates and tables", "why_tests_cant": "All combinations of volumes and temperatures.", "anchors": ["webmod.d/src/phreeq_mms.F90:update_chem,phreeqmms_run"]}
{"id": "C62", "title": "Reading a parameter file sets exactly the listed parameters", "statement": "Reading a well-formed parameter file sets every listed declared parameter to the listed values (repeat counts n*v expanded, later entries overriding earlier ones), skips entries of undeclared parameters, changes no other parameter and reports no error. A parameter with too few or too many values is reported as such. For any text whatsoever reading ends, never stores a value outside the storage of a parameter, and leaves every parameter whose name does not occur in the text as it was. After an error the previously read file is read again.", "quantifier": "for all tables of declared parameters, all parameter files and arbitrary texts, all numbers of entries, values and repeat counts", "why_tests_cant": "The set of files is unbounded: any number of entries, any layout of values over lines, any repeat counts, any declared sizes, arbitrary malformed text.", "anchors": ["mmf_c/src/read_params.c: read_params, rp", "mmf_c/src/defs.h: MAXLNLEN, M_LONG, M_FLOAT, M_DOUBLE"]}
{"id": "C63", "title": "Reading the dimensions of a parameter file", "statement": "Reading the dimensions part of a well-formed parameter file sets every listed declared dimension to the listed size, index names and notes, ignores undeclared ones and changes no other dimension. For any text reading ends (except for a note on the last line), and a dimension whose name does not occur in the text is unchanged.", "quantifier": "for all tables of dimensions and all texts", "why_tests_cant": "Any number of dimensions, any sizes, any number of index names and comments, arbitrary malformed text.", "anchors": ["mmf_c/src/read_params.c: read_dims"]}
{"id": "C48", "title": "Well-formed data files arrive in the variables", "statement": "For a well-formed data file the header declares exactly the listed columns in order; every record inside the simulation window, the times being in chronological order, becomes one time step; at that step the numbers of the line are, in order and converted to the types of the columns, the values of the columns; reading a variable stores the values of its column in it and in no other variable, and reports failure and changes nothing if the variable is undeclared, not in the file or of another size.", "quantifier": "all well-formed files: any comments, any number of columns, records and spaces, any spelling of the numbers", "why_tests_cant": "The set of files is unbounded; offsets depend on all preceding columns.", "anchors": ["mmf_c/src/read_datainfo.c: read_datainfo", "mmf_c/src/read_line.c: read_line, DATA_read_init, EXTRACT_time, CHECK_data", "mmf_c/src/readvar.c: readvar"]}
{"id": "C64", "title": "Times on data lines are ordered as the calendar is", "statement": "A line beginning with year, month, day, hour, minute and second within their ranges is accepted with exactly that time (fractions of seconds cut off), one with a field below or above its range is refused; existing times compare, as times in days, exactly as the calendar and the clock order them; 24:00 is the midnight at the end of the day.", "quantifier": "all lines and all pairs of times", "why_tests_cant": "All pairs of times over three centuries.", "anchors": ["mmf_c/src/read_line.c: EXTRACT_time", "mmf_c/src/julday.c: julday"]}
{"id": "C65", "title": "Times that do not exist are refused", "statement": "A data line whose date or time of day does not exist is refused.", "quantifier": "all lines", "why_tests_cant": "All combinations of fields.", "anchors": ["mmf_c/src/read_line.c: EXTRACT_time"]}
{"id": "C66", "title": "Malformed data are noticed", "statement": "A missing, non-numeric, fractional (in a column of whole numbers) or out-of-range value and an error in the header of a data file are reported, and the run does not go on with other values.", "quantifier": "all lines and headers", "why_tests_cant": "Any malformed text in any column.", "anchors": ["mmf_c/src/read_line.c: read_line, CHECK_data", "mmf_c/src/read_datainfo.c: read_datainfo", "mmf_c/src/mmf.c: main"]}
{"id": "C67", "title": "Each data file is read with its own header", "statement": "With several data files the lines of each file are distributed to the columns its own header declares.", "quantifier": "all sets of data files", "why_tests_cant": "Any number of files and any headers.", "anchors": ["mmf_c/src/read_line.c: READ_data_info", "mmf_c/src/read_datainfo.c: read_datainfo"]}
{"id": "C68", "title": "A formula is read as its composition", "statement": "A chemical formula of element names, numbers, nested groups and at most one part behind a colon is read completely, and each element gets the number of atoms the formula says; reading ends for every text, and an accepted text has balanced parentheses and is used up to its charge.", "quantifier": "all formulas with any nesting, all texts", "why_tests_cant": "Formulas nest without bound and any text may be given.", "anchors": ["IPhreeqcMMS/IPhreeqc/src/phreeqcpp/parse.cpp: get_elts_in_species, get_elt, get_num"]}
{"id": "C69", "title": "Several colon parts, colon parts in groups, unfinished names", "statement": "Each part behind a colon counts with its own number; a part behind a colon may stand inside a group; an unfinished name is an error.", "quantifier": "all formulas", "why_tests_cant": "Any number of parts with any numbers.", "anchors": ["IPhreeqcMMS/IPhreeqc/src/phreeqcpp/parse.cpp: get_elts_in_species, get_elt"]}
{"id": "C70", "title": "Combining element lists keeps the totals", "statement": "Combining a list of elements and coefficients leaves each element of the list exactly once, with the sum of its coefficients.", "quantifier": "all lists, in any order and of any length", "why_tests_cant": "All lists and orders.", "anchors": ["IPhreeqcMMS/IPhreeqc/src/phreeqcpp/structures.cpp: elt_list_combine"]}
{"id": "C71", "title": "Charges are read as written and name species consistently", "statement": "The charge of a species is the row of signs or the signed number written behind its formula, and two ways of writing a whole charge name the same species if and only if they mean the same charge.", "quantifier": "all formulas and all charges", "why_tests_cant": "All pairs of spellings.", "anchors": ["IPhreeqcMMS/IPhreeqc/src/phreeqcpp/parse.cpp: get_charge, get_token"]}
{"id": "C72", "title": "Other spellings of a charge", "statement": "A fractional charge, a charge with leading zeros and a large charge have the value written, and equal charges name the same species.", "quantifier": "all charges", "why_tests_cant": "All spellings.", "anchors": ["IPhreeqcMMS/IPhreeqc/src/phreeqcpp/parse.cpp: get_charge"]}
{"id": "C73", "title": "Equations are accepted if and only if they balance", "statement": "The equation of a species or phase, in any layout of blanks, is accepted if and only if the coefficient of the species or phase defined is 1 and charge and every element agree on both sides within 1e-9; the composition stored is that of the formula of the species or phase defined.", "quantifier": "all equations with any number of well-formed species on either side; name of the defined species up to 150 characters, markers (s), (g), (S), (G) only behind the formula of a phase (other cases: C74)", "why_tests_cant": "Any number of species, coefficients and layouts.", "anchors": ["IPhreeqcMMS/IPhreeqc/src/phreeqcpp/parse.cpp: parse_eq, check_eqn, get_species, get_coef", "IPhreeqcMMS/IPhreeqc/src/phreeqcpp/read.cpp: read_species, read_phases"]}
{"id": "C74", "title": "No formula is changed by a marker, no name ends the process", "statement": "The composition stored for a species or phase is that of its formula whatever groups it contains, and a name that is too long is reported as an error.", "quantifier": "all equations", "why_tests_cant": "All formulas.", "anchors": ["IPhreeqcMMS/IPhreeqc/src/phreeqcpp/parse.cpp: parse_eq", "IPhreeqcMMS/IPhreeqc/src/phreeqcpp/read.cpp: read_phases"]}
{"id": "C75", "title": "Potential radiation follows the solar table on every day", "statement": "On every day of a simulation the potential radiation and the hours of sunshine of a unit are the linear interpolation between the solar table entries before and after that day of the solar year (which begins on 22 December), in leap years and ordinary years; they do not depend on the day the simulation started and never leave the range of the table.", "quantifier": "all tables, all start dates after 1582 except 21 December, all simulations of any length that miss no day, daily or shorter time steps (other cases: C76)", "why_tests_cant": "The position in the table is carried from day to day for the whole simulation; every start day and sequence of leap years.", "anchors": ["webmod.d/src/ccsolrad_web.F: csolinit, csolrun"]}
{"id": "C76", "title": "Potential radiation after any start and after missing days", "statement": "The interpolation also holds for simulations that start on 21 December and for data files in which days are missing.", "quantifier": "all start dates and sequences of dates", "why_tests_cant": "All start dates and gaps.", "anchors": ["webmod.d/src/ccsolrad_web.F: csolinit, csolrun"]}
{"id": "C77", "title": "Measured radiation is used, estimates are bounded", "statement": "A positive measurement of radiation up to 10000 is used unchanged. Otherwise cloud cover is between 0 and 1 and the estimate is between 0 and the maximal fraction of the potential radiation.", "quantifier": "all measurements, temperatures, precipitation and parameters with fractions between 0 and 1", "why_tests_cant": "All real inputs.", "anchors": ["webmod.d/src/ccsolrad_web.F: csolinit, csolrun"]}
{"id": "C78", "title": "Radiation of a unit depends on that unit only", "statement": "Radiation on the horizontal surface is transferred to a unit by the ratio of the potential radiation of the unit to that of a horizontal surface; it is defined for every unit and does not depend on the slope of other units.", "quantifier": "all units, slopes and days", "why_tests_cant": "All geometries.", "anchors": ["webmod.d/src/ccsolrad_web.F: csolinit, csolrun"]}
{"id": "C79", "title": "Unit temperatures use the lapse rates of the current month", "statement": "In every time step the maximum, minimum and mean temperature of a unit are those of its station corrected for elevation with the lapse rates of the month of that step and the adjustments of the unit.", "quantifier": "all parameters, all sequences of records of any length that contain the first day of every month", "why_tests_cant": "Rates are kept between steps; the result depends on the whole history of dates.", "anchors": ["webmod.d/src/temp_1sta_prms.F: t1init, t1run"]}
{"id": "C80", "title": "Unit temperatures with missing records", "statement": "The temperatures of a unit are right for data files in which any records are missing.", "quantifier": "all sequences of records", "why_tests_cant": "All gaps.", "anchors": ["webmod.d/src/temp_1sta_prms.F: t1init, t1run"]}
{"id": "C81", "title": "Reaction temperatures are moving averages", "statement": "Once the averaging period is covered, a reaction temperature is the mean of the temperatures of the last `trxn_*_days` steps, the oldest one counted with the fraction of its step, plus the adjustment; it stays in the range of the temperatures averaged.", "quantifier": "all positive averaging periods, fractional or not, all sequences of temperatures of any length", "why_tests_cant": "Rotating buffer over an unbounded history.", "anchors": ["webmod.d/src/temp_1sta_prms.F: t1init, t1run"]}
{"id": "C82", "title": "Reaction temperatures from the start and for any time step", "statement": "A reaction temperature is the mean of the temperatures of the last `trxn_*_days` days available, from the first time step on and for every length of the time step.", "quantifier": "all periods, time steps and histories", "why_tests_cant": "All histories.", "anchors": ["webmod.d/src/temp_1sta_prms.F: t1init, t1run"]}
{"id": "C83", "title": "Transpiration season", "statement": "Transpiration of a unit is on if and only if the sum of the positive maximum temperatures since the first day of month `transp_beg` exceeds `transp_tmax_c`, or the simulation started within the season, and the first day of month `transp_end` has not come since.", "quantifier": "all months, all start dates, all sequences of time steps of any length; index reached every year and not by one day alone (other cases: C84)", "why_tests_cant": "Switch with memory over any number of years.", "anchors": ["webmod.d/src/potet_hamon_prms.F: petinit, petrun"]}
{"id": "C84", "title": "Transpiration season in every climate", "statement": "The season is the documented one for every weather: it does not begin after its end, lasts through month `transp_end`, and begins on the day the index is exceeded.", "quantifier": "all sequences of days", "why_tests_cant": "All weather histories.", "anchors": ["webmod.d/src/potet_hamon_prms.F: petinit, petrun"]}
{"id": "C85", "title": "Potential evapotranspiration of the steps of a day", "statement": "However a day is divided into time steps, their potential evapotranspiration adds up to the daily value, which is the pan evaporation if measured and otherwise the Hamon value; it is never negative.", "quantifier": "all divisions of a day into any number of steps, all weather", "why_tests_cant": "Unbounded number of steps.", "anchors": ["webmod.d/src/potet_hamon_prms.F: petinit, petrun"]}
{"id": "C86", "title": "Potential evapotranspiration follows the temperature of each step", "statement": "The potential evapotranspiration of a step or day reflects the temperatures of all its steps and the length of the step.", "quantifier": "all time steps", "why_tests_cant": "All sequences.", "anchors": ["webmod.d/src/potet_hamon_prms.F: petinit, petrun"]}
{"id": "C87", "title": "Areas and basin averages", "statement": "The areas of the units are accepted if and only if their sum is within one percent of the basin area; then every basin average is within one percent of the mean weighted by area, and exact if the areas add up; pervious and impervious area add up to the area of a unit.", "quantifier": "all numbers of units, areas and values", "why_tests_cant": "Any number of units.", "anchors": ["webmod.d/src/basin_topg.F: basinit", "webmod.d/src/temp_1sta_prms.F: t1run", "webmod.d/src/potet_hamon_prms.F: petrun"]}
{"id": "C88", "title": "Temperature units of the data file", "statement": "The same weather written in degrees Celsius or Fahrenheit gives the same station temperatures with daily time steps; with shorter steps the temperature of the step in degrees Celsius is the one in the data file.", "quantifier": "all temperatures", "why_tests_cant": "All inputs.", "anchors": ["webmod.d/src/obs_webmod.F: obsrun"]}
{"id": "C89", "title": "Fahrenheit data with short time steps", "statement": "With time steps shorter than a day and data in degrees Fahrenheit the temperature of each step is the one in the data file.", "quantifier": "all temperatures", "why_tests_cant": "All inputs.", "anchors": ["webmod.d/src/obs_webmod.F: obsrun"]}
{"id": "C90", "title": "Statistic variable file", "statement": "If statistic variables are requested, the file has the number of variables, one line with name and element for each, and then exactly one line for each time step with step number, date, time and the value of each requested element at the end of that step, in the order of the request. If a requested variable is not declared or an index is out of range, the run is refused before any output is written.", "quantifier": "all lists of requested numeric variables with names below 50 characters, any dimensions and elements, all runs of any length (text variables, longer names and incomplete requests: C91)", "why_tests_cant": "position of a value in the file depends on all variables requested before it and on all earlier steps", "anchors": ["mmf_c/src/batch_run_functions.c: single_run_pre_init, single_run_post_run", "mmf_c/src/create_vstats.c: create_vstats", "mmf_c/src/write_vstats.c: write_vstats", "mmf_c/src/check_vars.c: CHECK_stat_vars"]}
{"id": "C91", "title": "Statistic requests that cannot be fulfilled are refused", "statement": "A request for a text variable, with fewer names or elements than announced, or with a long name is refused with a message.", "quantifier": "all requests", "why_tests_cant": "tests use complete requests of numeric variables", "anchors": ["mmf_c/src/check_vars.c: CHECK_stat_vars", "mmf_c/src/write_vstats.c: write_vstats", "mmf_c/src/create_vstats.c: create_vstats"]}
{"id": "C92", "title": "Animation files", "statement": "There is one animation file for each first dimension of a requested variable. It names the requested variables of this dimension in the order of the request and has, for each step and each element of the dimension, one line with time, number of the element and the values of these variables, with as many columns as the line of names. A request with an unknown variable is refused before any file is opened.", "quantifier": "all requests of real and double variables with at least one dimension, all runs of any length", "why_tests_cant": "interleaving of writes to several files, for every list of variables and dimensions", "anchors": ["mmf_c/src/batch_run_functions.c: single_run_pre_init, single_run_post_run", "mmf_c/src/check_vars.c: CHECK_ani_vars"]}
{"id": "C93", "title": "Integers and arrays in animation files", "statement": "Integer variables are written to the file of their dimension, and all elements of variables with several dimensions are written.", "quantifier": "all requests", "why_tests_cant": "depends on the order and the dimensions of all requested variables", "anchors": ["mmf_c/src/batch_run_functions.c: single_run_post_run"]}
{"id": "C94", "title": "The order of a run", "statement": "In a run, output files are opened, modules initialized, the saved state restored if requested; each step whose modules succeed adds one line to the output files and the first failing step ends the run; at the end modules are cleaned up and files closed. The state is saved exactly if everything succeeded, there was at least one step and saving is requested.", "quantifier": "all combinations of failing parts and all numbers of steps", "why_tests_cant": "every failure point at every step", "anchors": ["mmf_c/src/batch_run.c: BATCH_run", "mmf_c/src/batch_run_functions.c: single_run_post_init, single_run_post_run, single_run_post_cleanup"]}
{"id": "C95", "title": "The command line means what it says", "statement": "The last control file named (alone, after -C or attached to -C) is used, `control` if none is named; all -set options are applied in the order given; exactly the flags given are on, whatever their order; the model name is the last component of the program name.", "quantifier": "all lists of options with at most 100 settings, in any order", "why_tests_cant": "all orders and combinations of options", "anchors": ["mmf_c/src/parse_args.c: parse_args", "mmf_c/src/mmf.c: main"]}
{"id": "C96", "title": "Debugging option, incomplete and many settings", "statement": "`-debug n` sets the debugging level and nothing else; an option without its arguments is reported; any number of settings is accepted.", "quantifier": "all lists of options", "why_tests_cant": "all orders and combinations of options", "anchors": ["mmf_c/src/parse_args.c: parse_args", "mmf_c/src/mmf.c: main"]}
{"id": "C97", "title": "Header of the chemistry file", "statement": "If the line of species and units in the chemistry file names known species with known units, in any order and after any preceding lines, every solute of the model gets the column with its name and the unit of that column (the last one if it is named twice, none if it is not named). The run is refused exactly if a species or unit is not known or equivalents are asked for a species without charge; it is refused if the line does not begin with temperature and pH.", "quantifier": "all tables of species, lists of solutes, files and header lines of words of at most 12 characters with single blanks (others: C98)", "why_tests_cant": "every order and number of columns", "anchors": ["webmod.d/src/obs_chem.F: obsc_init, obsc_run", "webmod.d/src/obs_chem.F: species_id, unit_id"]}
{"id": "C98", "title": "Unusual headers", "statement": "A header with a missing unit, with more than one blank between words, with long species names, for a model with an unknown solute, or for external sources with constant precipitation is read as meant or refused with a message.", "quantifier": "all headers", "why_tests_cant": "depends on stack contents and on memory outside arrays", "anchors": ["webmod.d/src/obs_chem.F: obsc_init, obsc_run", "webmod.d/src/obs_chem.F: species_id"]}
{"id": "C99", "title": "Concentrations in the chemistry file", "statement": "In each step precipitation, every external source and every sample get temperature, pH and concentrations of their own columns of the record of that step; a concentration written in mg/L, meq/L, mmol/L, mol/L or a unit of the user becomes the same number of moles per litre; isotope ratios and negative numbers are passed on unchanged; a solute without column gets 0.", "quantifier": "all records, numbers of sources, samples and columns, units and values", "why_tests_cant": "every position in the record and every unit", "anchors": ["webmod.d/src/obs_chem.F: obsc_init, obsc_run"]}
{"id": "C100", "title": "Chemistry and weather stay together", "statement": "With a file of complete records a run succeeds exactly if, after any records of other times, the records have the times of the steps one after the other; then each step gets the waters of its own record.", "quantifier": "all files of complete records, all lists of steps of any length", "why_tests_cant": "all histories of steps against all files", "anchors": ["webmod.d/src/obs_chem.F: obsc_init, obsc_run"]}
{"id": "C101", "title": "Incomplete or wrong lines in the chemistry file", "statement": "A line with a value that is not a number or with too few numbers is reported; external sources that are not in the file are not given chemistry from other rows.", "quantifier": "all lines", "why_tests_cant": "depends on all later lines and on values of earlier steps", "anchors": ["webmod.d/src/obs_chem.F: obsc_init, obsc_run"]}
{"id": "C102", "title": "Use of the rows of the chemistry file", "statement": "Rows of precipitation and external sources become solutions for the chemistry and rows of samples are recorded, each with its own number.", "quantifier": "all numbers of sources and samples", "why_tests_cant": "all counts", "anchors": ["webmod.d/src/phreeq_mms.F90: phreeqmms_run (6677-6732)"]}
{"id": "C103", "title": "Every reservoir keeps its books", "statement": "In every time step the row of volumes published for a reservoir (canopy, snow, litter, each bin of the unsaturated zone and their composites, quick flow, saturated zone, preferential flow, hillslope, unit) starts with the final volume of the step before, its input is the sum of the columns of its sources, and its final volume is initial volume plus input less output and evapotranspiration.  Over a run the volumes telescope.", "quantifier": "all parameters, states, fluxes, and runs of any number of steps", "why_tests_cant": "rows of every reservoir in every step of every run", "anchors": ["webmod.d/src/webmod_res.F: webrinit, webrrun"]}
{"id": "C104", "title": "What leaves one reservoir enters another", "statement": "Column by column, the water leaving a reservoir of a unit is the water entering others: precipitation, irrigation, throughfall, melt, recharge, preferential flow.  Hence the water of a unit is the sum of its stores in every step.  The fluxes handed over by interception, snow and soil modules agree with each other.", "quantifier": "all parameters, states, and fluxes; all runs", "why_tests_cant": "depends on the fluxes of three modules and all branches of the transfer between thirteen reservoirs", "anchors": ["webmod.d/src/webmod_res.F: webrrun", "webmod.d/src/intcp_prms.F: intrun", "webmod.d/src/nwsmelt_topg.F: nwsmrun", "webmod.d/src/topmod_chem.F: topmrun"]}
{"id": "C105", "title": "Volumes agree with the modules that simulate them", "statement": "The volumes of canopy, snow, unsaturated and saturated zone are those of interception, snow and soil modules, at the start and after any number of steps.", "quantifier": "all parameters, states, weather, number of steps", "why_tests_cant": "two independent accountings of the same water, over whole runs", "anchors": ["webmod.d/src/webmod_res.F: webrinit, webrrun", "webmod.d/src/topmod_chem.F: topmrun"]}
{"id": "C106", "title": "The water of the basin", "statement": "The water of the basin is that of its units and streams.  What leaves the hillslopes is spread over the stream segments, and the streams change by that, by losses, diversions, and the discharge.  At the start the streams hold the water of the routing module.", "quantifier": "all basins, units, runs of any number of steps", "why_tests_cant": "sums over all units and segments over whole runs", "anchors": ["webmod.d/src/webmod_res.F: webrinit (1619-1633), webrrun (3427-3465)"]}
{"id": "C107", "title": "Reported depths for the basin add up", "statement": "The depths in cm reported for the basin belong to the published volumes: storage changes by input less output and evapotranspiration; input, output, evapotranspiration, water at the ground, flow to the streams are the sums of their parts.", "quantifier": "all basins, units, states, and fluxes", "why_tests_cant": "sums over all units of quantities computed in different ways", "anchors": ["webmod.d/src/webmod_res.F: webrrun (3370-3514)"]}
{"id": "C108", "title": "Output files for volumes, solutes and entities", "statement": "Every file opened for volumes, solutes and entities has its own unit number in the table and its own name.", "quantifier": "all dimensions and print options", "why_tests_cant": "all dimensions", "anchors": ["webmod.d/src/webmod_res.F: webrinit (1649-2033)", "webmod.d/src/io.F: ioinit", "webmod.d/src/phreeq_mms.F90: phreeqmms_init (5452-6180)"]}
{"id": "C109", "title": "Sums, means and extremes of the tables", "statement": "The row printed at the end of a day, month, year or run shows sums, means and extremes over exactly the steps since the end of the period before, and the storages at its end, each under its label; volume-weighted chemistry rows are the masses and weighted means over the same steps.", "quantifier": "all runs, any lengths of steps and periods, all values", "why_tests_cant": "histories of any length in which five accumulators restart at different steps", "anchors": ["webmod.d/src/web_sum.F: sumbrun (1384-1711), 1758-1850"]}
{"id": "C110", "title": "Water balance of the tables", "statement": "The error of the water balance printed for a step or period is the water that the printed terms leave unexplained; the change of storage printed is the difference of the storages printed.", "quantifier": "all basins, units, runs and inputs", "why_tests_cant": "composition of the volumes of all reservoirs, streams and the summary over a run of any length", "anchors": ["webmod.d/src/web_sum.F: sumbrun (1573-1579)", "webmod.d/src/webmod_res.F: webrrun (3370-3514)"]}
{"id": "C111", "title": "Rows of the tables", "statement": "With print frequency bits for steps, days, months, years and run, exactly the rows asked for are written to the hydrology and chemistry tables, each once, at the end of its period.", "quantifier": "all print options, lengths of steps and runs", "why_tests_cant": "combinations of print options, lengths of steps and ends of periods over runs of any length", "anchors": ["webmod.d/src/web_sum.F: sumbinit (920-975), sumbrun (1713-3300)"]}
{"id": "C112", "title": "Columns of the tables", "statement": "Every number of every row stands in the columns of its label, and every item is written with an edit descriptor of its type.", "quantifier": "all rows, print types, numbers of solutes and values", "why_tests_cant": "any number of solutes and all kinds of rows", "anchors": ["webmod.d/src/web_sum.F: formats of sumbinit and sumbrun"]}
{"id": "C113", "title": "Solutes move with the water of a unit", "statement": "In a time step each reservoir of a hillslope unit (canopy, snowpack, O-horizon, bins of the unsaturated zone, preferential flow, saturated zone, deep path) ends with the solute it had and received with every inflow of water, at the concentration of the source, less what left with its outflows; evaporation takes none; each reservoir reacts once; solutions of other units do not change.", "quantifier": "all units, numbers of bins, volumes, initial solutions and reactions that keep the water", "why_tests_cant": "the mixing sequence has dozens of cases by which flows are zero, and any number of bins and concentrations", "anchors": ["webmod.d/src/phreeq_mms.F90: phreeqmms_run (6389-9060)"]}
{"id": "C114", "title": "Solutes are conserved in a unit", "statement": "If nothing reacts, the solute a unit holds after a step, with what left it to the stream, by the well and to deep groundwater, equals what it held before, with what came by precipitation, irrigation and groundwater inflow.", "quantifier": "all units, numbers of bins, volumes and solutions", "why_tests_cant": "a sum over all reservoirs for every combination of flows and concentrations", "anchors": ["webmod.d/src/phreeq_mms.F90: phreeqmms_run (6389-9060)"]}
{"id": "C115", "title": "Solutes move with the water in the streams", "statement": "In each step, what leaves a stream segment is what was in it and what came from the hillslopes, reacted once, in the volumes that the water routing uses; solutes that do not react are conserved in the streams with discharge, diversions and losses.", "quantifier": "all networks, numbers of segments and units, volumes and solutions", "why_tests_cant": "any number of segments and units and all concentrations", "anchors": ["webmod.d/src/phreeq_mms.F90: phreeqmms_run (9060-9230)", "webmod.d/src/webmod_res.F: webrrun (3427-3465)"]}
{"id": "C116", "title": "Solutes are conserved in the basin", "statement": "Over every step and every run, the solute in all reservoirs and streams of the basin changes by what enters with precipitation, irrigation and groundwater, less what leaves by discharge, wells and deep losses, if nothing reacts.", "quantifier": "all basins, runs of any length, fluxes and initial solutions", "why_tests_cant": "a sum over units, bins and segments and over runs of any length", "anchors": ["webmod.d/src/phreeq_mms.F90: phreeqmms_run (6389-9243)", "webmod.d/src/webmod_res.F: webrrun (2334-3465)"]}
{"id": "C117", "title": "What the tables record of the transport is what happened", "statement": "In each step, for every reservoir of a unit, the tables record its initial and final volume and its evaporation, the amounts of solute that entered and left it as they were mixed, and one reaction from the mixed to the final solution; a reservoir with no record of a reaction holds no water. Without reactions the recorded amounts of every reservoir balance.", "quantifier": "all units, numbers of bins, fluxes, volumes, initial solutions and reactions", "why_tests_cant": "two dozen sections record amounts of one another's water under conditions on every flux; agreement must hold for all fluxes, bins and reactions", "anchors": ["webmod.d/src/phreeq_mms.F90: phreeqmms_run (6732-9028), calls of update_chem"]}
{"id": "C118", "title": "The chemistry tables show what happened", "statement": "In each time step the calls that record the transport are entered in the tables without error. For every reservoir of every unit, the row in the tables shows the final volume and evaporation, the amount that entered, the amounts that left, what the reactions changed, and as final amount that of the water that remains; the initial amount of a step is the final amount of the step before. So the rows balance in every step of a run: final amount and outputs are initial amount, inputs and reactions.", "quantifier": "all runs: numbers of steps, units, bins and segments, fluxes, volumes, solutions, reactions, values of what else the calls take (other solutes, temperatures, entities)", "why_tests_cant": "rows are found through composed solution numbers and shared by dozens of calls of a step, for units and segments in turn; that no call of one unit or segment reaches a row of another, and that amounts carry over between steps, must hold for all sizes, fluxes and lengths of runs", "anchors": ["webmod.d/src/phreeq_mms.F90: phreeqmms_run (6389-9243), update_chem (10608-10968), isoln"]}
{"id": "C119", "title": "The composite of a unit shows what entered it, left it and remains", "statement": "In each time step the composite of a unit shows as inputs the solute of rain, irrigation and groundwater from outside; as outputs that of water to the stream, taken from wells and lost to deep groundwater; as final amount what its reservoirs hold at the end; final amounts and reactions are the sums of those of its reservoirs. The initial amount of a step is what its reservoirs hold at its start. Without reactions the composite balances in every step of a run: final amount and outputs are initial amount and inputs.", "quantifier": "all runs: numbers of steps, units, bins and segments, fluxes, volumes, solutions, reactions, values of what else the calls take", "why_tests_cant": "whether a flow crosses the boundary of a unit is a flag given by each of two dozen calls, and two flows are added without a call; that every transfer inside the unit is left out and every crossing counted once must hold for all fluxes, reactions and runs", "anchors": ["webmod.d/src/phreeq_mms.F90: phreeqmms_run (6736-9028, 7101-7124, 8784-8792), update_chem (10693-10949), c_chem_mru"]}
{"id": "C120", "title": "The composite of the basin shows what entered it, left it and remains", "statement": "In each time step the composite of the basin shows as inputs those of its units; as outputs what is taken from wells, lost to deep groundwater, diverted, taken and lost from streams, and what leaves at the outlet; as reactions those of its units and of its streams; as final amount what its units and streams hold at the end. The initial amount of a step is what its units and streams hold at its start. Without reactions, diversions and channel losses the composite balances in every step of a run.", "quantifier": "all runs: numbers of steps, units, bins and segments, fluxes, volumes, solutions, reactions, values of what else the calls take", "why_tests_cant": "whether a flow crosses the boundary of the basin is a flag of each call, independent of that for the unit, and the water that moves down a stream is entered with its reaction, with an exception for the outlet; that what units give to streams is counted neither as output nor as input, and all else once, must hold for all networks, fluxes, reactions and runs", "anchors": ["webmod.d/src/phreeq_mms.F90: phreeqmms_run (6736-9250, 6961-7003, 9073-9230), update_chem (10693-10949), c_chem_basin"]}
{"id": "C121", "title": "BASIC expressions have the value that precedence and association give them", "statement": "In rate laws and USER_PUNCH programs an expression written with the usual precedence (NOT and sign, ^, * / MOD, + -, comparisons, AND, OR XOR), operators of equal precedence taken from the left (^ from the right), and parentheses where needed has the value of its tree, and what follows the expression on the line is left; an expression whose tree has no value (a string where a number is needed) is an error. Reading an expression ends for every sequence of tokens and takes at least one token.", "quantifier": "all expressions of any size and depth over numbers, strings, variables, operators and functions without chemistry; all values of the variables; all continuations of the line; for termination all sequences of tokens", "why_tests_cant": "the reader is a set of mutually recursive functions, one per precedence level; that every combination of levels nests right, for every depth, cannot be shown by sampling expressions", "anchors": ["IPhreeqcMMS/IPhreeqc/src/phreeqcpp/PBasic.cpp: expr, andexpr, relexpr, sexpr, term, upexpr, factor (2055-2175, 4850-5312)"]}
{"id": "C122", "title": "A BASIC program is the last definition of every line, in order", "statement": "However the numbered lines of a BASIC program are given, the program that is run consists of the last non-empty definition of every line number, in increasing order of the numbers; an empty definition deletes the line. A jump to a line number comes to that definition and goes on with the lines of greater numbers; a jump to a number not defined is an error.", "quantifier": "all sequences of lines, numbers and contents", "why_tests_cant": "the list of lines is edited in place for each line given; that order, replacement and deletion leave the right program holds for every history of edits, not for those of a test", "anchors": ["IPhreeqcMMS/IPhreeqc/src/phreeqcpp/PBasic.cpp: parseinput (1708-1765), findline (5328-5336)"]}
{"id": "C123", "title": "A structured BASIC program does what its text says", "statement": "A program built from assignments, IF/THEN/ELSE, FOR/NEXT with any step, WHILE/WEND, GOSUB/RETURN (also recursive), SAVE, PUNCH and REM, on one or several lines, nested to any depth, does when run what the structure says: it halts with the values of the variables, the value saved and the values punched that the structured program has; it stops with an error if the structured program meets one; it runs on if the structured program has no end.", "quantifier": "all structured programs, layouts on lines, numbers of loop turns, depths of nesting and of calls, and values", "why_tests_cant": "the interpreter knows no structure: it keeps a place in the tokens and a list of loop records, and finds ends of loops and branches by scanning and counting; that this agrees with the structure for every nesting is an induction over programs and executions", "anchors": ["IPhreeqcMMS/IPhreeqc/src/phreeqcpp/PBasic.cpp: exec (6790-7060), cmdlet, cmdgoto, cmdif, skiploop, cmdfor, cmdnext, cmdwhile, cmdwend, cmdgosub, cmdreturn (6101-6510), cmdsave, cmdpunch, cmdrun"]}
{"id": "C124", "title": "Dates of time-series processing are those of the Gregorian calendar", "statement": "In the time-series processor, consecutive days have consecutive day numbers (2000-01-01 is 2451545), a date is found again from its number with any origin, every number from 1 January -4712 on is the number of a date, adding n days to a date gives the n-th following day (or the n-th preceding for negative n), the number of days between two dates is what added to the first gives the second, years and months have their calendar lengths, the day of the year counts from 1 on 1 January, and the water year runs from 1 October with a day number that depends only on month and day.", "quantifier": "all dates of the Gregorian calendar from the year -4712 on, all numbers of days, all origins", "why_tests_cant": "the conversions are closed formulas with truncating divisions in which one wrong constant is wrong only for some dates; that the formulas agree with the calendar on every date is a statement about infinitely many", "anchors": ["tsproc-trunk/tsproc-master/src/tsp_utilities.F90: julian_day, gregorian_date, newdate, numdays, day_of_year, leap, num_days_in_year, num_days_in_month, water_year_and_day"]}
{"id": "C125", "title": "Sorting in time-series processing sorts", "statement": "Sorting a list of values ends, never reads outside the list, and gives the same values in increasing order; the accompanying array tells for every value its place in the list given, each place once. The result does not depend on the order in which the values are given.", "quantifier": "all lists of values of any length, with repeated values", "why_tests_cant": "the partition scans without checking bounds and recursion has no explicit bound; that every scan meets its sentinel and every part is smaller is an invariant over all lists", "anchors": ["tsproc-trunk/tsproc-master/src/tsp_utilities.F90: quick_sort, quick_sort_1, interchange_sort"]}
{"id": "C126", "title": "Median, quantiles and flow-duration tables", "statement": "The median is the middle value or the mean of the two middle values; the quantile k/(n+1) is the value of rank k, quantiles increase with the probability, the quantile of one half is the median, and every quantile lies between the least and the greatest value. A flow-duration table lists the probabilities asked for with flows that are exceeded by that share of the flows of the period asked for.", "quantifier": "all data of any length, all probabilities, all periods", "why_tests_cant": "interpolation between ranks has cases by the fraction, and the statement counts values for every set of data and every probability", "anchors": ["tsproc-trunk/tsproc-master/src/tsp_utilities.F90: median, quantile_vector, quantile_scalar", "tsproc-trunk/tsproc-master/src/tsp_time_series_processors.F90: flow_duration"]}
{"id": "C127", "title": "Statistics of a period are those of the terms of the period", "statement": "Given a first and a last time, the terms of a series from the first to the last time (both included) and no others are taken; their number, sum, mean, least, greatest, range, standard deviation, median, and the greatest and least mean of k successive terms are those of these terms after the transformation asked for. A reduced series consists of exactly these terms; it is an error if there are none.", "quantifier": "all time series, periods, transformations and window lengths", "why_tests_cant": "the beginning and end are found by one loop over times compared by days and seconds; which terms are taken must be right for every position of the period relative to the series", "anchors": ["tsproc-trunk/tsproc-master/src/tsp_command_processors.F90: numterms, beg_end_check", "tsproc-trunk/tsproc-master/src/tsp_time_series_processors.F90: reduce_span, statistics"]}
{"id": "C128", "title": "Volumes are areas under the hydrograph", "statement": "The volume of a period is the area under the line that joins the flows of a series, times the factor of the units, for periods given by the user and for the months and years that the program finds itself; volumes of adjoining periods add up to that of the whole, and a volume lies between those of the least and the greatest flow.", "quantifier": "all time series with increasing times, all periods, units and factors", "why_tests_cant": "periods begin and end anywhere relative to the samples, within one interval or many; the integral and its additivity are statements about all of them", "anchors": ["tsproc-trunk/tsproc-master/src/tsp_command_processors.F90: volume_interp_s", "tsproc-trunk/tsproc-master/src/tsp_utilities.F90: make_date_list", "tsproc-trunk/tsproc-master/src/tsp_time_series_processors.F90: volume"]}
{"id": "C129", "title": "Interpolation to the times of another series", "statement": "A series interpolated to the times of another one has exactly these times, and at each of them the value of the line that joins the terms (the value of the term itself at its time, no value where a neighbouring term has none); it is refused exactly if the other series reaches beyond it. The search that starts where the last one ended finds the same values as one from the beginning.", "quantifier": "all pairs of time series", "why_tests_cant": "the index kept between calls must be right for every spacing of the two series", "anchors": ["tsproc-trunk/tsproc-master/src/tsp_command_processors.F90: time_interp_s", "tsproc-trunk/tsproc-master/src/tsp_time_series_processors.F90: time_base"]}
{"id": "C130", "title": "Durations over and under a threshold", "statement": "The duration for which a flow is exceeded (or not exceeded) is the total length of the periods in which the line that joins the flows is at or over (under) the threshold, each less the delay and not below zero, in the unit of time asked for. Without delay it decreases with the threshold, and the times over and under are together the whole time, unless the flow stays at the threshold.", "quantifier": "all time series, thresholds, delays that are not negative, and units", "why_tests_cant": "the periods are cut out of a line with any number of crossings; the claim is about a continuum of times", "anchors": ["tsproc-trunk/tsproc-master/src/tsp_time_series_processors.F90: time_duration"]}
{"id": "C131", "title": "Baseflow separation takes the least flows of the stated days", "statement": "Separating the baseflow of a daily series by sliding intervals gives each day the least flow of the days at most half an interval away, by fixed intervals the least flow of its interval, and by local minima all flow at the days that are the least of the days half an interval around, the line of logarithms between following ones, and the flow of the first or last one before and after them; baseflow is never above flow and never negative if no flow is missing.", "quantifier": "all daily series of any length, with and without missing flows, and all intervals", "why_tests_cant": "the first and last days of a record, missing flows and records shorter than an interval are separate branches with their own index arithmetic, so agreement on a few records says nothing on where a window is cut off", "anchors": ["tsproc-trunk/tsproc-master/src/wsc_additions.F90: hyd_series_baseflow, FIXED, SLIDE, LOCMIN"]}
{"id": "C132", "title": "Series equations have the value of arithmetic", "statement": "The value that an equation between time series gets for a time is that of arithmetic: powers before products and quotients, these before sums and differences, each from left to right, brackets, functions and signs as written; an equation is refused if and only if a division, power or function in it is not defined.", "quantifier": "all equations of any length and depth of nesting, and all values of the series", "why_tests_cant": "equations are evaluated by searching a list of terms again and again for something that can be calculated, with repeated insertions for signs; that no order of searching mixes operands of different operators or levels concerns every nesting", "anchors": ["tsproc-trunk/tsproc-master/src/tsp_equation_parser.F90: PARSE, EXPNEG, COMPRESS, EVALUATE, FUNCEVAL"]}
{"id": "C133", "title": "Transformed series have the stated terms", "statement": "A moving minimum gives every term with enough neighbours the least value of its window and leaves the others; in discrete mode the terms taken are those below all others of their window; a difference series has the differences of following terms, which add up to the series; subtracting a base level takes the value of the base series at the given time from every term; cleaning replaces or deletes exactly the values within the boundaries; displacing moves values by whole terms of a series with equal intervals and fills the rest. Times stay in order and are those of the series.", "quantifier": "all series of any length, all windows, boundaries, lags, base times and fill values", "why_tests_cant": "each block has its own index arithmetic at both ends of the series and separate branches for in place and new series; agreement of all terms of all series, and refusal of exactly the impossible requests, is not visible from a few series", "anchors": ["tsproc-trunk/tsproc-master/src/tsp_time_series_processors.F90: moving_window, series_difference, series_base_level, series_clean, displace"]}
{"id": "C135", "title": "Comparison statistics are those of the terms in the period", "statement": "Comparing two series over a period uses exactly the terms of the period and is refused unless both series have the same times there; bias, standard error, Nash-Sutcliffe coefficient, coefficient of efficiency, index of agreement and volumetric efficiency are the stated sums; the efficiencies are at most 1 and 1 for equal series only, the index of agreement is between 0 and 1, and a statistic is refused only if the observed values do not differ from what they are compared with.", "quantifier": "all pairs of series of any length, all periods, base series and both exponents", "why_tests_cant": "that no series gets more than 1, or 1 without being equal, concerns all values; the terms taken depend on how the period cuts two series with different times", "anchors": ["tsproc-trunk/tsproc-master/src/tsp_time_series_processors.F90: compare_series"]}
{"id": "C134", "title": "Periods and uniform series have the stated times", "statement": "Two dates with times make a period exactly if the first is before the second, and it reaches from the one to the other. A new uniform series has a term at the start and every given number of seconds, minutes, hours, days, months or years later - the same day of later months and years - as long as that is not after the end, all with the given value, and never writes outside its temporary memory. A table of volumes becomes a series at the starts, ends or middles of its periods with the volumes, or their running total.", "quantifier": "all dates of the calendar, all times of day up to 24:00, all units and numbers of units, all tables of volumes", "why_tests_cant": "the memory is allocated from an estimate (28 days to a month, 365 to a year) and the loop runs until a date is after the end; that the estimate is enough and no month, leap year or turn of the year shifts a term concerns every pair of dates", "anchors": ["tsproc-trunk/tsproc-master/src/tsp_command_processors.F90: date_check", "tsproc-trunk/tsproc-master/src/tsp_time_series_processors.F90: new_series_uniform, vol_to_series"]}
{"id": "C136", "title": "A name stands for one series or table", "statement": "After any sequence of blocks that make and erase series and tables, a name stands for at most one of them, in any case of its letters; what a block makes is found under its name and everything else as before; a new name is refused exactly if it is too long, has a blank, is in use or there is no place left; erasing removes exactly what is named, and the name can be used again.", "quantifier": "all sequences of blocks of any length, all names and all contents", "why_tests_cant": "elements of fixed arrays are reused after erasing and names are searched in six arrays by separate loops; that no history leaves two active elements with one name concerns all histories", "anchors": ["tsproc-trunk/tsproc-master/src/tsp_command_processors.F90: get_new_series_name, get_new_table_name, get_series_name, get_table_name", "tsproc-trunk/tsproc-master/src/tsp_time_series_processors.F90: erase_entity", "tsproc-trunk/tsproc-master/src/tsp_utilities.F90: str_compare, casetrans, uppercase_fn"]}
{"id": "C137", "title": "Digital filters do what their equations say", "statement": "A DIGITAL_FILTER block is accepted exactly if its keywords fit the filter asked for, the series has at least twenty terms at equal distances and the frequency is below half of the sampling frequency. Butterworth filters satisfy the difference equations of the bilinear transform in every term, are linear and look only back; a constant stays in a low pass and vanishes in others; outputs settle at a geometric rate after the input has become constant. The filter for baseflow is that of Lyne and Hollick in one or three passes, clipped as asked for.", "quantifier": "all blocks, all series of any length, all frequencies, numbers of stages and coefficients", "why_tests_cant": "stability, linearity and the first five terms, which are computed by separate loops, concern all series and all frequencies; tests compare a few series", "anchors": ["tsproc-trunk/tsproc-master/src/tsp_time_series_processors.F90: bfilter, lpdes, hpdes, bpdes"]}
{"id": "C138", "title": "Statistics of years, months and days", "statement": "A PERIOD_STATISTICS block gives for each year (calendar year, water year ending in September or in March), month, month of all years or day with terms in the period asked for exactly one term, in order of time, dated with the start, centre or end of that year, month or day, whose value is the asked statistic of all of the transformed terms in it. It fails only if there are no terms or one of them cannot be transformed.", "quantifier": "all ordered series of any length from the year 1 on, all periods, statistics, kinds of years, dates and transformations", "why_tests_cant": "terms are grouped by a comparison with the term before, so the result depends on gaps, leap years and ends of years anywhere in a series", "anchors": ["tsproc-trunk/tsproc-master/src/wsc_additions.F90: period_stats"]}
{"id": "C139", "title": "Peaks and events of hydrographs", "statement": "HYDRO_PEAKS gives terms that are higher than the one before and not lower than the one after, in order of time, more than WINDOW apart; a top above MIN_PEAK that is not among them has one at least as high with no other peak between; if tops are far enough apart, exactly those above MIN_PEAK come out. HYDRO_EVENTS gives for every peak the terms from the last one not after RISE_LAG before it to the last one not after FALL_LAG after it; if WINDOW is longer than an event, the new series is in order of time and only has terms of the series.", "quantifier": "all series of any length with at most one term a day, all windows, heights and lags", "why_tests_cant": "whether a top is kept depends on the whole history of tops before it; overlap of events and the size of the new series depend on all peaks", "anchors": ["tsproc-trunk/tsproc-master/src/wsc_additions.F90: hydro_peaks, hydro_events, get_event"]}
{"id": "C140", "title": "The table of potential radiation is the radiation of the sun on the unit", "statement": "For every unit the table has an entry for exactly the thirteen days that simulations read. The entry of a level unit is the integral of the sun's elevation between sunrise and sunset, that of an inclined unit the integral of the product of its normal with the direction to the sun over the time in which the sun is above the horizon and shines on it, up to the rounding of constants; hours are the length of that time. Entries of level units up to 60 degrees of latitude are positive; in the north days lengthen with the declination.", "quantifier": "all slopes, aspects and latitudes, all declinations, hour angles", "why_tests_cant": "the table is a closed form by a parallel surface elsewhere on the globe; that it is the integral for all directions of slopes is geometry, not a matter of cases", "anchors": ["webmod.d/src/soltab_prms.F: stinit"]}
{"id": "C141", "title": "TSPROC processes exactly the blocks for the context of the run, in order", "statement": "In a control file whose blocks are well formed, with blank lines and comments anywhere, keywords in any case and any separators, the blocks that name the context of the run or `all` among their contexts are processed in the order of the file, each once, and no other block is; the first error ends the run. Whatever the file is, every block that is processed names the context of the run or `all`. Nothing is processed before a SETTINGS block; a second SETTINGS block or an unknown title ends the run.", "quantifier": "all control files of any length, all contexts, all actions of the processors, with or without a context on the command line", "why_tests_cant": "which lines belong to a block depends on every line before it; a block that is passed over wrongly shows only in particular sequences of blocks", "anchors": ["tsproc-trunk/tsproc-master/src/tsp_command_processors.F90: get_next_block, Process_Settings, get_context, test_context, find_end", "tsproc-trunk/tsproc-master/src/tsp_utilities.F90: linesplit, getfile, casetrans", "tsproc-trunk/tsproc-master/src/tsp_main.F90", "tsproc-trunk/tsproc-master/src/tsp_main_loop.F90: processBlock"]}
{"id": "C142", "title": "TSPROC reads dates and times as the calendar and the clock have them, and reads again what it writes", "statement": "A text of three numbers with separators is read as a date, day first or month first as the settings say, exactly if it is a date of the Gregorian calendar with a year of four digits, and as a time exactly if it is a time of day; 24:00:00 is the beginning of the next day. Whatever the text is, what is read is a date of the calendar and a time of day. A date that is possible in both orders is read in the other order with day and month exchanged. The dates and times of a listed series are read again as the same instants.", "quantifier": "all texts, all dates of the years 1 to 9999, all seconds of a day, both orders of day and month", "why_tests_cant": "there are millions of dates and any text may stand in their place; leap years, lengths of months and the end of the day are exceptions that samples miss", "anchors": ["tsproc-trunk/tsproc-master/src/tsp_utilities.F90: char2date, char2time, a2i, leap, numsecs, read_rest_of_sample_line", "tsproc-trunk/tsproc-master/src/tsp_command_processors.F90: get_date, get_time", "tsproc-trunk/tsproc-master/src/tsp_output.F90: LIST_OUTPUT", "tsproc-trunk/tsproc-master/src/tsp_time_series_processors.F90: dates of VOLUME_CALCULATION"]}
{"id": "C143", "title": "TSPROC takes from a site sample file exactly the terms of the sites and of the period asked for", "statement": "From a site sample file whose rows are in the order of time for each site, each series gets exactly the rows of its site in the period, without the rows marked with x, in the order of the file, also if the rows of several sites are mixed; a site without such rows is an error, as is a line of less than four words. Whatever the file is, every term is a row of the site that is not after the end of the period, and nothing is written outside the series.", "quantifier": "all files of any length, all lists of sites, all periods, both orders of day and month", "why_tests_cant": "the files are read twice, once to count and once to store; the counts must agree for every order of the rows, and what is stored depends on all rows before", "anchors": ["tsproc-trunk/tsproc-master/src/tsp_input.F90: get_mul_series_ssf, get_ssf_series", "tsproc-trunk/tsproc-master/src/tsp_utilities.F90: read_rest_of_sample_line, linesplit", "tsproc-trunk/tsproc-master/src/tsp_command_processors.F90: alloc_tempseries"]}
{"id": "C144", "title": "TSPROC takes from a statvar file exactly the columns and the period asked for", "statement": "From a statvar file whose rows are in the order of time, each series gets exactly the values of the column with its variable and location (the last one, if there are several) in the period, with their days and seconds; hour 24 is hour 0 of the next day. A file without rows in the period, with rows that cannot be read or, if no column comes twice, without a column asked for is an error. A block is accepted exactly if it consists of complete triples of variable, location and new name that do not collide. Nothing is ever written outside the series.", "quantifier": "all headers, rows and numbers of columns, all lists of series asked for, all periods, all sequences of keywords in the block", "why_tests_cant": "the file is read twice, the first pass counts and the second stores, and they treat the end of the period differently; the columns are found by a count of matches, which is right or wrong depending on the whole header", "anchors": ["tsproc-trunk/tsproc-master/src/tsp_input.F90: get_mul_series_statvar", "tsproc-trunk/tsproc-master/src/tsp_utilities.F90: julian_day, numsecs, casetrans, getfile"]}
{"id": "C145", "title": "Tables of the framework keep all their entries while they grow", "statement": "However many control variables, dimensions, variables, parameters, variables of the data file or places for the values of a parameter are declared, and whatever the first size of the table is, every one of them is kept in its table in the order of the declarations, and nothing is written outside the memory of the table. A parameter that changes is copied to all places registered for it and to no other. Allocation routines give memory or end the program, and do so only if there is no memory. The list of the modules has for each module its own file name, up to 20 characters, and exactly its connections.", "quantifier": "all sizes, all numbers of entries, all names of modules", "why_tests_cant": "tables grow in steps of 50 or 100 with conditions that differ by one; a test with few declarations never reaches the growth, and the damage of a write outside is not visible where it happens", "anchors": ["mmf_c/src/build_lists.c: ALLOC_list, RESIZE_list, ADD_to_list", "mmf_c/src/declvar.c: declvar", "mmf_c/src/declparam.c: declparam, declparam_u", "mmf_c/src/read_datainfo.c: read_datainfo", "mmf_c/src/getparam.c: updateparam", "mmf_c/src/umalloc_etc.c: umalloc, urealloc, ucalloc", "mmf_c/src/call_modules.c: call_modules", "mmf_c/src/print_model_info.c: print_model_info"]}
{"id": "C146", "title": "Values at equal steps of time are read with their times, in the requested period", "statement": "When TSPROC reads a UFORE-HYDRO file, value number j of the file becomes a term at the model reference date and time plus j times the time increment, written as a day and a second of that day. Without a requested period exactly the announced number of values is stored; with one exactly those values whose time lies in the period, ends included, and they fill the new series exactly. A period that begins before the reference time, ends after the last value or contains no value is refused, as are an announced number below one and files that are too short or cannot be read.", "quantifier": "all reference dates, increments, periods, numbers of values and contents of the file", "why_tests_cant": "the terms are counted with one arithmetic (total seconds) and stored with another (days and seconds); whether both agree depends on increments, dates and the size of integers", "anchors": ["tsproc-trunk/tsproc-master/src/tsp_input.F90: get_ufore_series"]}
{"id": "C147", "title": "Series from GSFLOW gage files hold the values of their columns at the right times", "statement": "When TSPROC reads series from a gage file of GSFLOW, each requested column becomes a series whose terms are exactly the values of that column in the lines whose time lies in the requested period, ends included; each term is at the reference date and time plus the elapsed time of its line, to the nearest second, as a day and a second of that day. Blank lines do not matter, nothing is written outside a series, a column that is not in the header is reported, and so is a period without lines.", "quantifier": "all headers, requested columns, reference times, units of time, periods and contents of the file", "why_tests_cant": "the file is read twice with different rules for where to stop and how many words of a line to look for; the passes agree on the usual files only", "anchors": ["tsproc-trunk/tsproc-master/src/tsp_input.F90: get_mul_series_gsflow_gage"]}
