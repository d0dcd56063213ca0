{"id": "C01", "title": "Header gate", "statement": "Opening a catalogue with EqEntryReader succeeds exactly when the first line, split on commas and with the blanks around each piece removed, is the 25 documented column names in the documented order; otherwise MalformedCatalogError is raised and no entry can be read.", "quantifier": "every text file", "why_tests_cant": "Infinitely many header lines; tests try one bad header.", "anchors": ["mtoolkit/eqcatalog.py::EqEntryReader.__init__", "mtoolkit/eqcatalog.py::EqEntryReader.validate_csv_catalog", "mtoolkit/eqcatalog.py::FIELDNAMES"]}
{"id": "C02", "title": "Accepted entries satisfy the documented ranges of the compulsory fields", "statement": "In every entry delivered by EqEntryReader.read: eventID and Identifier are positive integers, year is an integer in [-10000, current year], month in 1..12, hour in 0..23, minute in 0..59, longitude in [-180,180], latitude in [-90,90], depth is a number > 0 and Mw is a number.", "quantifier": "every data row, every current year, every order in which Python iterates over the entry dictionary", "why_tests_cant": "The space of rows and of dictionary orders is unbounded; tests check each check function on one bad value.", "anchors": ["mtoolkit/eqcatalog.py::EqEntryReader.read", "mtoolkit/eqcatalog.py::EqEntryReader.convert_values", "mtoolkit/eqcatalog.py::EqEntryReader.check_map"]}
{"id": "C03", "title": "Accepted entries carry a possible day of the month", "statement": "In every accepted entry the day is a day that some year has in that month (1..31, and at most 29 in February).", "quantifier": "every data row and dictionary order", "why_tests_cant": "Boundary behaviour for all (month, day) pairs; tests check only day 30 of February.", "anchors": ["mtoolkit/eqcatalog.py::EqEntryReader.check_day"]}
{"id": "C04", "title": "Acceptance does not depend on the dictionary order", "statement": "Whether a data row is accepted or rejected does not depend on the order in which Python iterates over the fields of the row.", "quantifier": "every data row, every pair of iteration orders", "why_tests_cant": "Python 2 dictionary order is an implementation accident; a test run sees one order only.", "anchors": ["mtoolkit/eqcatalog.py::EqEntryReader.read", "mtoolkit/eqcatalog.py::EqEntryReader.convert_values"]}
{"id": "C05", "title": "Optional fields never reject a row and are sanitised", "statement": "A bad value in a non-compulsory column never rejects the row, and in the delivered entry every non-compulsory numeric field is either the empty string or a number; seconds are never outside 0..59, and semi-axes, strike, depth error and magnitude errors are never negative (strike never above 360).", "quantifier": "every data row, every dictionary order", "why_tests_cant": "All values of all optional columns at once.", "anchors": ["mtoolkit/eqcatalog.py::EqEntryReader.check_second", "mtoolkit/eqcatalog.py::EqEntryReader.check_positive_value", "mtoolkit/eqcatalog.py::EqEntryReader.check_epicentre_error_location", "mtoolkit/eqcatalog.py::EqEntryReader.convert_values"]}
{"id": "C06", "title": "sigmaMw is always usable as a number", "statement": "In every delivered entry sigmaMw is a number that is not negative; a blank, unparsable or negative input becomes 0.0, and any other input is delivered unchanged.", "quantifier": "every data row, every dictionary order", "why_tests_cant": "All input texts of the column.", "anchors": ["mtoolkit/eqcatalog.py::EqEntryReader.check_sigma_mw"]}
{"id": "C07", "title": "Error ellipse is all or nothing", "statement": "In every delivered entry ErrorStrike, SemiMajor90 and SemiMinor90 are either all blank or all numbers with SemiMinor90 <= SemiMajor90.", "quantifier": "every data row, every dictionary order", "why_tests_cant": "The three checks interact through the iteration order of the dictionary; a test sees one order.", "anchors": ["mtoolkit/eqcatalog.py::EqEntryReader.check_epicentre_error_location", "mtoolkit/eqcatalog.py::EqEntryReader.check_positive_value"]}
{"id": "C08", "title": "A bad compulsory field is reported as a validation error naming it", "statement": "When a compulsory field cannot be converted or fails its check, reading raises EqEntryValidationError whose arguments name a compulsory field that is bad.", "quantifier": "every data row, every dictionary order", "why_tests_cant": "All bad values of all eleven compulsory columns.", "anchors": ["mtoolkit/eqcatalog.py::EqEntryReader.convert_values", "mtoolkit/eqcatalog.py::EqEntryReader.read", "mtoolkit/eqcatalog.py::EqEntryValidationError"]}
{"id": "C09", "title": "Reported line number is the line of the bad row", "statement": "The line number in a validation error is the line of the file on which the offending row stands (the header is line 1).", "quantifier": "every catalogue file", "why_tests_cant": "All arrangements of blank lines and rows.", "anchors": ["mtoolkit/eqcatalog.py::EqEntryReader.read", "mtoolkit/eqcatalog.py::EqEntryReader.current_line"]}
{"id": "C10", "title": "Loading is all-or-nothing and order preserving", "statement": "read_eq_catalog returns a catalogue exactly when every non-blank data row is valid, and then it has one entry per non-blank data row, in file order, each entry depending on its own row only; otherwise the exception is that of the first bad row.", "quantifier": "every list of data rows of any length", "why_tests_cant": "Unbounded number of rows.", "anchors": ["mtoolkit/eqcatalog.py::EqEntryReader.read_eq_catalog", "mtoolkit/eqcatalog.py::EqEntryReader.read"]}
{"id": "C11", "title": "Rows with a wrong number of columns are never accepted", "statement": "A non-blank data row with fewer or more than 25 cells is never delivered as an entry: reading raises an exception.", "quantifier": "every row of every length other than 25, every dictionary order", "why_tests_cant": "All lengths and contents.", "anchors": ["mtoolkit/eqcatalog.py::EqEntryReader.read", "mtoolkit/eqcatalog.py::EqEntryReader.convert_values"]}
{"id": "C12", "title": "A written catalogue reads back as the same cells", "statement": "Writing rows with EqEntryWriter and parsing the file gives back exactly the cells written, whatever characters the text cells contain (commas, quotes, line breaks included).", "quantifier": "every list of rows, every cell text without NUL of at most 131072 characters (the limit of the csv module)", "why_tests_cant": "Quoting must work for all strings.", "anchors": ["mtoolkit/eqcatalog.py::EqEntryWriter.write_rows", "mtoolkit/eqcatalog.py::EqEntryReader.read"]}
{"id": "C13", "title": "A stored catalogue is accepted again", "statement": "Every catalogue delivered by the reader, once written with EqEntryWriter, is accepted again by EqEntryReader at the same or a later year, and gives the same entries.", "quantifier": "every accepted catalogue, every pair of dictionary orders, every later year", "why_tests_cant": "Needs idempotence of all checks on all entries.", "anchors": ["mtoolkit/eqcatalog.py::EqEntryWriter.write_rows", "mtoolkit/eqcatalog.py::EqEntryReader.read_eq_catalog", "mtoolkit/jobs.py::store_preprocessed_catalog"]}
{"id": "C14", "title": "Catalogue matrix is numeric and column aligned", "statement": "For every accepted catalogue the catalogue matrix has one row per entry, in order, whose columns 0..6 hold year, month, day, longitude, latitude, Mw, sigmaMw as numbers, which are the columns the declustering, completeness, recurrence, filtering and maximum magnitude steps read.", "quantifier": "every accepted catalogue", "why_tests_cant": "Needs the invariant that none of the seven fields can be blank in any accepted entry.", "anchors": ["mtoolkit/jobs.py::create_catalog_matrix", "mtoolkit/jobs.py::CATALOG_MATRIX_FIXED_COLOUMNS", "mtoolkit/jobs.py::CATALOG_MATRIX_MW_INDEX", "mtoolkit/jobs.py::SIGMA_MW_INDEX", "mtoolkit/catalog_filter.py::SourceModelCatalogFilter"]}
{"id": "C15", "title": "Default preprocessing values remove nothing", "statement": "With the default flag vector and the default completeness table no event of a (non-empty) catalogue is deselected.", "quantifier": "every non-empty catalogue", "why_tests_cant": "All catalogues.", "anchors": ["mtoolkit/jobs.py::create_default_values", "mtoolkit/jobs.py::create_selected_eq_vector", "mtoolkit/scientific/completeness.py::selected_eq_flag_vector"]}
{"id": "C16", "title": "Preprocessing pipeline is the documented job list", "statement": "The preprocessing pipeline built from a configuration is: read the catalogue, read the source model (or create the default one when none is configured), build the matrix, create the defaults, then the configured jobs in the configured order, then select/store/store-table exactly when jobs are configured and a result file is configured; with no jobs configured, the completeness table is retrieved exactly when its file is configured. The processing pipeline is exactly the configured job list.", "quantifier": "every configuration, every job list", "why_tests_cant": "Unbounded job lists and all combinations of set and unset keys.", "anchors": ["mtoolkit/workflow.py::PreprocessingBuilder.build", "mtoolkit/workflow.py::ProcessingBuilder.build", "mtoolkit/workflow.py::PipeLineBuilder.append_jobs"]}
{"id": "C17", "title": "An unknown job name is refused before anything runs", "statement": "If a configured job list contains an unknown name, building raises RuntimeError and no job is executed and no file is written.", "quantifier": "every configuration with an unknown name at any position", "why_tests_cant": "All positions and names.", "anchors": ["mtoolkit/workflow.py::PipeLineBuilder.append_jobs", "main.py::__main__"]}
{"id": "C18", "title": "Jobs run in order and stop at the first failure", "statement": "Running a pipeline applies the jobs in queue order to the context; running the concatenation of two queues equals running the first and then the second; after a job raises, no later job has any effect.", "quantifier": "every job queue and context", "why_tests_cant": "All queues and failure points.", "anchors": ["mtoolkit/workflow.py::PipeLine.run", "mtoolkit/workflow.py::PipeLine.add_job"]}
{"id": "C19", "title": "Each source is processed exactly once, in order, on its own events", "statement": "When processing is enabled the processing pipeline runs once per source definition, in source order, on exactly the events of the preprocessed working catalogue lying in that source, in catalogue order.", "quantifier": "every source list, catalogue and point-in-polygon relation", "why_tests_cant": "Unbounded lists.", "anchors": ["mtoolkit/workflow.py::Workflow.start", "mtoolkit/catalog_filter.py::CatalogFilter.filter_eqs", "mtoolkit/catalog_filter.py::SourceModelCatalogFilter.filter_eqs", "mtoolkit/catalog_filter.py::NullCatalogFilter.filter_eqs"]}
{"id": "C20", "title": "Disabled processing leaves the sources untouched", "statement": "When apply_processing_jobs is false the source definitions after the run are exactly those created by the preprocessing pipeline, whatever the processing job list.", "quantifier": "every configuration and input", "why_tests_cant": "All inputs.", "anchors": ["mtoolkit/workflow.py::Workflow.start"]}
{"id": "C21", "title": "Processing only rewrites the Gutenberg-Richter parameters", "statement": "Running Recurrence and MaximumMagnitude (in any list) changes, in each source, nothing but aValueCumulative, bValue, minMagnitude, maxMagnitude and the attached uncertainties; identifiers, name, region, boundary, type, strike, dip, rake and depths are unchanged, the minimum magnitude becomes the reference magnitude after Recurrence, and the number and order of sources is unchanged.", "quantifier": "every list of processing jobs drawn from the two, every source list and catalogue", "why_tests_cant": "All inputs and job lists.", "anchors": ["mtoolkit/jobs.py::recurrence", "mtoolkit/jobs.py::maximum_magnitude", "mtoolkit/workflow.py::Workflow.start"]}
{"id": "C22", "title": "Recurrence and MaximumMagnitude commute", "statement": "Listing Recurrence before or after MaximumMagnitude gives the same source parameters.", "quantifier": "every source, catalogue and parameter set on which both succeed", "why_tests_cant": "All inputs.", "anchors": ["mtoolkit/jobs.py::recurrence", "mtoolkit/jobs.py::maximum_magnitude"]}
{"id": "C23", "title": "Sources are processed independently", "statement": "The parameters computed for a source do not depend on which other sources are in the model nor on their order.", "quantifier": "every split of every source list", "why_tests_cant": "All source lists; documented as independence of processing pipelines.", "anchors": ["mtoolkit/workflow.py::Workflow.start", "mtoolkit/jobs.py::recurrence", "mtoolkit/jobs.py::maximum_magnitude"]}
{"id": "C24", "title": "A zone without events does not abort the run", "statement": "If no event lies in a source zone, its default Gutenberg-Richter values are kept and the run goes on (as the manual says).", "quantifier": "every model with an empty zone", "why_tests_cant": "All catalogues and zones.", "anchors": ["mtoolkit/jobs.py::recurrence", "mtoolkit/jobs.py::maximum_magnitude", "mtoolkit/catalog_filter.py::SourceModelCatalogFilter.filter_eqs", "docs/source/user/area_source.rst"]}
{"id": "C25", "title": "A source model document without area sources loads as an empty model", "statement": "Reading a valid NRML document that contains no area source gives an empty list of source definitions.", "quantifier": "every document without area sources", "why_tests_cant": "All documents.", "anchors": ["mtoolkit/jobs.py::read_source_model", "nrml/reader.py::NRMLReader.read"]}
{"id": "C26", "title": "The stored catalogue is exactly the selected events", "statement": "The file written by the store job contains the header and exactly the original entries whose selection flag is 0, unchanged and in original order.", "quantifier": "every catalogue and flag vector of the same length", "why_tests_cant": "All catalogues and flags.", "anchors": ["mtoolkit/jobs.py::store_preprocessed_catalog", "mtoolkit/eqcatalog.py::EqEntryWriter.write_rows"]}
{"id": "C27", "title": "Selection flags follow the completeness table and the declustering flags", "statement": "selected_eq_flag_vector flags an event with 1 exactly when its declustering flag is non-zero or some completeness row has both a later year and a larger magnitude than the event; otherwise 0. The order and repetition of the table rows do not matter.", "quantifier": "every catalogue, table and flag vector", "why_tests_cant": "All inputs.", "anchors": ["mtoolkit/scientific/completeness.py::selected_eq_flag_vector"]}
{"id": "C28", "title": "Only incomplete events are removed by the completeness step", "statement": "With a completeness table whose years do not increase with magnitude, an event deselected by the completeness step is incomplete: no row of the table declares the catalogue complete at its year and magnitude.", "quantifier": "every monotone table and every event", "why_tests_cant": "All tables and events.", "anchors": ["mtoolkit/scientific/completeness.py::selected_eq_flag_vector", "docs/source/user/completeness_table.rst"]}
{"id": "C29", "title": "No incomplete event is kept", "statement": "An event kept by the completeness step is complete: some row of the table has a magnitude not above and a year not after the event.", "quantifier": "every table and event", "why_tests_cant": "All tables and events.", "anchors": ["mtoolkit/scientific/completeness.py::selected_eq_flag_vector", "docs/source/user/completeness_table.rst"]}
{"id": "C30", "title": "Declustering jobs can be chained", "statement": "After any configured sequence of declustering jobs the declustering flags describe the rows of the original catalogue, so that the selection step succeeds.", "quantifier": "every sequence of declustering jobs and every catalogue", "why_tests_cant": "All sequences.", "anchors": ["mtoolkit/jobs.py::gardner_knopoff", "mtoolkit/jobs.py::afteran", "mtoolkit/jobs.py::create_selected_eq_vector"]}
{"id": "C31", "title": "Preprocess-and-process equals store-then-process", "statement": "Processing right after preprocessing gives the same recurrence parameters as storing the preprocessed catalogue and completeness table and processing those in a second run without preprocessing jobs.", "quantifier": "every catalogue, source and declustering/completeness job list", "why_tests_cant": "Tested on one catalogue with five job lists.", "anchors": ["mtoolkit/workflow.py::Workflow.start", "mtoolkit/jobs.py::store_preprocessed_catalog", "mtoolkit/jobs.py::store_completeness_table", "mtoolkit/jobs.py::retrieve_completeness_table", "mtoolkit/jobs.py::recurrence", "tests/qa_tests/test_equivalent_workflows.py"]}
{"id": "C32", "title": "Completeness table survives storing to five decimals", "statement": "Storing a completeness table and retrieving it gives a table of the same shape whose entries differ from the original by at most 0.000005, and storing again changes nothing.", "quantifier": "every table of any number of rows (one row included)", "why_tests_cant": "All tables.", "anchors": ["mtoolkit/jobs.py::store_completeness_table", "mtoolkit/jobs.py::retrieve_completeness_table"]}
{"id": "C33", "title": "Results are reproducible unless Cumulative_Moment is used", "statement": "The processing results depend on the random generator only if the maximum magnitude algorithm is Cumulative_Moment.", "quantifier": "every random stream, catalogue and configuration", "why_tests_cant": "Needs two runs on all streams.", "anchors": ["mtoolkit/scientific/maximum_magnitude.py::maximum_magnitude_analysis", "mtoolkit/scientific/maximum_magnitude.py::cum_mo_uncertainty"]}
{"id": "C34", "title": "Declustering returns the unflagged rows in original order", "statement": "Both declustering algorithms return a cluster vector and a flag vector with one entry per input row (in input order, whatever the internal sorting did), flags are -1, 0 or 1, and the mainshock catalogue is exactly the input rows whose flag is 0, unchanged and in input order.", "quantifier": "every catalogue of any size, every tie-breaking of the magnitude sort, every window and any arithmetic", "why_tests_cant": "All catalogues and all orders left by an unstable sort.", "anchors": ["mtoolkit/scientific/declustering.py::gardner_knopoff_decluster", "mtoolkit/scientific/declustering.py::afteran_decluster"]}
{"id": "C35", "title": "Flagged events always belong to a cluster", "statement": "In both algorithms an event with a non-zero flag has a positive cluster number, and events outside every cluster (number 0) are kept.", "quantifier": "every catalogue and tie-breaking", "why_tests_cant": "All catalogues.", "anchors": ["mtoolkit/scientific/declustering.py::gardner_knopoff_decluster", "mtoolkit/scientific/declustering.py::afteran_decluster"]}
{"id": "C36", "title": "Gardner-Knopoff removes only events inside the windows of a main event", "statement": "For every cluster number there is one event such that every event carrying that number lies in the time and distance windows of that event; it is flagged -1 exactly when it is strictly earlier than that event, 1 exactly when it is another event not earlier, 0 exactly when it is that event.", "quantifier": "every catalogue, window and foreshock proportion", "why_tests_cant": "Overlapping clusters re-label events; all overlaps must be covered.", "anchors": ["mtoolkit/scientific/declustering.py::gardner_knopoff_decluster"]}
{"id": "C37", "title": "Each Gardner-Knopoff cluster has exactly one kept event", "statement": "For each positive cluster number in the result exactly one event with that number has flag 0.", "quantifier": "every catalogue", "why_tests_cant": "Depends on how clusters overlap.", "anchors": ["mtoolkit/scientific/declustering.py::gardner_knopoff_decluster"]}
{"id": "C38", "title": "Declustering never empties a catalogue", "statement": "For a non-empty catalogue the mainshock catalogue of either algorithm is non-empty.", "quantifier": "every non-empty catalogue", "why_tests_cant": "All catalogues.", "anchors": ["mtoolkit/scientific/declustering.py::gardner_knopoff_decluster", "mtoolkit/scientific/declustering.py::afteran_decluster"]}
{"id": "C39", "title": "The largest event survives Gardner-Knopoff", "statement": "If one event has a larger magnitude than all the others it is in the mainshock catalogue.", "quantifier": "every catalogue, window type and foreshock proportion", "why_tests_cant": "All catalogues.", "anchors": ["mtoolkit/scientific/declustering.py::gardner_knopoff_decluster"]}
{"id": "C40", "title": "Gardner-Knopoff declustering is idempotent", "statement": "Declustering the mainshock catalogue again with the same parameters removes nothing.", "quantifier": "every catalogue whose smallest magnitude occurs once (in particular every one with distinct magnitudes), every window and proportion", "why_tests_cant": "All catalogues.", "anchors": ["mtoolkit/scientific/declustering.py::gardner_knopoff_decluster"]}
{"id": "C41", "title": "Declustering does not depend on row order", "statement": "If the magnitudes are distinct, permuting the rows of the catalogue permutes the cluster numbers and flags in the same way.", "quantifier": "every permutation of every catalogue with distinct magnitudes", "why_tests_cant": "n! permutations of all catalogues.", "anchors": ["mtoolkit/scientific/declustering.py::gardner_knopoff_decluster", "mtoolkit/scientific/declustering.py::afteran_decluster"]}
{"id": "C42", "title": "Afteran clusters are disjoint, numbered consecutively and have one mainshock", "statement": "The cluster numbers used by Afteran are exactly 1..k, each cluster has at least two events, and exactly one event of each cluster has flag 0.", "quantifier": "every catalogue and tie-breaking", "why_tests_cant": "All catalogues.", "anchors": ["mtoolkit/scientific/declustering.py::afteran_decluster"]}
{"id": "C43", "title": "An Afteran mainshock is a largest event of its cluster", "statement": "The kept event of each Afteran cluster has a magnitude at least that of every other event of the cluster.", "quantifier": "every catalogue and tie-breaking", "why_tests_cant": "All catalogues.", "anchors": ["mtoolkit/scientific/declustering.py::afteran_decluster"]}
{"id": "C44", "title": "Afteran removals are linked to the mainshock by short time steps", "statement": "Every event flagged 1 (-1) by Afteran is reached from the kept event of its cluster by a chain of events of that cluster, each not earlier (not later) than the previous one by more than the time window.", "quantifier": "every catalogue, time window", "why_tests_cant": "Chains of any length.", "anchors": ["mtoolkit/scientific/declustering.py::_find_aftershocks", "mtoolkit/scientific/declustering.py::_find_foreshocks", "mtoolkit/scientific/declustering.py::afteran_decluster"]}
{"id": "C45", "title": "Afteran cluster members lie in the distance window of their mainshock", "statement": "Every event of an Afteran cluster lies within the distance window of the kept event of the cluster.", "quantifier": "every catalogue", "why_tests_cant": "Depends on which larger unclustered events lie nearby.", "anchors": ["mtoolkit/scientific/declustering.py::afteran_decluster"]}
{"id": "C46", "title": "Isolated events are never removed", "statement": "If no two events of the catalogue lie in each other's windows, both algorithms keep the whole catalogue and report no cluster.", "quantifier": "every catalogue without such pairs", "why_tests_cant": "All catalogues.", "anchors": ["mtoolkit/scientific/declustering.py::gardner_knopoff_decluster", "mtoolkit/scientific/declustering.py::afteran_decluster"]}
{"id": "C47", "title": "Declustering windows are positive and grow with magnitude", "statement": "For each of the three window types the distance and time windows are positive and do not decrease when the magnitude increases.", "quantifier": "every pair of magnitudes (Gruenthal: where its square roots exist)", "why_tests_cant": "A continuum of magnitudes.", "anchors": ["mtoolkit/scientific/declustering.py::GardnerKnopoffWindow.calc", "mtoolkit/scientific/declustering.py::GruenthalWindow.calc", "mtoolkit/scientific/declustering.py::UhrhammerWindow.calc"]}
{"id": "C48", "title": "Decimal year orders dates", "statement": "For calendar dates the decimal year has the calendar year as integer part, is monotone in the date, and equal for two different dates only for 29 February and 1 March of the same year.", "quantifier": "every pair of calendar dates in any years", "why_tests_cant": "All pairs of dates.", "anchors": ["mtoolkit/scientific/catalogue_utilities.py::decimal_year"]}
{"id": "C49", "title": "haversine is a distance", "statement": "The haversine distance is symmetric, zero for identical points, never negative, at most half the circumference, never undefined (its square roots have non-negative arguments), and satisfies the triangle inequality.", "quantifier": "all pairs and triples of coordinates", "why_tests_cant": "Continuum of points.", "anchors": ["mtoolkit/scientific/catalogue_utilities.py::haversine"]}
{"id": "C50", "title": "greg2julian counts days", "statement": "For consecutive calendar days at the same time of day greg2julian differs by exactly one.", "quantifier": "every Gregorian date", "why_tests_cant": "All years and months.", "anchors": ["mtoolkit/scientific/catalogue_utilities.py::greg2julian"]}
{"id": "C51", "title": "Stepp table magnitudes", "statement": "The magnitude column of the Stepp table starts at the smallest (rounded) magnitude rounded down to one decimal and increases by the magnitude window; there are as many rows as bins needed to reach the largest magnitude.", "quantifier": "every non-empty catalogue, every positive window", "why_tests_cant": "All catalogues and windows.", "anchors": ["mtoolkit/scientific/completeness.py::stepp_analysis"]}
{"id": "C52", "title": "Stepp completeness years come from the analysed time steps", "statement": "Every year in the Stepp table is the last catalogue year minus one of the analysed durations dt, 2dt, ..., so it lies before the end of the catalogue by at least dt and less than the catalogue length plus two years; at most the catalogue length plus one for whole years.", "quantifier": "every catalogue and positive windows", "why_tests_cant": "All catalogues.", "anchors": ["mtoolkit/scientific/completeness.py::stepp_analysis"]}
{"id": "C53", "title": "Increment lock makes completeness years monotone", "statement": "With the increment lock the completeness year never increases with magnitude; so the table is monotone.", "quantifier": "every catalogue and parameters", "why_tests_cant": "All catalogues.", "anchors": ["mtoolkit/scientific/completeness.py::stepp_analysis"]}
{"id": "C54", "title": "Stepp counts every event exactly once per time window", "statement": "For each analysed duration, the numbers of events counted in the magnitude bins add up to the number of events in that duration.", "quantifier": "every catalogue and parameters", "why_tests_cant": "All catalogues and binnings.", "anchors": ["mtoolkit/scientific/completeness.py::stepp_analysis"]}
{"id": "C55", "title": "Stepp never fails on a usable time step", "statement": "stepp_analysis returns a table whenever the time step is positive and smaller than the catalogue length plus two years.", "quantifier": "every non-empty catalogue, positive windows", "why_tests_cant": "All catalogues; failure is an index error.", "anchors": ["mtoolkit/scientific/completeness.py::stepp_analysis"]}
{"id": "C56", "title": "Completeness length is the last duration exceeding the tolerance", "statement": "For each magnitude bin (without lock) the reported duration is the one at the last location whose change of slope exceeds the sensitivity, or that of the previous bin if there is none.", "quantifier": "every catalogue and parameters", "why_tests_cant": "All residual patterns.", "anchors": ["mtoolkit/scientific/completeness.py::stepp_analysis"]}
{"id": "C57", "title": "The recurrence table accounts for every event", "statement": "In recurrence_table the per-bin counts add up to the number of events, the cumulative column starts with that number, is non-increasing, and is the sum of the counts from its bin on; the annual columns are the counts divided by the number of years, which is at least 1.", "quantifier": "every non-empty catalogue, every positive bin width", "why_tests_cant": "All catalogues.", "anchors": ["mtoolkit/scientific/recurrence.py::recurrence_table"]}
{"id": "C58", "title": "Maximum likelihood b-values are positive and bounded", "statement": "b_max_likelihood returns a positive b-value not larger than 2*log10(e)/dmag whenever some event lies in a bin at or above the completeness magnitude.", "quantifier": "every histogram with an event at or above completeness", "why_tests_cant": "All histograms.", "anchors": ["mtoolkit/scientific/recurrence.py::b_max_likelihood"]}
{"id": "C59", "title": "The time-averaged MLE b-value lies between those of the periods", "statement": "The b-value, its error and rate returned by the MLE recurrence are averages of those of the completeness periods weighted by event counts: they lie between the smallest and the largest of them.", "quantifier": "every catalogue and completeness table for which it returns", "why_tests_cant": "All tables.", "anchors": ["mtoolkit/scientific/recurrence.py::b_maxlike_time"]}
{"id": "C60", "title": "Weichert preparation accounts for the events", "statement": "The event counts handed to Weichert add up to at most the number of events and exactly to that number when no completeness row removes a bin; every event lies in exactly one time-magnitude cell.", "quantifier": "every catalogue, table and positive bin sizes", "why_tests_cant": "All catalogues.", "anchors": ["mtoolkit/scientific/recurrence.py::weichert_prep"]}
{"id": "C61", "title": "Weichert likelihood is strictly concave", "statement": "Whenever there are at least two magnitude bins, positive periods and at least one event, the second derivative used by each Weichert Newton step is strictly negative, so no step divides by zero, the standard error is a real number and the likelihood equation has at most one solution.", "quantifier": "every beta, all periods, magnitudes and counts", "why_tests_cant": "All real inputs.", "anchors": ["mtoolkit/scientific/recurrence.py::weichert"]}
{"id": "C62", "title": "A returned Weichert b-value solves the likelihood equation to tolerance", "statement": "If weichert returns, the last Newton step was at most the tolerance, and the returned b-value, a-value and errors are those of that step.", "quantifier": "every input and number of iterations", "why_tests_cant": "Iteration count is unbounded.", "anchors": ["mtoolkit/scientific/recurrence.py::weichert"]}
{"id": "C63", "title": "Weichert terminates", "statement": "weichert returns for every input produced by weichert_prep.", "quantifier": "every catalogue, completeness table and bin sizes", "why_tests_cant": "Non-termination cannot be observed by a test.", "anchors": ["mtoolkit/scientific/recurrence.py::weichert", "mtoolkit/scientific/recurrence.py::weichert_prep"]}
{"id": "C64", "title": "Gutenberg-Richter rate is consistent with the observed rate", "statement": "For each completeness period the MLE rate at a reference magnitude equal to the completeness magnitude is the observed number of events per year, and rates at different reference magnitudes differ by the factor 10^(-b dM).", "quantifier": "every catalogue and reference magnitude", "why_tests_cant": "All inputs.", "anchors": ["mtoolkit/scientific/recurrence.py::b_maxlike_time"]}
{"id": "C65", "title": "The Hastings function behaves like a distribution function", "statement": "gauss_cdf_hastings is 1/2 at the mean, takes values in [0,1], is symmetric about the mean and non-decreasing.", "quantifier": "every real argument", "why_tests_cant": "Continuum of arguments.", "anchors": ["mtoolkit/scientific/maximum_magnitude.py::gauss_cdf_hastings"]}
{"id": "C66", "title": "The Hastings function approximates the normal distribution", "statement": "gauss_cdf_hastings differs from the normal distribution function by at most 0.00025 (the accuracy of the Hastings approximation).", "quantifier": "every real argument", "why_tests_cant": "Continuum; the test data were produced by the function itself.", "anchors": ["mtoolkit/scientific/maximum_magnitude.py::gauss_cdf_hastings"]}
{"id": "C67", "title": "Exponentially spaced samples span the interval", "statement": "exp_spaced_points returns nsamp points, the first equal to the lower and the last to the upper bound, non-decreasing (strictly increasing if lower < upper).", "quantifier": "every interval and every sample number >= 2", "why_tests_cant": "All inputs.", "anchors": ["mtoolkit/scientific/maximum_magnitude.py::exp_spaced_points"]}
{"id": "C68", "title": "The Kijko correction is between zero and the sampled range", "statement": "The integral used by the Kijko estimator is non-negative and at most the length of the sampled magnitude range.", "quantifier": "every magnitude vector, smoothing factor and sample points", "why_tests_cant": "All inputs.", "anchors": ["mtoolkit/scientific/maximum_magnitude.py::kijko_npg_intfunc_simps"]}
{"id": "C69", "title": "The Kijko iteration terminates", "statement": "kijko_nonparametric_gauss stops after at most maximum_iterations + 1 iterations for every non-negative tolerance.", "quantifier": "every input, whatever the integral evaluates to (including NaN)", "why_tests_cant": "All inputs and any arithmetic.", "anchors": ["mtoolkit/scientific/maximum_magnitude.py::kijko_nonparametric_gauss"]}
{"id": "C70", "title": "Kijko maximum magnitude is not below the observed maximum", "statement": "The estimated maximum magnitude is at least the largest observed magnitude and its uncertainty at least that of the largest event.", "quantifier": "every catalogue", "why_tests_cant": "All catalogues.", "anchors": ["mtoolkit/scientific/maximum_magnitude.py::kijko_nonparametric_gauss"]}
{"id": "C71", "title": "The smoothing factor follows Silverman", "statement": "h_smooth returns 0.9*min(standard deviation, IQR/1.34)*n^(-1/5) rounded to two decimals.", "quantifier": "every magnitude vector", "why_tests_cant": "All vectors.", "anchors": ["mtoolkit/scientific/maximum_magnitude.py::h_smooth"]}
{"id": "C72", "title": "Cumulative moment accounts for all moment release", "statement": "In cumulative_moment the yearly moments add up to the total moment; the moment excess driving the estimate is the range of the deviation of cumulative moment from its mean trend: it is non-negative, does not depend on the order of events, and is zero for catalogues confined to one year.", "quantifier": "every catalogue with integer years", "why_tests_cant": "All catalogues.", "anchors": ["mtoolkit/scientific/maximum_magnitude.py::cumulative_moment"]}
{"id": "C73", "title": "Without magnitude errors the bootstrap is exact", "statement": "If all magnitude uncertainties are zero, cum_mo_uncertainty returns the plain cumulative moment estimate with zero uncertainty, whatever the random numbers.", "quantifier": "every catalogue, random stream and number of bootstraps >= 2", "why_tests_cant": "All streams.", "anchors": ["mtoolkit/scientific/maximum_magnitude.py::cum_mo_uncertainty"]}
{"id": "C74", "title": "An unknown maximum magnitude algorithm is refused", "statement": "Configuring an algorithm other than Kijko_Npg and Cumulative_Moment (or a recurrence algorithm other than Weichert and MLE) raises an error instead of changing the source.", "quantifier": "every other algorithm name", "why_tests_cant": "All strings.", "anchors": ["mtoolkit/scientific/maximum_magnitude.py::maximum_magnitude_analysis", "mtoolkit/jobs.py::maximum_magnitude", "mtoolkit/scientific/recurrence.py::recurrence_analysis"]}
{"id": "C75", "title": "Fault geometry validation is exact", "statement": "SimpleFaultGeo is constructed exactly when the trace has at least two points, all longitudes are in [-180,180] and latitudes in [-90,90], the upper depth is >= 0, the lower depth is larger than it, and the dip is in (0,90]; otherwise ValueError.", "quantifier": "every trace of any length, all depths and dips", "why_tests_cant": "All inputs.", "anchors": ["mtoolkit/geo/simple_fault.py::SimpleFaultGeo.__init__"]}
{"id": "C76", "title": "Fault dimensions are consistent", "statement": "For every constructed fault: length >= 0, width >= lower minus upper depth > 0 with equality at dip 90, area = length * width >= 0.", "quantifier": "every valid fault", "why_tests_cant": "All faults.", "anchors": ["mtoolkit/geo/simple_fault.py::SimpleFaultGeo.get_length", "mtoolkit/geo/simple_fault.py::SimpleFaultGeo.get_width", "mtoolkit/geo/simple_fault.py::SimpleFaultGeo.get_area"]}
{"id": "C77", "title": "Fault length is a path length", "statement": "The length does not depend on the direction of the trace, adds up over a split of the trace at one of its points, and is at least the distance between the end points.", "quantifier": "every trace and split", "why_tests_cant": "All traces.", "anchors": ["mtoolkit/geo/simple_fault.py::SimpleFaultGeo.get_length"]}
{"id": "C78", "title": "Tectonic region validation is exact", "statement": "A tectonic region is constructed exactly when value and weight lists have equal lengths, all scaling relations are supported, all shear moduli and displacement ratios are positive and each list of weights sums to one; then the first values used by the fault calculator exist and are positive; a missing list is a KeyError.", "quantifier": "every parameter set", "why_tests_cant": "All lists of all lengths.", "anchors": ["mtoolkit/geo/tectonic_region.py::TectonicRegion.__init__", "mtoolkit/geo/tectonic_region.py::TectonicRegion.check_msr_weight", "mtoolkit/geo/tectonic_region.py::TectonicRegion.check_msr", "mtoolkit/geo/tectonic_region.py::TectonicRegion.check_values", "mtoolkit/geo/tectonic_region.py::TectonicRegion.check_weights"]}
{"id": "C79", "title": "Regions by name are well formed or refused", "statement": "create_tect_region_by_name with a known name and no overrides always succeeds with the documented constants; overriding one parameter leaves the others at their defaults and is validated; an unknown name raises ValueError.", "quantifier": "every name and override", "why_tests_cant": "All names and overrides.", "anchors": ["mtoolkit/geo/tectonic_region.py::TectonicRegionBuilder.create_tect_region_by_name"]}
{"id": "C80", "title": "Occurrence rates are positive", "statement": "For a valid region and fault and a b-value between 0 and 1.5 every occurrence rate returned by get_mfd is positive.", "quantifier": "every valid input", "why_tests_cant": "All inputs.", "anchors": ["mtoolkit/scientific/fault_calculator.py::get_mfd", "mtoolkit/scientific/fault_calculator.py::_cumulative_value"]}
{"id": "C81", "title": "Occurrence rates telescope and follow Gutenberg-Richter", "statement": "The rates returned by get_mfd add up to the difference of the cumulative rates at the ends of the magnitude range, there is one rate per magnitude bin, and consecutive rates have the ratio 10^(-b * bin width).", "quantifier": "every valid input", "why_tests_cant": "All inputs.", "anchors": ["mtoolkit/scientific/fault_calculator.py::get_mfd"]}
{"id": "C82", "title": "Occurrence rates scale with seismic slip", "statement": "get_mfd refuses non-positive slip and aseismic coefficients outside [0,1), and its rates are proportional to slip * (1 - aseismic coefficient).", "quantifier": "every input", "why_tests_cant": "All inputs.", "anchors": ["mtoolkit/scientific/fault_calculator.py::get_mfd"]}
{"id": "C83", "title": "Serialised sources read back", "statement": "Serialising a non-empty list of area sources sharing document and model identifiers and reading the document gives the same list in the same order, with every number replaced by its value at the printed precision.", "quantifier": "every list of area sources", "why_tests_cant": "Unbounded lists and numbers.", "anchors": ["nrml/writer.py::AreaSourceWriter.serialize", "nrml/reader.py::NRMLReader.read"]}
{"id": "C84", "title": "Serialisation is stable", "statement": "Reading a serialised document and serialising the result again gives the same document.", "quantifier": "every list of area sources", "why_tests_cant": "All lists.", "anchors": ["nrml/writer.py::AreaSourceWriter.serialize", "nrml/reader.py::NRMLReader.read"]}
{"id": "C85", "title": "The reader yields one source per area source element, in document order", "statement": "Reading a document yields exactly one AreaSource per areaSource element, in the order of their closing tags (which is document order, as area sources are not nested in valid documents), and ignores all other source types.", "quantifier": "every document tree", "why_tests_cant": "All trees.", "anchors": ["nrml/reader.py::NRMLReader.read", "nrml/reader.py::_parse_area_source"]}
{"id": "C86", "title": "A malformed coordinate list is never silently truncated", "statement": "An area boundary with an odd number of coordinates raises an exception; with 2n coordinates exactly n points are delivered, pairing coordinate 2i with 2i+1 as longitude and latitude.", "quantifier": "every coordinate list", "why_tests_cant": "All lengths.", "anchors": ["nrml/reader.py::_parse_area_boundary"]}
{"id": "C87", "title": "Writers refuse unusable output paths", "statement": "EqEntryWriter and AreaSourceWriter accept a path exactly when its directory part exists.", "quantifier": "every path and file system", "why_tests_cant": "All paths.", "anchors": ["mtoolkit/eqcatalog.py::EqEntryWriter.__init__", "nrml/writer.py::AreaSourceWriter.__init__"]}
{"id": "C88", "title": "The result document lists the input sources", "statement": "After a successful run of the tool the result document contains one area source per source of the input model (or the single default source), in order, with their identifiers and geometry.", "quantifier": "every configuration and input", "why_tests_cant": "All inputs.", "anchors": ["main.py::__main__", "nrml/writer.py::AreaSourceWriter.serialize"]}
{"id": "C89", "title": "Every schema conforming area source is read", "statement": "Reading an area source element that conforms to the NRML schema succeeds and delivers all its rate models.", "quantifier": "every schema conforming area source element", "why_tests_cant": "All elements; the schema admits unboundedly many shapes.", "anchors": ["nrml/reader.py::_parse_area_source"]}
{"id": "C90", "title": "The result document conforms to the schema", "statement": "The area source elements of the result document conform to the NRML schema, also when no source model was configured.", "quantifier": "every result of a run", "why_tests_cant": "All results.", "anchors": ["nrml/writer.py::AreaSourceWriter.serialize", "mtoolkit/jobs.py::create_default_source_model"]}
{"id": "C91", "title": "Row order does not matter to completeness and recurrence", "statement": "Stepp's completeness table and the recurrence parameters (both algorithms) are the same for every order of the rows of the catalogue, exceptions included.", "quantifier": "every catalogue and every permutation of its rows", "why_tests_cant": "All permutations of all catalogues.", "anchors": ["mtoolkit/scientific/completeness.py::stepp_analysis", "mtoolkit/scientific/recurrence.py::recurrence_analysis", "mtoolkit/scientific/recurrence.py::weichert_prep", "mtoolkit/scientific/recurrence.py::b_maxlike_time"]}
{"id": "C92", "title": "Row order does not matter to the Kijko maximum magnitude", "statement": "The Kijko estimate of the maximum magnitude and its uncertainty are the same for every order of the rows of the catalogue.", "quantifier": "every catalogue and every permutation of its rows", "why_tests_cant": "All permutations of all catalogues, ties included.", "anchors": ["mtoolkit/scientific/maximum_magnitude.py::kijko_nonparametric_gauss", "mtoolkit/scientific/maximum_magnitude.py::h_smooth"]}
{"id": "C93", "title": "Results do not depend on the origin of time", "statement": "If all years of a catalogue are moved by the same amount, Stepp's completeness table has the same magnitudes and its years move by that amount; if the years of the completeness table move too, the recurrence parameters are the same.", "quantifier": "every catalogue, table and shift", "why_tests_cant": "Relation between runs on all pairs of shifted inputs.", "anchors": ["mtoolkit/scientific/completeness.py::stepp_analysis", "mtoolkit/scientific/recurrence.py::recurrence_analysis"]}
{"id": "C94", "title": "Repeating every event scales the rate and keeps the b-value", "statement": "If every event of the catalogue occurs k times as often, both recurrence algorithms deliver the same b-value and k times the annual rate.", "quantifier": "every catalogue and table for which a result is delivered, every k >= 1", "why_tests_cant": "Relation between runs on unboundedly many inputs.", "anchors": ["mtoolkit/scientific/recurrence.py::recurrence_analysis", "mtoolkit/scientific/recurrence.py::weichert", "mtoolkit/scientific/recurrence.py::b_maxlike_time"]}
{"id": "C95", "title": "A run changes no file but its outputs", "statement": "A run of the tool, whether it ends normally or by an exception, changes no file other than the result file, the catalogue file and the completeness table file named for output in the configuration; the result file (if it is not also named as another output) is only changed by a run that ends normally.", "quantifier": "every configuration, file system and input", "why_tests_cant": "All runs, failing ones included.", "anchors": ["main.py::__main__", "mtoolkit/jobs.py::store_preprocessed_catalog", "mtoolkit/jobs.py::store_completeness_table"]}
{"id": "C96", "title": "A run depends on its input files only", "statement": "The exception raised, the computed sources and the contents of the files written are determined by the configuration, the catalogue file, the source model file and (if a job retrieves it) the completeness table file: no other file in the directory matters.", "quantifier": "every configuration and every pair of file systems agreeing on the inputs", "why_tests_cant": "Relation between all pairs of runs.", "anchors": ["main.py::__main__", "mtoolkit/workflow.py::Workflow.start"]}
{"id": "C97", "title": "Running again changes nothing", "statement": "Running the same configuration again over the files left by the first run gives the same outcome and leaves all files as they are, if no input is also an output.", "quantifier": "every configuration, file system and input", "why_tests_cant": "Relation between consecutive runs for all inputs.", "anchors": ["main.py::__main__", "mtoolkit/workflow.py::Workflow.start"]}
{"id": "C98", "title": "The command line is understood", "statement": "Every command line made of requests for details (-d, --detailed and its abbreviations) and names of configuration files (-i F, -iF, -i=F, --input-file F, --input-file=F and abbreviations) is accepted; the last file named is used and details are shown exactly when asked for.", "quantifier": "every sequence of requests in every spelling", "why_tests_cant": "All command lines of any length.", "anchors": ["mtoolkit/console.py::build_cmd_parser", "mtoolkit/console.py::cmd_line"]}
{"id": "C99", "title": "A refused command line has no effect", "statement": "A command line with a stray word is a usage error (status 2), one asking for help or version ends with status 0, none at all prints the help text; in all these cases no configuration is read and no file is changed.", "quantifier": "every command line", "why_tests_cant": "All command lines.", "anchors": ["mtoolkit/console.py::cmd_line", "main.py::__main__"]}
{"id": "C100", "title": "A missing configuration file is reported and nothing is written", "statement": "If the configuration file named on the command line does not exist, this is reported and no file is created or changed.", "quantifier": "every command line naming a missing file", "why_tests_cant": "All command lines.", "anchors": ["mtoolkit/console.py::cmd_line", "mtoolkit/console.py::build_logger", "main.py::__main__"]}
{"id": "C101", "title": "A command line without configuration file is refused", "statement": "A command line with options but without configuration file ends with a usage error.", "quantifier": "every command line without configuration file", "why_tests_cant": "All command lines.", "anchors": ["mtoolkit/console.py::cmd_line", "main.py::__main__"]}
{"id": "C102", "title": "The program changes nothing but the outputs of the given configuration", "statement": "Whatever the command line, the program changes no file except the output files named in the configuration file it was given and, with -d, debug.log.", "quantifier": "every command line and file system", "why_tests_cant": "All command lines and files.", "anchors": ["mtoolkit/console.py::build_logger", "main.py::__main__"]}
{"id": "C103", "title": "haversine of sets of locations", "statement": "Given two sets of locations with as many latitudes as longitudes (vectors or scalars, degrees or radians) and a radius, haversine returns a matrix with a row for each location of the first set and a column for each of the second; the entry is the radius times the angle between the two directions. Degrees are the converted radians, a scalar is a set of one, exchanging the sets transposes the matrix.", "quantifier": "all sets of locations of any size, both units, every radius", "why_tests_cant": "Matrices of every shape and all real coordinates.", "anchors": ["mtoolkit/scientific/catalogue_utilities.py::haversine"]}
{"id": "C104", "title": "Locations without both coordinates are refused", "statement": "If the numbers of longitudes and latitudes of a set differ, haversine raises an exception.", "quantifier": "all sets of locations", "why_tests_cant": "All pairs of lengths.", "anchors": ["mtoolkit/scientific/catalogue_utilities.py::haversine"]}
{"id": "C105", "title": "Declustering depends on relative positions and times only", "statement": "Two catalogues with the same magnitudes, mutual great circle distances and time differences get the same cluster numbers and flags from both declustering algorithms. In particular the date line is no border (longitudes count modulo 360 degrees), and turning the catalogue around the axis of the earth, exchanging north and south, or moving all events by a number of years changes nothing.", "quantifier": "every catalogue, window, parameter and displacement", "why_tests_cant": "Relation between runs on all pairs of displaced catalogues.", "anchors": ["mtoolkit/scientific/declustering.py::gardner_knopoff_decluster", "mtoolkit/scientific/declustering.py::afteran_decluster", "mtoolkit/scientific/catalogue_utilities.py::haversine"]}
{"id": "C106", "title": "Results move with the origin of the magnitude scale", "statement": "If all magnitudes of a catalogue are larger by c (a multiple of the rounding step of the algorithm), the magnitudes of Stepp's completeness table are larger by c and its years are the same; if the completeness table and the reference magnitude are larger by c too, the recurrence parameters and their errors are the same; the maximum magnitude of both algorithms is larger by c and its error is the same.", "quantifier": "every catalogue, table, parameter and multiple", "why_tests_cant": "Relation between runs on all pairs of shifted inputs.", "anchors": ["mtoolkit/scientific/completeness.py::stepp_analysis", "mtoolkit/scientific/recurrence.py::recurrence_analysis", "mtoolkit/scientific/recurrence.py::weichert", "mtoolkit/scientific/recurrence.py::b_maxlike_time", "mtoolkit/scientific/maximum_magnitude.py::maximum_magnitude_analysis"]}
{"id": "C107", "title": "Time windows of zero", "statement": "With a foreshock time window of 0 Gardner-Knopoff flags no foreshock and keeps the earliest event of each cluster (if any event of it is kept); with a time window of 0 Afteran removes only events at the same time as the kept event of their cluster; with a negative one it removes nothing.", "quantifier": "every catalogue and window", "why_tests_cant": "All catalogues.", "anchors": ["mtoolkit/scientific/declustering.py::gardner_knopoff_decluster", "mtoolkit/scientific/declustering.py::afteran_decluster"]}
{"id": "C108", "title": "Events outside the completeness table have no influence on recurrence", "statement": "Events that lie in no completeness period (too early or too small for every row of the completeness table) do not change the recurrence parameters of either algorithm.", "quantifier": "every catalogue, table and set of such events", "why_tests_cant": "Relation between runs on all pairs of catalogues.", "anchors": ["mtoolkit/scientific/recurrence.py::recurrence_analysis", "mtoolkit/scientific/recurrence.py::weichert_prep", "mtoolkit/scientific/recurrence.py::b_maxlike_time"]}
{"id": "C109", "title": "Only the largest events matter to the Kijko estimate", "statement": "With number_earthquakes = n > 0, events not larger than n events of the catalogue change neither the Kijko maximum magnitude nor its uncertainty.", "quantifier": "every catalogue and every set of such events", "why_tests_cant": "Relation between runs on all pairs of catalogues.", "anchors": ["mtoolkit/scientific/maximum_magnitude.py::kijko_nonparametric_gauss"]}
{"id": "C110", "title": "A result path that cannot be written is reported before anything is written", "statement": "If the directory of the result file does not exist, or the result file cannot be opened for writing, the run raises an exception and leaves all files as they were.", "quantifier": "every configuration, every content of the files", "why_tests_cant": "All configurations, and the effects of the run on all files.", "anchors": ["main.py::__main__", "nrml/writer.py::AreaSourceWriter.__init__", "mtoolkit/workflow.py::Workflow.start"]}
{"id": "C111", "title": "Options of jobs that are not requested have no influence", "statement": "A section of the configuration file for a job that is not listed (or is listed for a processing that is switched off) may be missing, incomplete or arbitrary, and parameters of an algorithm that is not chosen are arbitrary: files, results and exceptions of the run are the same.", "quantifier": "all pairs of configurations that agree in what is requested, all inputs", "why_tests_cant": "Relation between runs on all pairs of configurations.", "anchors": ["mtoolkit/workflow.py::Context.__init__", "mtoolkit/workflow.py::PreprocessingBuilder.build", "mtoolkit/workflow.py::ProcessingBuilder.build", "mtoolkit/workflow.py::Workflow.start", "mtoolkit/jobs.py::recurrence", "mtoolkit/jobs.py::maximum_magnitude", "mtoolkit/jobs.py::stepp", "mtoolkit/jobs.py::gardner_knopoff", "mtoolkit/jobs.py::afteran"]}
{"id": "C112", "title": "A missing option is reported before anything is written", "statement": "If a key that the requested jobs need is missing from the configuration file, the run raises an exception and leaves all files as they were.", "quantifier": "every dictionary of configuration keys, all inputs", "why_tests_cant": "All combinations of missing keys and requested jobs.", "anchors": ["mtoolkit/workflow.py::Context.__init__", "mtoolkit/workflow.py::PreprocessingBuilder.build", "mtoolkit/workflow.py::ProcessingBuilder.build", "mtoolkit/workflow.py::Workflow.start", "main.py::__main__"]}
{"id": "C113", "title": "Occurrence rates release the moment that the slip supplies", "statement": "Take the events of each bin of the get_mfd result at the lower (upper) end of the bin: the moment released per year is at most (at least) the share of shear modulus * width * rupture length * seismic slip that the Anderson and Luco density gives to the range of the bins, where the rupture length is the one whose displacement at the ratio of the region gives the moment of the maximum magnitude. The lower sum never exceeds the whole supply; upper and lower sum differ by 10^(1.5 * bin width).", "quantifier": "every valid fault, region, slip, b-value below the slope of the moment scaling, bin width, minimum and maximum magnitude", "why_tests_cant": "Test cases compare a few rates with printed numbers; a wrong unit or exponent in beta changes all rates by a factor that such tests copy.", "anchors": ["mtoolkit/scientific/fault_calculator.py::get_mfd", "mtoolkit/scientific/fault_calculator.py::_cumulative_value"]}
{"id": "C114", "title": "A distribution with the magnitudes at the bin centres does not exceed the moment supply", "statement": "With min_mag + i * bin_width as the magnitude of the i-th rate the rates of get_mfd release no more moment than the slip supplies.", "quantifier": "every valid fault, region, slip, b-value below the slope of the moment scaling, bin width, minimum and maximum magnitude", "why_tests_cant": "The excess depends on where the last bin ends relative to the maximum magnitude.", "anchors": ["mtoolkit/scientific/fault_calculator.py::get_mfd", "mtoolkit/scientific/fault_calculator.py::_cumulative_value"]}
{"id": "C115", "title": "Gardner-Knopoff declustering keeps no dependent pair", "statement": "No event of the catalogue returned by the Gardner-Knopoff declustering lies within the distance window and the time window (foreshock fraction before, whole window after) of another returned event of larger magnitude.", "quantifier": "all catalogues, all windows, every foreshock fraction >= 0", "why_tests_cant": "Relation between all pairs of surviving events of every catalogue; the flags depend on the order in which the clusters are made.", "anchors": ["mtoolkit/scientific/declustering.py::gardner_knopoff_decluster"]}
{"id": "C116", "title": "Afteran declustering keeps no dependent pair", "statement": "No event of the catalogue returned by the Afteran declustering lies within the distance window and the moving time window of another returned event of larger magnitude.", "quantifier": "all catalogues, all windows", "why_tests_cant": "Depends on which event a search starts from and on the order of the events; test catalogues have well separated clusters.", "anchors": ["mtoolkit/scientific/declustering.py::afteran_decluster"]}
{"id": "C117", "title": "Afteran declustering is idempotent", "statement": "Declustering the returned catalogue again with the same windows removes nothing.", "quantifier": "all catalogues, all windows", "why_tests_cant": "Relation between two runs on every catalogue.", "anchors": ["mtoolkit/scientific/declustering.py::afteran_decluster"]}
{"id": "C118", "title": "A larger sensitivity of the Stepp test gives no earlier completeness year", "statement": "If the sensitivity is increased and everything else is unchanged, no completeness year of the table gets earlier.", "quantifier": "all catalogues, bin widths, time steps, both settings of the increment lock, all pairs of sensitivities", "why_tests_cant": "Relation between two runs for every catalogue.", "anchors": ["mtoolkit/scientific/completeness.py::stepp_analysis"]}
{"id": "C119", "title": "The recurrence rates for different reference magnitudes lie on one Gutenberg-Richter line", "statement": "Changing only reference_magnitude changes neither the b-value nor its error, and the rates at two reference magnitudes differ by the factor 10^(-b * difference), for both algorithms.", "quantifier": "all catalogues, completeness tables, bin widths, time steps and pairs of reference magnitudes", "why_tests_cant": "Relation between two runs on all inputs; a test has one reference magnitude.", "anchors": ["mtoolkit/scientific/recurrence.py::recurrence_analysis", "mtoolkit/scientific/recurrence.py::weichert", "mtoolkit/scientific/recurrence.py::b_maxlike_time"]}
{"id": "C120", "title": "The Weichert relation reproduces the catalogue", "statement": "The relation returned by the Weichert algorithm, extrapolated to the lower edge of the magnitude bins, predicts for the completeness periods the number of events kept by the completeness table (up to the factor exp(1e-5 * magnitude range)) and their mean magnitude (up to 1e-5 * range^2 / 4).", "quantifier": "all catalogues with a kept event, completeness tables starting before the end of the catalogue, bin widths, time steps and reference magnitudes", "why_tests_cant": "A test compares with printed values; the balance must hold for every input on which the iteration stops.", "anchors": ["mtoolkit/scientific/recurrence.py::recurrence_analysis", "mtoolkit/scientific/recurrence.py::weichert", "mtoolkit/scientific/recurrence.py::weichert_prep"]}
{"id": "C121", "title": "The maximum likelihood recurrence uses every completeness year exactly once", "statement": "With a completeness table computed by Stepp's test, the result of the maximum likelihood algorithm (b-value, rate and their errors) is the average, weighted by the numbers of complete events, of the results for the rows of each completeness year alone.", "quantifier": "all catalogues, settings of Stepp's test with positive steps, bin widths and reference magnitudes", "why_tests_cant": "The loop advances by the number of rows of a year, which is right only for tables sorted by year; the tables of the tests are.", "anchors": ["mtoolkit/scientific/recurrence.py::b_maxlike_time", "mtoolkit/scientific/completeness.py::stepp_analysis"]}
{"id": "C122", "title": "Groups of events far apart are declustered independently", "statement": "If no event of a region is in the distance window of an event outside it, nor the reverse, then declustering the catalogue of the region alone gives its events the same flags and the same grouping into clusters as declustering the whole catalogue.", "quantifier": "For all catalogues without tied magnitudes, all regions of it, all three windows and all parameters of Gardner-Knopoff and Afteran.", "why_tests_cant": "A test declusters one catalogue and compares flags; independence compares the runs on a catalogue and on every part of it.", "anchors": ["mtoolkit/scientific/declustering.py::gardner_knopoff_decluster", "mtoolkit/scientific/declustering.py::afteran_decluster"]}
{"id": "C123", "title": "The order of the rows of the completeness table does not matter", "statement": "The events kept by the completeness filter and the parameters of both recurrence algorithms are the same for every order of the rows of the completeness table.", "quantifier": "For all catalogues, all completeness tables, all orders of their rows, all settings.", "why_tests_cant": "A test uses one table in one order; the statement compares the runs for all orders of all tables.", "anchors": ["mtoolkit/scientific/completeness.py::selected_eq_flag_vector", "mtoolkit/scientific/recurrence.py::b_maxlike_time", "mtoolkit/scientific/recurrence.py::weichert_prep"]}
{"id": "C124", "title": "The cumulative moment estimate is not below the largest earthquake", "statement": "The maximum magnitude estimated by cumulative_moment is at least as large as every magnitude of the catalogue.", "quantifier": "For all catalogues with integer years whose yearly moments are not all the same.", "why_tests_cant": "A test compares one estimate with one number; the statement is about the largest event of every catalogue.", "anchors": ["mtoolkit/scientific/maximum_magnitude.py::cumulative_moment"]}
{"id": "C125", "title": "The completeness table of Stepp's test suits the maximum likelihood recurrence", "statement": "If stepp_analysis returns a completeness table, b_maxlike_time computes a b-value and a rate for the same catalogue and this table.", "quantifier": "For all catalogues and settings.", "why_tests_cant": "The two functions are tested apart, with fixed tables; whether every table of the one is usable by the other is a statement about all catalogues.", "anchors": ["mtoolkit/scientific/completeness.py::stepp_analysis", "mtoolkit/scientific/recurrence.py::b_maxlike_time"]}
{"id": "C126", "title": "Larger declustering windows remove no fewer earthquakes", "statement": "An earthquake removed by gardner_knopoff_decluster with some windows and foreshock fraction is also removed with windows and a foreshock fraction that are not smaller.", "quantifier": "For all catalogues, window functions and foreshock fractions.", "why_tests_cant": "A comparison of two runs over all pairs of settings; tests run one setting.", "anchors": ["mtoolkit/scientific/declustering.py::gardner_knopoff_decluster"]}
{"id": "C127", "title": "A maximum observed magnitude can be given to the Kijko estimator", "statement": "If max_observed is the largest event of the catalogue and its uncertainty, the estimate of kijko_nonparametric_gauss is the one without max_observed. With any max_observed the uncertainties of the catalogue do not matter, the uncertainty of the estimate combines the given one and the distance of the estimate from the given maximum, the given uncertainty does not change the estimated magnitude, and the iteration ends.", "quantifier": "For all catalogues, settings and given maxima.", "why_tests_cant": "No test passes max_observed.", "anchors": ["mtoolkit/scientific/maximum_magnitude.py::kijko_nonparametric_gauss"]}
{"id": "C128", "title": "The Kijko estimator gives a result for every catalogue", "statement": "kijko_nonparametric_gauss returns a magnitude and an uncertainty, and raises no exception, exactly if the catalogue has at least one event.", "quantifier": "For all catalogues with an uncertainty for every event, numbers of events and iterations, two or more sample points and tolerances from 0 up to 1E8.", "why_tests_cant": "A test shows a result for one catalogue.", "anchors": ["mtoolkit/scientific/maximum_magnitude.py::kijko_nonparametric_gauss", "mtoolkit/scientific/maximum_magnitude.py::h_smooth", "mtoolkit/scientific/maximum_magnitude.py::kijko_npg_intfunc_simps", "mtoolkit/scientific/maximum_magnitude.py::exp_spaced_points"]}
{"id": "C129", "title": "The Kijko estimate is not below a given maximum observed magnitude", "statement": "If max_observed is given and is not below the magnitudes of the catalogue, the estimated maximum magnitude is not below it.", "quantifier": "For all catalogues, settings and given maxima.", "why_tests_cant": "No test passes max_observed, and the statement is about all of them.", "anchors": ["mtoolkit/scientific/maximum_magnitude.py::kijko_nonparametric_gauss"]}
{"id": "C130", "title": "A flag vector of another length than the catalogue is refused", "statement": "selected_eq_flag_vector raises an exception if the vector of declustering flags has not as many entries as the catalogue has events.", "quantifier": "For all catalogues, tables and flag vectors of another length.", "why_tests_cant": "Tests use matching vectors; the statement is about all pairs of lengths.", "anchors": ["mtoolkit/scientific/completeness.py::selected_eq_flag_vector"]}
{"id": "C131", "title": "Only seven columns of the catalogue influence a run", "statement": "Two runs of the same configuration on catalogue files whose delivered entries agree in year, month, day, longitude, latitude, Mw and sigmaMw raise the same exception or none, compute the same sources, completeness table and flags, and write the same result file; agency, time of day, depth, error ellipse and the other magnitudes play no role.", "quantifier": "every configuration whose files are different files, every pair of catalogue files whose entries agree in the seven columns, other files equal", "why_tests_cant": "Compares pairs of runs over all configurations and all catalogues.", "anchors": ["mtoolkit/jobs.py::create_catalog_matrix", "mtoolkit/jobs.py::read_eq_catalog", "mtoolkit/jobs.py::store_preprocessed_catalog", "mtoolkit/workflow.py::start"]}
{"id": "C132", "title": "The maximum magnitude does not depend on the completeness and recurrence analyses", "statement": "Two runs that end without exception and agree in the catalogue, the source model, the declustering jobs and settings, and the maximum magnitude jobs and settings, give every source the same maximum magnitude and uncertainty, whatever is configured for the completeness analysis (also a retrieved table), the recurrence, and the stored files.", "quantifier": "every pair of configurations and file systems that agree in the named parts", "why_tests_cant": "Compares pairs of whole runs over all configurations and catalogues.", "anchors": ["mtoolkit/jobs.py::maximum_magnitude", "mtoolkit/jobs.py::recurrence", "mtoolkit/jobs.py::stepp", "mtoolkit/workflow.py::start"]}
{"id": "C133", "title": "The recurrence does not depend on the maximum magnitude analysis", "statement": "Two runs that end without exception and differ only in the maximum magnitude analysis (its settings, whether, where and how often it is run for each source, the random numbers) give every source the same a, b, minimum magnitude and uncertainties, the same completeness table and flags, and write the same files apart from the result.", "quantifier": "every pair of configurations that agree in everything else", "why_tests_cant": "Compares pairs of whole runs over all configurations and catalogues.", "anchors": ["mtoolkit/jobs.py::maximum_magnitude", "mtoolkit/jobs.py::recurrence", "mtoolkit/workflow.py::start"]}
{"id": "C134", "title": "The window types give the published windows", "statement": "The distance and time windows computed for a magnitude are those of the literature the class refers to (Van Stiphout et al. 2010: kilometres and days), the days being converted to years of 365 days.", "quantifier": "every window type and magnitude", "why_tests_cant": "Two window types switch formula at a magnitude; tests sample three magnitudes and take their expected values from the code.", "anchors": ["mtoolkit/scientific/declustering.py::GardnerKnopoffWindow.calc", "mtoolkit/scientific/declustering.py::GruenthalWindow.calc", "mtoolkit/scientific/declustering.py::UhrhammerWindow.calc"]}
{"id": "C135", "title": "Every command line is understood, answered or refused", "statement": "A command line is either refused as a usage error (status 2), or ends the program with status 0 and then an argument asks for help or version, or is understood; then the configuration file is (the end of) an argument, details are shown only if an argument asks for them, and a command line that is not empty has asked for something. The parser itself fails only if an argument ends with an equals sign.", "quantifier": "every command line", "why_tests_cant": "All lists of texts: abbreviations, joined options, values after equals signs.", "anchors": ["mtoolkit/console.py::build_cmd_parser", "mtoolkit/console.py::cmd_line"]}
{"id": "C136", "title": "The uncertainty of the magnitudes matters for the maximum magnitude only", "statement": "Two runs of a configuration without MaximumMagnitude on catalogue files whose events differ only in the uncertainty of the moment magnitude end alike: same exception or none, same clusters, flags, completeness table and sources, same result document. The declustering functions give the same clusters and flags and main shocks that differ in the uncertainty only.", "quantifier": "every configuration without MaximumMagnitude, every pair of such catalogues", "why_tests_cant": "Relation between all pairs of runs.", "anchors": ["mtoolkit/scientific/declustering.py::gardner_knopoff_decluster", "mtoolkit/scientific/declustering.py::afteran_decluster", "mtoolkit/jobs.py::create_catalog_matrix", "mtoolkit/jobs.py::stepp", "mtoolkit/jobs.py::recurrence", "main.py::__main__"]}
{"id": "C137", "title": "A run from a valid source model writes a valid one", "statement": "A run whose source model document conforms to the NRML schema, in its elements, attributes, value ranges and unique identifiers, and that ends without exception writes a document that conforms to it as well, exactly if no b value in it is negative.", "quantifier": "every run with a configured source model that ends without exception", "why_tests_cant": "All documents, configurations and catalogues; validity of a written file can only be tested for given runs.", "anchors": ["nrml/reader.py::_parse_area_source", "nrml/writer.py::AreaSourceWriter.serialize", "mtoolkit/jobs.py::read_source_model"]}
{"id": "C138", "title": "How the analyses end is known for every input", "statement": "For every catalogue, completeness table and setting it is known whether an analysis returns, which exception it raises, or that it does not end: stepp_analysis (ValueError for no events, a zero step or a magnitude step of the wrong sign; IndexError for a time step that is negative or longer than the catalogue), recurrence_analysis with Weichert (ValueError for no events or a step that is not positive, IndexError for an empty table or magnitudes in one bin), b_maxlike_time (UnboundLocalError, ValueError, AttributeError, IndexError), maximum_magnitude_analysis (Kijko: ValueError, UnboundLocalError, IndexError, no end for a negative tolerance; cumulative moment: ValueError only without events) and both declusterings (IndexError for a month outside the table, KeyError for an unknown window; Afteran may also raise IndexError when the Gruenthal distance window of an event is not a number).", "quantifier": "For all catalogues, tables, settings, windows and random numbers.", "why_tests_cant": "Every combination of settings and catalogue has to be considered; a test observes one failure.", "anchors": ["mtoolkit/scientific/completeness.py::stepp_analysis", "mtoolkit/scientific/recurrence.py::recurrence_analysis", "mtoolkit/scientific/recurrence.py::b_maxlike_time", "mtoolkit/scientific/recurrence.py::weichert_prep", "mtoolkit/scientific/maximum_magnitude.py::maximum_magnitude_analysis", "mtoolkit/scientific/declustering.py::gardner_knopoff_decluster", "mtoolkit/scientific/declustering.py::afteran_decluster"]}
{"id": "C139", "title": "A source with an unusable boundary stops the run", "statement": "If the source model of a run with processing contains a source whose boundary is no polygon or no valid one, the run raises an exception (RuntimeError for an invalid polygon, ValueError for no polygon, when the turn of that source comes) and the result file stays as it was.", "quantifier": "For all source models, catalogues, configurations and positions of the source.", "why_tests_cant": "Test runs use valid polygons; the failure has to be independent of the other sources and jobs.", "anchors": ["mtoolkit/catalog_filter.py::SourceModelCatalogFilter", "mtoolkit/catalog_filter.py::_check_polygon", "mtoolkit/workflow.py::Workflow"]}
{"id": "C140", "title": "A number is read from a text exactly when the text is a decimal literal", "statement": "Apart from nan, inf and infinity, the texts accepted as numbers (catalogue fields, source model values) are exactly the decimal literals: optional white space, sign, digits with an optional point and an optional exponent; the value read is the value of the literal. Every printed number is such a literal, within a relative error of 5e-12 (5e-6 in the completeness table file) of the number printed.", "quantifier": "For all texts and all rational numbers.", "why_tests_cant": "There are infinitely many texts; tests try a few well-formed ones.", "anchors": ["mtoolkit/eqcatalog.py::EqEntryValidator", "nrml/reader.py::NRMLReader", "mtoolkit/workflow.py::Workflow"]}
{"id": "C141", "title": "The result file holds the results of the analyses of each source", "statement": "After a successful run with processing the result file lists the sources of the source model in order; each source has the a- and b-value, the minimum magnitude and the maximum magnitude which the configured analyses return for the events of the working catalogue inside its boundary and for the completeness table at the end of the preprocessing, and is otherwise unchanged.", "quantifier": "For all catalogues, source models and configurations whose processing jobs are Recurrence and MaximumMagnitude.", "why_tests_cant": "The claim covers the composition of all jobs and writers over all inputs; tests check each job alone.", "anchors": ["mtoolkit/workflow.py::Workflow", "mtoolkit/workflow.py::Context", "mtoolkit/catalog_filter.py::SourceModelCatalogFilter", "nrml/writer.py::NRMLWriter"]}
{"id": "C142", "title": "Every earthquake enters the maximum likelihood b-value", "statement": "With the default completeness table (first year and smallest magnitude of the catalogue) the b-value of the maximum likelihood algorithm is the maximum likelihood estimate from all earthquakes of the catalogue.", "quantifier": "For all catalogues and positive magnitude intervals.", "why_tests_cant": "Tests use catalogues whose smallest magnitude is the lower end of a bin, where no bin is dropped.", "anchors": ["mtoolkit/scientific/recurrence.py::b_maxlike_time", "mtoolkit/scientific/recurrence.py::b_max_likelihood", "mtoolkit/scientific/recurrence.py::recurrence_table"]}
{"id": "C143", "title": "Accepted earthquakes have ordinary numbers", "statement": "In every earthquake the catalogue reader delivers, longitude, latitude, depth and magnitude are ordinary numbers: no infinities and no NaN.", "quantifier": "For all rows of the catalogue file, with float() of Python reading the texts nan, inf and infinity too.", "why_tests_cant": "The texts float() accepts beyond decimal literals do not occur in test catalogues; a comparison with NaN is false, so that a range check written the other way round accepts it.", "anchors": ["mtoolkit/eqcatalog.py::EqEntryReader.read", "mtoolkit/eqcatalog.py::EqEntryReader.convert_values", "mtoolkit/eqcatalog.py::EqEntryReader.check_positive_value", "mtoolkit/scientific/recurrence.py::b_maxlike_time"]}
{"id": "C144", "title": "The maximum likelihood recurrence gives numbers", "statement": "With the default completeness table (first year and smallest magnitude of the catalogue) the maximum likelihood algorithm, when it returns, returns an ordinary b-value and rate, the ones of exact arithmetic, and neither an infinity nor NaN.", "quantifier": "For all catalogues of ordinary numbers and magnitude intervals not below 2e-5.", "why_tests_cant": "numpy turns 0/0 into NaN with a mere warning; test catalogues have events well above the completeness magnitude.", "anchors": ["mtoolkit/scientific/recurrence.py::b_maxlike_time", "mtoolkit/scientific/recurrence.py::b_max_likelihood"]}
{"id": "C145", "title": "A run is the composition of its analyses", "statement": "For configurations that name only the documented jobs (GardnerKnopoff, Afteran, Stepp; Recurrence, MaximumMagnitude), in any order and number, a run ends without exception and leaves certain files if and only if these files come from the composition of the analyses: catalogue and sources are read; the declusterings and the completeness analysis follow in the configured order (or the completeness table is read from its file); the selected events and the table are stored; each source is analysed with its own events; the sources are written. Nothing else is written, and the files are determined by the inputs.", "quantifier": "for all configurations with these jobs, files, library behaviours and random streams, with any number type", "why_tests_cant": "the end-to-end behaviour over all combinations of jobs, files and sources cannot be enumerated by runs", "anchors": ["mtoolkit/workflow.py::start", "mtoolkit/workflow.py::build", "mtoolkit/jobs.py::gardner_knopoff", "mtoolkit/jobs.py::afteran", "mtoolkit/jobs.py::stepp", "mtoolkit/jobs.py::create_selected_eq_vector", "mtoolkit/jobs.py::store_preprocessed_catalog", "mtoolkit/jobs.py::store_completeness_table", "mtoolkit/jobs.py::retrieve_completeness_table", "mtoolkit/jobs.py::recurrence", "mtoolkit/jobs.py::maximum_magnitude"]}
{"id": "C146", "title": "Catalogue files are read line by line and cell by cell", "statement": "A csv text whose lines are cells separated by commas, each cell written as it is, between double quotes with its quotes doubled, or with its beginning between double quotes and the rest as it is, is read as these rows and cells, whatever mixture of LF and CR LF ends the lines and whether or not the last line is ended; a line without characters is no row; a quotation still open at the end of the file is taken to end there. No cell with a NUL or more than 131072 characters is delivered.", "quantifier": "for all texts, cells and line ends", "why_tests_cant": "files made by other programs quote and end lines in every possible way", "anchors": ["mtoolkit/eqcatalog.py::EqEntryReader.read_eq_catalog", "mtoolkit/eqcatalog.py::EqEntryReader.read"]}
{"id": "C147", "title": "No line of the catalogue is silently lost", "statement": "A catalogue that is loaded has one entry for each line after the header that is not blank.", "quantifier": "for all files", "why_tests_cant": "a single stray quote in a long catalogue is not something a unit test contains", "anchors": ["mtoolkit/eqcatalog.py::EqEntryReader.read_eq_catalog", "mtoolkit/eqcatalog.py::EqEntryReader.read"]}
{"id": "C148", "title": "A catalogue file cut off in the middle of a row is refused", "statement": "If a catalogue file ends in the middle of a row (interrupted copy), or any of its lines has too few or too many columns, it is not loaded.", "quantifier": "for all files and all places where they may be cut", "why_tests_cant": "every place of every file", "anchors": ["mtoolkit/eqcatalog.py::EqEntryReader.read_eq_catalog", "mtoolkit/eqcatalog.py::EqEntryReader.read"]}
{"id": "C149", "title": "The magnitude range of the written sources is not empty", "statement": "In the written source model the minimum magnitude of every analysed source (the configured reference magnitude) is not larger than its maximum magnitude, provided the source has an event at or above the reference magnitude.", "quantifier": "for all configurations, catalogues and sources", "why_tests_cant": "the relation between two separately computed numbers over all catalogues", "anchors": ["mtoolkit/jobs.py::recurrence", "mtoolkit/jobs.py::maximum_magnitude", "mtoolkit/source_model.py::default_area_source", "mtoolkit/scientific/maximum_magnitude.py::maximum_magnitude_analysis"]}
{"id": "C150", "title": "The checks of optional columns repair, those of compulsory columns only judge", "statement": "The check method of a compulsory column leaves the entry unchanged. The check method of any other column is always passed and changes at most its own column (for ErrorStrike also the two axes of the error ellipse). Applying a check a second time gives the same answer and changes nothing more.", "quantifier": "every column, every entry (also values of any type in any column)", "why_tests_cant": "Each check is a small table of cases over values of several types; tests try a few values of one type.", "anchors": ["mtoolkit/eqcatalog.py::EqEntryReader"]}
{"id": "C151", "title": "The compulsory columns are the documented ones", "statement": "An acceptable row stays acceptable when one of its cells is left blank, exactly if the user documentation does not mark the column as compulsory.", "quantifier": "every acceptable row, every column, every dictionary order", "why_tests_cant": "A test leaves out a cell of one row; the claim compares the documentation with all rows and columns.", "anchors": ["mtoolkit/eqcatalog.py::EqEntryReader"]}
{"id": "C152", "title": "The eventID identifies an earthquake", "statement": "In a loaded catalogue no two earthquakes have the same eventID, which the documentation calls unique.", "quantifier": "every catalogue file", "why_tests_cant": "A test that loads well-formed files cannot show that no file with repeated identifiers is accepted.", "anchors": ["mtoolkit/eqcatalog.py::EqEntryReader"]}
{"id": "C153", "title": "Only two-column files are taken as completeness tables", "statement": "Retrieving a completeness table from a file gives one row per line of the file, with the two numbers of the line; a file that is not a list of lines of two numbers is refused. In particular a file without values raises IOError, and a file whose lines have different numbers of values raises ValueError.", "quantifier": "every file content, with any line ends, blank lines and comments", "why_tests_cant": "All files.", "anchors": ["mtoolkit/jobs.py::retrieve_completeness_table"]}
{"id": "C154", "title": "The Weichert recurrence gives numbers", "statement": "Whenever the Weichert algorithm returns, the b-value, the rate and their uncertainties are ordinary numbers, the ones of exact arithmetic; it never returns an infinity or NaN.", "quantifier": "For all catalogues of ordinary numbers, positive bin sizes, and completeness tables whose years are not later than the year after the last earthquake, computed with the infinities and NaN of floating point arithmetic.", "why_tests_cant": "numpy turns 0/0 into NaN with a mere warning; whether the division can be reached depends on the catalogue and the table.", "anchors": ["mtoolkit/scientific/recurrence.py::recurrence_analysis", "mtoolkit/scientific/recurrence.py::weichert_prep", "mtoolkit/scientific/recurrence.py::weichert"]}
{"id": "C155", "title": "The Kijko estimate is a number", "statement": "Whenever kijko_nonparametric_gauss returns, the maximum magnitude and its uncertainty are ordinary numbers.", "quantifier": "For all catalogues of ordinary numbers with at least one event, numbers of events >= 1, sample sizes >= 2 and non-negative tolerances, computed with the infinities and NaN of floating point arithmetic.", "why_tests_cant": "numpy turns 0/0 into NaN with a mere warning; the result depends on whether the rounded smoothing factor of the catalogue is zero.", "anchors": ["mtoolkit/scientific/maximum_magnitude.py::kijko_nonparametric_gauss", "mtoolkit/scientific/maximum_magnitude.py::h_smooth", "mtoolkit/scientific/maximum_magnitude.py::gauss_cdf_hastings", "mtoolkit/scientific/maximum_magnitude.py::kijko_npg_intfunc_simps", "mtoolkit/scientific/maximum_magnitude.py::exp_spaced_points"]}
{"id": "C156", "title": "The cumulative moment estimate is a number", "statement": "Whenever cum_mo_uncertainty returns, the maximum magnitude and its uncertainty are ordinary numbers.", "quantifier": "For all catalogues of ordinary numbers, numbers of bootstrap samples >= 1 and random numbers, computed with the infinities and NaN of floating point arithmetic.", "why_tests_cant": "numpy turns log10(0) into minus infinity and 0/0 into NaN with a mere warning; all catalogues and samples have to be considered.", "anchors": ["mtoolkit/scientific/maximum_magnitude.py::cumulative_moment", "mtoolkit/scientific/maximum_magnitude.py::cum_mo_uncertainty"]}
{"id": "C157", "title": "The completeness table of Stepp holds ordinary numbers", "statement": "For every catalogue of ordinary numbers and every magnitude step, time step, sensitivity and increment lock, stepp_analysis computed with infinities and NaN gives the same table, or raises the same exception, as in exact arithmetic; in particular the table never holds NaN or an infinity, although the analysis takes logarithms of rates that may be zero and divides by differences of logarithms.", "quantifier": "For all catalogues and settings.", "why_tests_cant": "A test sees one catalogue; whether some catalogue (empty bins, one event, a long time step) produces NaN needs all of them.", "anchors": ["mtoolkit/scientific/completeness.py::stepp_analysis"]}
{"id": "C158", "title": "The declusterings give the same with infinities and NaN", "statement": "For every catalogue of ordinary numbers, gardner_knopoff_decluster and afteran_decluster computed with infinities and NaN give the flags, clusters and main shocks of exact arithmetic: distances and windows are numbers. (Gruenthal windows of magnitudes below about -0.036 are NaN: such events gather no cluster in Gardner-Knopoff and can make Afteran raise IndexError.)", "quantifier": "For all catalogues, windows and parameters.", "why_tests_cant": "Only a proof covers all positions (antipodes, poles) and magnitudes; a test with ordinary magnitudes never sees the NaN window.", "anchors": ["mtoolkit/scientific/declustering.py::gardner_knopoff_decluster", "mtoolkit/scientific/declustering.py::afteran_decluster", "mtoolkit/scientific/declustering.py::GruenthalWindow", "mtoolkit/scientific/declustering.py::GardnerKnopoffWindow", "mtoolkit/scientific/declustering.py::UhrhammerWindow", "mtoolkit/scientific/catalogue_utilities.py::haversine"]}
{"id": "C159", "title": "The occurrence rates of a fault are ordinary numbers", "statement": "For every constructed fault and region, every slip, aseismic coefficient, b-value, magnitude range, bin width, moment scaling and maximum magnitude (given, or estimated by the library), get_mfd computed with infinities and NaN gives the rates, or raises the exception, of exact arithmetic. (With a b-value of zero all rates are NaN.)", "quantifier": "For all faults, regions and parameters that are ordinary numbers.", "why_tests_cant": "Tests use a few faults; whether any valid geometry (vertical dip, meridians, poles) or parameter leads to a division by zero needs all of them.", "anchors": ["mtoolkit/scientific/fault_calculator.py::get_mfd", "mtoolkit/geo/simple_fault.py::SimpleFaultGeo"]}
{"id": "C160", "title": "Validated faults and regions hold no NaN", "statement": "Whatever numbers are passed, infinities and NaN included, a SimpleFaultGeo that is constructed holds ordinary numbers only, and a TectonicRegion that is constructed has weights that are ordinary numbers and positive values; NaN is refused with ValueError. (An infinite lower depth, shear modulus or displacement length ratio is accepted.)", "quantifier": "For all arguments of the two constructors.", "why_tests_cant": "Tests try some invalid values; that no combination of NaN and infinities passes all comparisons needs a proof.", "anchors": ["mtoolkit/geo/simple_fault.py::SimpleFaultGeo", "mtoolkit/geo/tectonic_region.py::TectonicRegion"]}
{"id": "C161", "title": "The rate of earthquakes is positive", "statement": "Whenever the Weichert algorithm returns, the number of earthquakes per year and its uncertainty are positive.", "quantifier": "For all catalogues and zones of a catalogue, positive bin sizes, completeness tables (the default one, those of Stepp and those read from a file), computed with the infinities and NaN of floating point arithmetic.", "why_tests_cant": "The tests use one catalogue that reaches beyond every completeness year; a zone of a source model may not.", "anchors": ["mtoolkit/scientific/recurrence.py::recurrence_analysis", "mtoolkit/scientific/recurrence.py::weichert_prep", "mtoolkit/scientific/recurrence.py::weichert"]}
{"id": "C162", "title": "A Weichert run writes ordinary numbers and positive rates", "statement": "If the catalogue file has ordinary years and magnitudes and a run with the Weichert recurrence ends without exception, every source of the result file has ordinary a and b values, a positive rate, and the reference magnitude of the configuration as its minimum magnitude: with the default completeness table, whatever declusterings ran before; with the table of Stepp, if there is no source model.", "quantifier": "For all catalogues, source models, declusterings in any order, Weichert settings with positive bin and time windows, and library behaviours, computed with the infinities and NaN of floating point arithmetic.", "why_tests_cant": "A run over one catalogue cannot show that no catalogue lets NaN, infinity or a non-positive rate reach the source model that is written.", "anchors": ["mtoolkit/workflow.py::start", "mtoolkit/workflow.py::build", "mtoolkit/jobs.py::recurrence", "mtoolkit/jobs.py::stepp", "mtoolkit/scientific/recurrence.py::recurrence_analysis", "mtoolkit/scientific/recurrence.py::weichert_prep", "mtoolkit/scientific/recurrence.py::weichert"]}
{"id": "C163", "title": "The recurrence table counts every earthquake, in double precision", "statement": "Computed in IEEE double precision, the numbers of earthquakes in the rows of the recurrence table add up to the number of earthquakes of the catalogue.", "quantifier": "For all catalogues and all positive bin widths in double precision.", "why_tests_cant": "Rounding decides at the ends of the bins; a test sees the rounding of a few numbers.", "anchors": ["mtoolkit/scientific/recurrence.py::recurrence_table"]}
{"id": "C164", "title": "An earthquake is counted in the bin of its magnitude, in double precision", "statement": "Computed in IEEE double precision, row i of the recurrence table counts the earthquakes whose magnitude, as written with two decimals, lies in the half-open interval from the lowest magnitude (rounded down to one decimal) plus i bin widths to the same plus i+1 bin widths.", "quantifier": "For all catalogues with magnitudes of at most two decimals, all bin widths.", "why_tests_cant": "Rounding decides at the ends of the bins; a test sees the rounding of a few numbers.", "anchors": ["mtoolkit/scientific/recurrence.py::recurrence_table"]}
{"id": "C165", "title": "Possible values are delivered as they stand in the file", "statement": "In every accepted entry the agency, the whole numbers, the time error, the place, the depth and the magnitudes are those of the cells; so are the uncertainties that are not negative, the seconds from 0 up to (not including) 60, and an error ellipse with a strike between 0 and 360 and axes that are not negative and in order.", "quantifier": "For all data rows that are accepted and all dictionary orders.", "why_tests_cant": "All values of all columns and all dictionary orders.", "anchors": ["mtoolkit/eqcatalog.py::EqEntryReader.read", "mtoolkit/eqcatalog.py::EqEntryReader.check_second"]}
{"id": "C166", "title": "Weights that add up to one are accepted, in double precision", "statement": "Computed in IEEE double precision, a TectonicRegion whose weights, as written, add up to one (and whose other values are in order) is accepted.", "quantifier": "For all dictionaries of scaling relations, shear moduli and displacement length ratios with any number of weights.", "why_tests_cant": "The check compares a rounded sum with 1.0; a test sees the rounding of a few lists of weights.", "anchors": ["mtoolkit/geo/tectonic_region.py::TectonicRegion"]}
{"id": "C167", "title": "The weights of an accepted region add up to one, in double precision", "statement": "Computed in IEEE double precision, the non-negative weights of a TectonicRegion that was accepted add up to one, exactly computed, up to 2^-52 for every weight but the first.", "quantifier": "For all regions and any number of weights.", "why_tests_cant": "The check compares a rounded sum with 1.0; how far the exact sum may be from one needs all lists of weights.", "anchors": ["mtoolkit/geo/tectonic_region.py::TectonicRegion"]}
{"id": "C168", "title": "There is one occurrence rate per magnitude bin, in double precision", "statement": "Computed in IEEE double precision, get_mfd with a given maximum magnitude returns as many rates as it takes bins of the given width to get from the minimum to the maximum magnitude.", "quantifier": "For all magnitude ranges between -100 and 100, bin widths between 0.001 and 100, faults and regions.", "why_tests_cant": "Rounding decides whether numpy.arange includes one more edge; a test sees the rounding of a few ranges.", "anchors": ["mtoolkit/scientific/fault_calculator.py::get_mfd"]}
{"id": "C169", "title": "Decimal year orders dates, in double precision", "statement": "Computed in IEEE double precision, the integer part of decimal_year is the year, and of two calendar dates the later one has the larger decimal year, except for 29 February and 1 March of the same year, which have the same decimal year (as in exact arithmetic, C48).", "quantifier": "For all calendar dates of the years -10000 to 10000.", "why_tests_cant": "Two neighbouring dates differ by a rounded quotient; only a proof covers all years.", "anchors": ["mtoolkit/scientific/catalogue_utilities.py::decimal_year"]}
{"id": "C170", "title": "The completeness table has one row per magnitude bin, in double precision", "statement": "Computed in IEEE double precision, the table of Stepp has as many rows as it takes bins to get from the smallest magnitude (rounded down to one decimal) to the largest (rounded up), and row i has the smallest magnitude plus i bin widths up to 1e-9.", "quantifier": "For all catalogues with magnitudes of at most two decimals between -10 and 10, bin widths between 0.001 and 10, time steps, sensitivities and increment locks, and all functions of the C library.", "why_tests_cant": "Rounding decides whether numpy.arange includes one more edge; a test sees the rounding of a few ranges.", "anchors": ["mtoolkit/scientific/completeness.py::stepp_analysis"]}
{"id": "C171", "title": "Stepp counts every earthquake of a time window once, in double precision", "statement": "Computed in IEEE double precision, the numbers of earthquakes of the magnitude bins of a time window add up to the number of earthquakes of the window, whenever there is a bin.", "quantifier": "For all catalogues with magnitudes between -10 and 10, all positive bin widths and all time steps.", "why_tests_cant": "Rounding decides at the ends of the bins; a test sees the rounding of a few numbers.", "anchors": ["mtoolkit/scientific/completeness.py::stepp_analysis"]}
{"id": "C172", "title": "An earthquake at the completeness magnitude is not removed, in double precision", "statement": "Computed in IEEE double precision, an earthquake that was not flagged before is removed by the table of Stepp exactly if its magnitude is smaller than the smallest magnitude plus i bin widths for a row i with a later year.", "quantifier": "For all catalogues with magnitudes of at most two decimals between -10 and 10, bin widths between 0.001 and 10 and settings.", "why_tests_cant": "Rounding decides for earthquakes whose magnitude is the one of a row; a test sees the rounding of a few numbers.", "anchors": ["mtoolkit/scientific/completeness.py::stepp_analysis", "mtoolkit/scientific/completeness.py::selected_eq_flag_vector"]}
{"id": "C173", "title": "Weichert preparation accounts for the earthquakes, in double precision", "statement": "Computed in IEEE double precision, the numbers of earthquakes handed to Weichert add up to at most the number of earthquakes, and to exactly that number if no row of the completeness table is later than the first earthquake and above the smallest magnitude.", "quantifier": "For all catalogues with years between -10000 and 10000 and magnitudes between -10 and 10, all tables, and bin widths and time steps between 0.01 and 1000.", "why_tests_cant": "Rounding decides at the ends of the cells; a test sees the rounding of a few numbers.", "anchors": ["mtoolkit/scientific/recurrence.py::weichert_prep"]}
{"id": "C174", "title": "Weichert bins hold the earthquakes of their magnitudes, in double precision", "statement": "Computed in IEEE double precision, if the completeness table removes nothing, bin i handed to Weichert counts the earthquakes whose magnitude (of one decimal) lies between the smallest magnitude plus i bin widths and the same plus i+1 bin widths.", "quantifier": "For all catalogues with magnitudes of one decimal between -10 and 10, bin widths between 0.01 and 10.", "why_tests_cant": "Rounding decides at the ends of the bins, where with bins of 0.1 every magnitude of one decimal is.", "anchors": ["mtoolkit/scientific/recurrence.py::weichert_prep"]}
{"id": "C175", "title": "The Julian date keeps the order and the distance of earthquakes, in double precision", "statement": "Computed in IEEE double precision, greg2julian differs by less than 0.1 ms from the exact value of its formula; from 1902 to 2099 a later earthquake has a larger Julian date, down to a millisecond.", "quantifier": "For all calendar dates with years up to 10000, whole hours and minutes, and seconds from 0 to 59.", "why_tests_cant": "Julian dates are large numbers with small fractions; which digits of the seconds survive cannot be seen from a few dates.", "anchors": ["mtoolkit/scientific/catalogue_utilities.py::greg2julian"]}
{"id": "C176", "title": "The maximum likelihood recurrence selects the complete earthquakes, in double precision", "statement": "With a completeness table of stepp_analysis the maximum likelihood algorithm computed in IEEE double precision selects, for each completeness year, exactly the earthquakes since that year with a magnitude of at least the completeness magnitude of exact arithmetic.", "quantifier": "For all catalogues with magnitudes of at most two decimals and all bin widths of at most two decimals.", "why_tests_cant": "The magnitudes of the table are sums of rounded steps; whether the tolerance of the selection covers the rounding has to be known for all rows of all tables.", "anchors": ["mtoolkit/scientific/recurrence.py::b_maxlike_time", "mtoolkit/scientific/completeness.py::stepp_analysis"]}
{"id": "C177", "title": "Every selected earthquake enters the maximum likelihood b-value, in double precision", "statement": "For a completeness magnitude with one decimal (exact up to rounding) the recurrence table of the selected earthquakes computed in IEEE double precision counts each of them once, and no bin of it is left out of the b-value.", "quantifier": "For all catalogues with magnitudes of at most two decimals and all bin widths from 0.001 to 10.", "why_tests_cant": "A bin is left out if its centre is below the completeness magnitude, a comparison of two rounded numbers.", "anchors": ["mtoolkit/scientific/recurrence.py::b_maxlike_time", "mtoolkit/scientific/recurrence.py::b_max_likelihood", "mtoolkit/scientific/recurrence.py::recurrence_table"]}
{"id": "C178", "title": "The observation periods of the Weichert bins are those of exact arithmetic, in double precision", "statement": "Computed in IEEE double precision, the observation period of each magnitude bin of weichert_prep ends with the last year of the catalogue and begins with the completeness year of the last row whose magnitude is not above the lower end of the bin (the last row if there is none), as in exact arithmetic.", "quantifier": "For all catalogues with magnitudes of one decimal, completeness tables and bin widths of at most two decimals; for all tables of stepp_analysis with such bin widths.", "why_tests_cant": "The edges of the bins and the rows of the table are rounded differently; whether the tolerance of the comparison covers this has to be known for all of them.", "anchors": ["mtoolkit/scientific/recurrence.py::weichert_prep", "mtoolkit/scientific/completeness.py::stepp_analysis"]}
{"id": "C179", "title": "A stored completeness table has the magnitudes of exact arithmetic, in double precision", "statement": "Computed in IEEE double precision, a table of stepp_analysis that is stored and retrieved has the same rows in the same order; the magnitude of each row is the double nearest to the magnitude of exact arithmetic (smallest magnitude plus row number times bin width), and years that are whole numbers are unchanged.", "quantifier": "For all catalogues with magnitudes of at most two decimals, all bin widths of at most two decimals, all tables with at least one row.", "why_tests_cant": "The computed magnitudes differ from the decimal ones in the last bits, in a way that depends on the row; whether five decimals repair all of them has to be known for all rows.", "anchors": ["mtoolkit/jobs.py::store_completeness_table", "mtoolkit/jobs.py::retrieve_completeness_table", "mtoolkit/scientific/completeness.py::stepp_analysis"]}
{"id": "C180", "title": "Storing the completeness table changes no result, in double precision", "statement": "Computed in IEEE double precision, the recurrence analysis of a source gives the same with the completeness table computed by stepp_analysis as with that table stored and retrieved: the same earthquakes selected for each completeness year (maximum likelihood), the same observation periods and numbers of earthquakes in the bins (Weichert).", "quantifier": "For all catalogues with magnitudes of at most two decimals (one decimal for Weichert), bin widths of at most two decimals, tables with whole-number years.", "why_tests_cant": "The two tables differ in the last bits of some magnitudes; whether this matters depends on the edges of the bins.", "anchors": ["mtoolkit/jobs.py::store_completeness_table", "mtoolkit/jobs.py::retrieve_completeness_table", "mtoolkit/jobs.py::recurrence", "mtoolkit/scientific/recurrence.py::weichert_prep", "mtoolkit/scientific/recurrence.py::b_maxlike_time"]}
{"id": "C181", "title": "Storing a catalogue loses no number in double precision", "statement": "Every double x satisfies float(repr(x)) == x, so a catalogue read by EqEntryReader, written by EqEntryWriter (which writes floats with repr) and read again has exactly the same values in all cells.", "quantifier": "For all doubles; for all catalogues with normal doubles and consistent error ellipses.", "why_tests_cant": "The shortest text of a number depends on all its bits; that it is read back as the same number has to hold for all of them.", "anchors": ["mtoolkit/eqcatalog.py::EqEntryWriter.write_rows", "mtoolkit/eqcatalog.py::EqEntryReader.read_eq_catalog", "mtoolkit/jobs.py::store_preprocessed_catalog"]}
{"id": "C182", "title": "Source model numbers of at most twelve digits survive writing and reading in double precision", "statement": "Area sources whose numbers are the doubles nearest to decimal numbers of at most twelve significant digits are the same after they were written as NRML document and read again; for any doubles, writing what was read gives a document with the same content.", "quantifier": "For all lists of area sources that share the header, with non-empty lists and texts.", "why_tests_cant": "The writer prints twelve digits, the reader rounds to a double; that the two roundings undo each other has to hold for all numbers.", "anchors": ["nrml/writer.py::AreaSourceWriter.serialize", "nrml/reader.py::NRMLReader.read"]}
{"id": "C183", "title": "The cumulative moment attributes every earthquake to its year, in double precision", "statement": "In double precision the cumulative moment has one value for every calendar year from the first to the last of the catalogue; the value of a year is the sum of the moments of exactly the earthquakes of that year, and every earthquake is in exactly one year.", "quantifier": "For all non-empty catalogues with whole years between -10^6 and 10^6, all magnitudes and all mathematical libraries.", "why_tests_cant": "The years are generated by a floating point arange and compared with a tolerance; a lost or doubled year would show up for some first and last year only.", "anchors": ["mtoolkit/scientific/maximum_magnitude.py::cumulative_moment"]}
{"id": "C184", "title": "Declustering does not depend on row order, is final and keeps no dependent pair, in double precision", "statement": "In double precision the flags of both declusterings follow the rows when the rows are reordered; Gardner-Knopoff removes nothing from its own result and keeps no earthquake lying in the computed windows of a larger kept one.", "quantifier": "For all catalogues (with distinct magnitudes for the first statement, with a smallest magnitude that occurs once for the second), window types, options and mathematical libraries.", "why_tests_cant": "Holds whatever the rounding of distances, times and windows is; tests see one platform and one catalogue.", "anchors": ["mtoolkit/scientific/declustering.py::gardner_knopoff_decluster", "mtoolkit/scientific/declustering.py::afteran_decluster"]}
{"id": "C185", "title": "Afteran links earthquakes by steps of at most the time window, in double precision", "statement": "In double precision the kept event of an Afteran cluster is a largest one, and every removed event is reached from it by steps between events of the cluster which go to the same or a later (earlier) day and are not longer than the time window in days.", "quantifier": "For all catalogues of calendar dates between the years -10000 and 10000, all windows of whole days up to 10^6 and all mathematical libraries.", "why_tests_cant": "Times are rounded decimal years relative to another event; that no step of one day too much passes has to be shown for all of them.", "anchors": ["mtoolkit/scientific/declustering.py::afteran_decluster", "mtoolkit/scientific/declustering.py::_find_aftershocks", "mtoolkit/scientific/declustering.py::_find_foreshocks"]}
{"id": "C186", "title": "Afteran finds the clusters of exact arithmetic, in double precision", "statement": "In double precision Afteran ends with the clusters and flags of exact arithmetic.", "quantifier": "For all catalogues of calendar dates, documented window types and windows of whole days, provided the computed distance windows hold the same events as the exact ones.", "why_tests_cant": "An earthquake exactly at the end of the time window is decided by the rounding of decimal years; whether that matters depends on the dates.", "anchors": ["mtoolkit/scientific/declustering.py::afteran_decluster", "mtoolkit/scientific/declustering.py::_find_aftershocks", "mtoolkit/scientific/declustering.py::_find_foreshocks", "mtoolkit/scientific/catalogue_utilities.py::decimal_year"]}
{"id": "C187", "title": "Gardner-Knopoff finds the clusters of exact arithmetic and keeps the largest earthquake, in double precision", "statement": "In double precision Gardner-Knopoff ends with the clusters and flags of exact arithmetic if the computed windows hold the same events as the exact ones; the computed distance does not depend on the direction; the largest earthquake is kept if no other one has larger computed windows.", "quantifier": "For all catalogues of calendar dates, documented window types and foreshock proportions; for the distance all mathematical libraries with an odd sine.", "why_tests_cant": "The order in time of two earthquakes decides between foreshock and aftershock and is taken from rounded decimal years.", "anchors": ["mtoolkit/scientific/declustering.py::gardner_knopoff_decluster", "mtoolkit/scientific/catalogue_utilities.py::haversine", "mtoolkit/scientific/catalogue_utilities.py::decimal_year"]}
{"id": "C188", "title": "The maximum likelihood b-value is accurate and within its bounds, in double precision", "statement": "Computed in IEEE double precision, b_max_likelihood succeeds if a bin at or above the completeness magnitude holds an earthquake; its b-value is positive, differs from the value log10(e) / (mean - least magnitude + half the bin width) of exact arithmetic by at most a millionth and exceeds 2 log10(e) / width by at most a millionth.", "quantifier": "For all tables of at most 10000 bins of width 0.01 to 16, magnitudes up to 128 and at most 2^53 earthquakes, all completeness magnitudes.", "why_tests_cant": "The mean is a quotient of two long sums of rounded products from which a number of the same size is subtracted; how much accuracy is left has to be bounded for all tables.", "anchors": ["mtoolkit/scientific/recurrence.py::b_max_likelihood"]}
{"id": "C189", "title": "The averages over the completeness periods are averages, in double precision", "statement": "Computed in IEEE double precision, each of the four results of b_maxlike_time agrees with the average of the values of the periods, weighted with their numbers of earthquakes, to a relative 1e-9, and is between the least and the greatest of the values up to this accuracy.", "quantifier": "For all catalogues of up to 10^10 earthquakes and all tables of up to 10^5 rows for which the function succeeds and the values of the periods are not negative.", "why_tests_cant": "The rounded weights do not add up to one; the effect on the averages has to be bounded for all catalogues.", "anchors": ["mtoolkit/scientific/recurrence.py::b_maxlike_time"]}
{"id": "C190", "title": "The maximum likelihood method succeeds with a b-value within its bounds, in double precision", "statement": "Computed in IEEE double precision, b_maxlike_time succeeds on a table whose completeness magnitudes have one decimal and of which each row has an earthquake that is complete for it; the b-value is positive and exceeds 2 log10(e) / width by at most two millionths.", "quantifier": "For all catalogues with magnitudes of at most two decimals, bin widths from 0.01 to 10, all such tables and reference magnitudes.", "why_tests_cant": "It is a statement about all catalogues that combines the selection, the binning, the mean and the average, all with rounding errors.", "anchors": ["mtoolkit/scientific/recurrence.py::b_maxlike_time", "mtoolkit/scientific/recurrence.py::b_max_likelihood", "mtoolkit/scientific/recurrence.py::recurrence_table"]}
{"id": "C191", "title": "Occurrence rates are positive and add up, in double precision", "statement": "Computed in IEEE double precision, all occurrence rates of get_mfd are positive; each is the rounded difference of the computed numbers of earthquakes above the edges of its bin, which decrease strictly, and the rates of adjacent bins add up to the difference for their range to a relative 2^-53.", "quantifier": "For all faults, regions and slips, bin widths from 0.01 to 100, magnitudes up to 100, b-values from 0.1 to 0.01 below the slope of the moment scaling; for all elementary functions with an exponential that grows by 1e-4 if its argument grows by 1e-3.", "why_tests_cant": "Differences of nearby rounded numbers can vanish or be negative; that they do not has to be known for all bins of all faults.", "anchors": ["mtoolkit/scientific/fault_calculator.py::get_mfd"]}
{"id": "C192", "title": "The reader decides about the numbers in the file, in double precision", "statement": "Reading a catalogue with IEEE doubles rejects exactly the rows that are invalid as they stand in the file, with the same error, blanks the same optional cells, and delivers the numbers of the file, each rounded once.", "quantifier": "For all files, rows, dictionary orders and years. Refuted for numbers of any length; holds for files whose numbers have at most nine decimals and are not above 100000. A valid row is never rejected, whatever the length of its numbers.", "why_tests_cant": "The bounds of the checks (180, 90, 0, 59, 360, order of the axes) are compared with rounded numbers; no finite set of texts shows that rounding never moves one across a bound.", "anchors": ["mtoolkit/eqcatalog.py::EqEntryReader.read", "mtoolkit/eqcatalog.py::EqEntryReader.convert_values"]}
{"id": "C193", "title": "Every row of a catalogue file is counted in the recurrence table, in double precision", "statement": "If the magnitudes in an accepted catalogue file have at most two decimals, the catalogue matrix computed with IEEE doubles holds the year and magnitude of each row of the file, in order, and the recurrence table computed from it counts each row of the file exactly once, in the bin of the decimal in the file unless that lies within 0.00000001 of an edge.", "quantifier": "For all accepted files with at least one row and magnitudes from -10 to 10 with at most two decimals, all dictionary orders, and all bins from 0.001 to 10.", "why_tests_cant": "It joins the csv parser, the conversions and checks of the reader, the matrix and the binning, each of which rounds or drops something for some inputs; tests exercise the parts on their own.", "anchors": ["mtoolkit/eqcatalog.py::EqEntryReader.read", "mtoolkit/jobs.py::create_catalog_matrix", "mtoolkit/scientific/recurrence.py::recurrence_table"]}
{"id": "C194", "title": "Rounding errors of the completeness table do not reach the b-value, in double precision", "statement": "Computed with IEEE doubles, b_maxlike_time gives exactly the same b-value and exactly the same error of it (or the same exception) for two completeness tables with the same years whose magnitudes are the same tenths up to rounding; in particular for the table computed by Stepp and the same table stored with five decimals and retrieved.", "quantifier": "For all catalogues with magnitudes of at most two decimals between -10 and 10, all bins from 0.001 to 10, all tables with magnitudes up to 10; for the stored table: magnitude bins of a multiple of 0.1 and whole years.", "why_tests_cant": "Equality to the last bit between two runs over all catalogues; a table entry of 3.3000000000000003 in place of 3.3 changes the Weichert method (C180), so it is not evident that it does not change this one.", "anchors": ["mtoolkit/scientific/recurrence.py::b_maxlike_time", "mtoolkit/scientific/recurrence.py::b_max_likelihood"]}
{"id": "C195", "title": "A file with one-decimal magnitudes leads to a positive b-value in double precision", "statement": "Take an accepted catalogue file with at least one row whose magnitudes have at most one decimal. In double precision, create_catalog_matrix and create_default_values succeed, and when the whole catalogue is passed to the recurrence job with the maximum likelihood algorithm and bins of width 0.01 to 10, that job succeeds as well and writes to the current source a b-value that is positive and exceeds 2 log10(e) / width by at most two millionths of it.", "quantifier": "all files accepted by the reader, all orders in which the reader visits the columns, all bin widths from 0.01 to 10, all reference magnitudes, all source models and current sources", "why_tests_cant": "Tests run a few catalogues; a rounded edge, an empty completeness period or a zero divisor would show only for special magnitudes, and whether every file with one-decimal magnitudes gets through cannot be sampled.", "anchors": ["mtoolkit/jobs.py::create_catalog_matrix", "mtoolkit/jobs.py::create_default_values", "mtoolkit/jobs.py::recurrence", "mtoolkit/scientific/recurrence.py::b_maxlike_time", "mtoolkit/scientific/recurrence.py::recurrence_table", "mtoolkit/eqcatalog.py::EqEntryReader.read"]}
{"id": "C196", "title": "The width of a fault is positive and accurate in double precision", "statement": "For every fault accepted by SimpleFaultGeo, get_width computed with IEEE doubles is positive, not less than the computed distance of the two depths, and equal to the distance of the depths over the sine of the dip up to two roundings; it does not decrease when the fault is extended upwards or downwards or dips less steeply; for a vertical fault it is the distance of the depths. The length of a trace of two points does not depend on its direction.", "quantifier": "all accepted traces, depths and dips, and all mathematical libraries whose sine is positive, at most 1 and not decreasing between 0 and 90 degrees (odd, for the last statement)", "why_tests_cant": "The values form a continuum and rounding may break order or sign at isolated depths and dips that no test would pick.", "anchors": ["mtoolkit/geo/simple_fault.py::get_width", "mtoolkit/geo/simple_fault.py::get_length"]}
{"id": "C197", "title": "A catalogue and a completeness table that were stored lead to the same b-value in double precision", "statement": "Take a job that removed flagged events (declustering), computed a completeness table with Stepp's test with the increment lock, and stored both the catalogue and the table in files. A later job that reads the two files and estimates the recurrence with the maximum likelihood algorithm obtains, with IEEE doubles, exactly the b-value and the uncertainty (or the same error) that the first job obtains from the data in memory.", "quantifier": "all catalogue files accepted by the reader whose magnitudes have at most two decimals and whose numbers are ordinary, all flag vectors, magnitude bins of the test that are multiples of 0.1 up to 10, all positive time windows and all sensitivities that lead to a table with whole years, all bin widths of the recurrence from 0.001 to 10, all reference magnitudes, later years and dictionary orders", "why_tests_cant": "Files keep only some digits of the table; whether an earthquake on the edge of a completeness period or bin changes sides after storage depends on single last bits of the edges.", "anchors": ["mtoolkit/jobs.py::store_preprocessed_catalog", "mtoolkit/jobs.py::store_completeness_table", "mtoolkit/jobs.py::create_selected_eq_vector", "mtoolkit/scientific/recurrence.py::b_maxlike_time", "mtoolkit/scientific/completeness.py::stepp_analysis"]}
{"id": "C198", "title": "A run writes a maximum magnitude that is a number", "statement": "Whenever the program ends without exception with the maximum magnitude method of Kijko, the maximum magnitude of every source of the result file is an ordinary number.", "quantifier": "For all files of earthquakes with ordinary magnitudes and uncertainties, all configurations with at least one earthquake, at least two sample points and tolerances between 0 and 1E8, computed with the infinities and NaN of floating point arithmetic.", "why_tests_cant": "Zones with few or equal earthquakes make numpy compute 0/0 with a mere warning; the program goes on and writes the result file, so that the defect shows only in the numbers of certain files.", "anchors": ["main.py::main", "mtoolkit/scientific/maximum_magnitude.py::maximum_magnitude_analysis", "mtoolkit/scientific/maximum_magnitude.py::kijko_nonparametric_gauss", "mtoolkit/jobs.py::maximum_magnitude"]}
{"id": "C199", "title": "Row order does not matter to the analyses in double precision", "statement": "Computed in double precision, Stepp's completeness table and the recurrence parameters (both algorithms) are the same for every order of the rows of the catalogue, exceptions included; so are the Kijko maximum magnitude and its uncertainty if the catalogue has more events than the configured number of largest earthquakes and its largest events have the same uncertainty.", "quantifier": "every catalogue of double precision numbers, every permutation of its rows and every mathematical library", "why_tests_cant": "All permutations of all catalogues; sums of floating point numbers depend on the order, so exact reasoning does not settle it.", "anchors": ["mtoolkit/scientific/completeness.py::stepp_analysis", "mtoolkit/scientific/recurrence.py::recurrence_analysis", "mtoolkit/scientific/recurrence.py::weichert_prep", "mtoolkit/scientific/recurrence.py::b_maxlike_time", "mtoolkit/scientific/maximum_magnitude.py::kijko_nonparametric_gauss"]}
{"id": "C200", "title": "The completeness years are those of exact arithmetic in double precision", "statement": "With whole years and a whole time step dt, every year of Stepp's table computed in double precision is exactly the last year of the catalogue minus one of the durations dt, 2dt, ... that are at most the length of the catalogue plus one year; the test succeeds if dt is one of them and otherwise gives no row; with the increment lock the years do not increase and the magnitudes increase along the table; storing the table and retrieving it changes neither the maximum likelihood b-value nor its uncertainty.", "quantifier": "every catalogue of whole years up to a million (magnitudes of at most two decimals up to 10, for the last part up to 9.9), every whole time step up to a million, every magnitude window between 0.001 and 10 (for the last part a multiple of 0.1), every mathematical library", "why_tests_cant": "All catalogues and windows; rounding errors in the time axis would shift the years.", "anchors": ["mtoolkit/scientific/completeness.py::stepp_analysis", "mtoolkit/scientific/recurrence.py::b_maxlike_time"]}
{"id": "C201", "title": "The sources do not influence each other", "statement": "Given the configuration, the catalogue and the completeness table file, what a run writes for a source depends neither on the other sources of the source model nor on their order or number: one function of the source gives the results of all runs that end without exception, and the sources are processed exactly when each one of them alone is.", "quantifier": "every configuration of documented job names whose maximum magnitudes are computed without random numbers (not Cumulative_Moment), every catalogue, all source models", "why_tests_cant": "All pairs of source models; the jobs share one context that is overwritten from source to source.", "anchors": ["mtoolkit/workflow.py::Workflow", "mtoolkit/workflow.py::Context", "mtoolkit/catalog_filter.py::SourceModelCatalogFilter", "mtoolkit/jobs.py::recurrence", "mtoolkit/jobs.py::maximum_magnitude"]}
{"id": "C202", "title": "A seed makes the cumulative moment analysis reproducible", "statement": "cum_mo_uncertainty called with a seed gives the same maximum magnitude and uncertainty whenever it is called again with the same catalogue, number of samples and seed, whatever random numbers have been drawn in between, and it draws none from the generator shared by the process; its samples are made from the first numbers of the generator of that seed, one number per event and sample, none of them twice.", "quantifier": "every catalogue, number of samples and integer seed, every random number generator", "why_tests_cant": "All streams of random numbers and all states of the shared generator; a test sees one stream.", "anchors": ["mtoolkit/scientific/maximum_magnitude.py::cum_mo_uncertainty", "mtoolkit/scientific/maximum_magnitude.py::cumulative_moment"]}
{"id": "C203", "title": "A run in two parts gives the b-values of the run in one in double precision", "statement": "If a run that removes dependent events (or not), determines the completeness table with Stepp's test, stores the preprocessed catalogue and the table and estimates the recurrence by maximum likelihood ends without exception, then a second run that starts from the two stored files without preprocessing ends without exception too and writes the same sources with exactly the same b-values; only the a-values may differ.", "quantifier": "every catalogue file of ordinary numbers (no underflow or overflow) with magnitudes of at most two decimals between -9.9 and 9.9, every source model, every combination of one or no declustering method with Stepp's test with the increment lock (magnitude step a multiple of 0.1 up to 10, time step a whole number up to a million), every magnitude window of the recurrence between 0.001 and 10, every mathematical library", "why_tests_cant": "All files and configurations; the numbers pass through two text files, of which one keeps five decimals only, and are compared with the edges of bins afterwards.", "anchors": ["mtoolkit/workflow.py::Workflow", "mtoolkit/workflow.py::PipeLine", "mtoolkit/jobs.py::store_preprocessed_catalog", "mtoolkit/jobs.py::store_completeness_table", "mtoolkit/jobs.py::retrieve_completeness_table", "mtoolkit/jobs.py::recurrence", "mtoolkit/scientific/recurrence.py::b_maxlike_time"]}
{"id": "C204", "title": "The order of the rows of the catalogue file does not matter to a run", "statement": "If a run on one catalogue file ends without exception, the run with the same configuration on a file with the same rows in another order ends without exception too and writes the same result document and the same completeness table; all other files but the preprocessed catalogue agree as well.", "quantifier": "every catalogue file (with distinct magnitudes if declustering is configured), every reordering of its rows, every source model, preprocessing by one or no declustering method followed by any number of completeness analyses, processing by recurrence (both algorithms), in exact arithmetic and in double precision with every mathematical library", "why_tests_cant": "All files, reorderings and configurations; the declustering works with sorted copies and positions of the rows.", "anchors": ["mtoolkit/workflow.py::Workflow", "mtoolkit/workflow.py::PipeLine", "mtoolkit/jobs.py::create_catalog_matrix", "mtoolkit/jobs.py::gardner_knopoff", "mtoolkit/jobs.py::afteran", "mtoolkit/jobs.py::stepp", "mtoolkit/jobs.py::recurrence", "mtoolkit/eqcatalog.py::EqEntryReader"]}
{"id": "C205", "title": "Only the earthquakes inside a source matter to it", "statement": "If two catalogue files have the same earthquakes inside each source of the source model, in the same order, a run without preprocessing on the second file ends without exception whenever the run on the first file does, and writes the same result document and leaves all other files but the catalogue the same: earthquakes outside all sources change nothing.", "quantifier": "every pair of readable catalogue files with the same earthquakes inside the sources, every source model, geometry library, processing configuration and mathematical library, in exact arithmetic and in double precision", "why_tests_cant": "All catalogues and source models; the default completeness table is computed from the whole catalogue, so that tests with a table file never meet the dependence on earthquakes outside.", "anchors": ["mtoolkit/workflow.py::Workflow", "mtoolkit/jobs.py::create_default_values", "mtoolkit/jobs.py::recurrence", "mtoolkit/jobs.py::maximum_magnitude", "mtoolkit/catalog_filter.py::SourceModelCatalogFilter"]}
{"id": "C206", "title": "What is computed for a source depends on its boundary only", "statement": "If two source model files have the same boundaries in the same order, and differ in anything else (identifiers, names, tectonic regions, given Gutenberg-Richter numbers, strike, dip, rake, depths), then a run with the second one ends without exception whenever the run with the first one does and the second model can be written; the computed a-values, b-values, minimum and maximum magnitudes are the same in both result documents, everything that is not computed is copied from the respective source model, and all files but the source model and the result agree.", "quantifier": "every configuration of documented job names, every catalogue, every pair of source models with the same boundaries, every state of the random generator, exact and double arithmetic", "why_tests_cant": "All pairs of source models; the analyses work on objects that carry all the other attributes along.", "anchors": ["mtoolkit/workflow.py::Workflow", "mtoolkit/jobs.py::read_source_model", "mtoolkit/jobs.py::recurrence", "mtoolkit/jobs.py::maximum_magnitude", "mtoolkit/catalog_filter.py::SourceModelCatalogFilter"]}
{"id": "C207", "title": "The text of a written source model is well-formed and is read back", "statement": "Whenever AreaSourceWriter.serialize accepts a list of sources, the text it writes to the file is well-formed XML, whatever characters the identifiers, names, regions and types contain (quotation marks, brackets, ampersands, tabs, line breaks), and parsing that text gives the written elements, attributes and texts back, up to indentation and to empty texts becoming None. Hence sources that share the header, with non-empty lists and texts, come back from the text in order with their numbers at printed precision; two source models that differ at that precision are never written as the same text; and a run that reads the text written by another starts from the sources the other ended with.", "quantifier": "all lists of sources, all texts the writer accepts, all number texts with the laws of Python, all runs", "why_tests_cant": "a test compares one file with no special characters; the escaping rules for texts and for attribute values differ and matter for every character", "anchors": ["nrml/writer.py::serialize", "nrml/reader.py::read"]}
{"id": "C208", "title": "A number written to the configuration file as Python prints it is the number the program computes with", "statement": "For every finite double x, the scalar repr(x) in the configuration file is loaded by yaml.load as the float x, and for every integer z the scalar str(z) as the int z. In particular the tolerance 1e-05 makes kijko_nonparametric_gauss iterate until that tolerance and return a maximum magnitude.", "quantifier": "for all finite doubles, all integers, all scalars without a decimal point and all magnitude and uncertainty arrays", "why_tests_cant": "The sample configurations write their tolerance as 1.0E-5 and the tests pass Python numbers; whether every other spelling survives depends on the regular expressions of the YAML resolver for all of the doubles, and the text 1e-05 is compared with a number without an error in Python 2.", "anchors": ["mtoolkit/workflow.py::Context", "mtoolkit/scientific/maximum_magnitude.py::kijko_nonparametric_gauss"]}
{"id": "C209", "title": "Comments, blank lines and indentation of the configuration file change nothing", "statement": "For every mapping of keys to plain scalars, to lists of names and to sections, every text that writes it in the way of config.yml (key: value lines, - item lines, sections in braces with one entry per line) is loaded as exactly that mapping, whatever comments, blank lines, spaces at the ends of lines and indentation of the entries of sections are added.", "quantifier": "for all mappings with plain texts, all comments, all numbers of blank lines and spaces", "why_tests_cant": "Tests load a handful of fixed files; the claim is about all layouts of all configurations.", "anchors": ["mtoolkit/workflow.py::Context"]}
{"id": "C210", "title": "The order of the entries of the configuration file does not matter and unknown entries are ignored", "statement": "Two configuration files with the same entries in different orders, sections included, give the same configuration; entries with keys the program does not know have no effect; of two entries with the same key the later one counts.", "quantifier": "for all mappings with distinct keys and all their permutations; for all unknown keys and values", "why_tests_cant": "The test files list the keys in one order each; permutations and unknown keys are never tried.", "anchors": ["mtoolkit/workflow.py::Context", "mtoolkit/workflow.py::Workflow"]}
{"id": "C211", "title": "The configuration written to the file is the configuration of the run", "statement": "For every configuration (file names, names of jobs and algorithms, numbers, flags; keys may be missing or without value), the file with its entries gives exactly that configuration: the catalogue that is opened is the file that is named.", "quantifier": "for all configurations, orders of the entries and layouts", "why_tests_cant": "The YAML rules for comments and for typing scalars apply to file names too; a name such as data #2.csv or 2012 is legal, and no test uses one.", "anchors": ["mtoolkit/workflow.py::Context", "mtoolkit/jobs.py::read_eq_catalog"]}
{"id": "C212", "title": "Digits in the configuration file are the decimal number they spell", "statement": "Every row of digits written as a value in the configuration file (the number of samples, of iterations, a time window) is used as the decimal number it spells; signs and underscores between digits are as in YAML.", "quantifier": "for all texts of digits", "why_tests_cant": "YAML 1.1, which PyYAML follows, reads integers by several rules; no configuration of the tests has leading zeros.", "anchors": ["mtoolkit/workflow.py::Context", "mtoolkit/scientific/maximum_magnitude.py::kijko_nonparametric_gauss"]}
{"id": "C213", "title": "Comments in a source model file change nothing", "statement": "A source model file with comments put anywhere between its tags is read as the same sources as the file without the comments.", "quantifier": "for all files, all comments and all positions", "why_tests_cant": "lxml gives the text of an element only up to its first comment, which no test file has.", "anchors": ["nrml/reader.py::NRMLReader"]}
{"id": "C214", "title": "The layout of a source model file does not matter", "statement": "Two source model files with the same elements, values of attributes and texts give the same sources, whatever quotation marks are around the values, whatever blanks and line breaks stand inside the tags, whichever XML declaration comes first and whether lines end as on Unix or as on Windows.", "quantifier": "for all files and layouts", "why_tests_cant": "The test files were all written by the same serialiser or typed in the same style.", "anchors": ["nrml/reader.py::NRMLReader"]}
{"id": "C215", "title": "A run depends on the configuration, not on how its file is typed", "statement": "The program started with -i on a configuration file whose names begin with a letter, underscore or slash and contain only letters, digits, inner spaces and _-+./ and whose numbers are written with a decimal point does what it does with that configuration, whatever the order of the entries, the comments, the blank lines and the indentation inside of sections. Two such files lead to the same messages, the same end and the same contents of all other files, provided that the configuration file is not itself an input of the run.", "quantifier": "for all such configurations and layouts, all other arguments, all file systems and external functions", "why_tests_cant": "It relates pairs of whole runs, from the command line to the result files; tests start jobs with dictionaries or with one fixed file.", "anchors": ["mtoolkit/console.py::cmd_line", "mtoolkit/workflow.py::Context"]}
{"id": "C216", "title": "Characters of a source model file may be written as references", "statement": "Two source model files with the same elements, values of attributes and texts give the same sources, whether a character is typed as it is, by its name (&lt;, &amp;, ...) or by its decimal or hexadecimal number with any leading zeros and capitals; line breaks and tabulators typed inside the value of an attribute count as blanks.", "quantifier": "for all files, all characters that XML allows and all ways of writing them", "why_tests_cant": "The test files contain hardly any references; names of sources with accents or ampersands written by other tools come as references of every form.", "anchors": ["nrml/reader.py::NRMLReader"]}
{"id": "C217", "title": "A decimal number in the configuration is read as that number", "statement": "A number typed with a decimal point in the configuration file (optional sign, digits before and after the point of which one side may be missing, optional exponent) is read as the double nearest to it.", "quantifier": "for all decimal numbers and all spellings", "why_tests_cant": "Whether a scalar is a number is decided by a regular expression of YAML 1.1 that differs from what Python calls a number; sampling the usual spellings shows no difference.", "anchors": ["mtoolkit/workflow.py::Context"]}
{"id": "C218", "title": "A run depends on its input files only through what they say", "statement": "Two runs of the same configuration whose catalogue files give the same events, whose source model files give the same sources and whose completeness table files give the same rows end alike: the same exception or none, the same results, and the same contents in every file written. It follows that it does not matter how the files are typed: whether the cells of the catalogue stand between quotes, how lines end, empty lines, the last line end; whether the source model has an XML declaration, how its characters are written, the blanks and quotation marks in its tags and its line ends; comments, blank lines, blanks at the ends of lines and line ends in the completeness table.", "quantifier": "all configurations, files, outcomes and positions in the random stream", "why_tests_cant": "the statement is about all pairs of files and all configurations at once; a test runs the program on a few files, all typed in the same way", "anchors": ["mtoolkit/jobs.py::read_eq_catalog", "mtoolkit/jobs.py::read_source_model", "mtoolkit/jobs.py::retrieve_completeness_table", "mtoolkit/eqcatalog.py::EqEntryReader"]}
{"id": "C219", "title": "How the numbers of the catalogue and of the completeness table are typed does not matter", "statement": "Two runs whose catalogues have the same rows up to the way numbers are typed end alike, with the same results and the same contents of the files written: a whole number may have blanks around it, a plus sign and leading zeros; any other number may be typed with or without decimal point, further zeros or an exponent; texts that are no numbers are all treated alike. The same holds for the values of the completeness table. A text is read as a whole number exactly when it consists of blanks, an optional sign, at least one digit and blanks, and it is read as that number.", "quantifier": "all configurations, files and outcomes, in double precision", "why_tests_cant": "there are infinitely many ways to type a number and to combine them in a file; tests use one", "anchors": ["mtoolkit/eqcatalog.py::EqEntryReader", "mtoolkit/jobs.py::read_eq_catalog", "mtoolkit/jobs.py::retrieve_completeness_table"]}
{"id": "C220", "title": "Typing all four files of a run in another way leads to the same run", "statement": "Start the program with a configuration file, a catalogue, a source model and a completeness table, and once more with all four files typed in another way: the entries of the configuration in another order and layout and with comments, cells of the catalogue with or without quotes and numbers written otherwise (1980 or +1980, 4.5 or 45e-1), tags of the source model with other blanks, quotation marks, references and line ends, values of the table with other separators, comments and number formats. Both runs print the same messages and end in the same way, files that were equal before the runs are equal after them, and every file other than the log file has the same content after both runs or was left alone by both.", "quantifier": "all configurations, command lines with a configuration file, pairs of files typed in these ways, file systems, worlds, results of the mathematical library", "why_tests_cant": "the ways of typing four files combine without bound, and the claim is about pairs of whole runs", "anchors": ["main.py::__main__", "mtoolkit/console.py::cmd_line", "mtoolkit/workflow.py::Context", "mtoolkit/jobs.py::read_eq_catalog", "mtoolkit/jobs.py::retrieve_completeness_table", "mtoolkit/eqcatalog.py::EqEntryReader"]}
{"id": "C221", "title": "How the numbers of the source model are typed and how its elements are indented does not matter", "statement": "Two source model files with the same elements and attributes give the same sources, or the same exception, if the elements with one number hold the same number, the lists of coordinates, magnitudes, depths and rates hold the same numbers separated by any white space, and names and tectonic regions are the same; what stands before the first child of any other element does not matter. Two runs with such source models end alike, with the same results and the same contents of the files written. Both documents conform to the schema or neither does.", "quantifier": "all documents, configurations, files and outcomes, in double precision", "why_tests_cant": "there are infinitely many ways to type a number and to indent an element; tests use the files of the test suite", "anchors": ["nrml/reader.py::NRMLReader", "mtoolkit/jobs.py::read_source_model"]}
{"id": "C222", "title": "How the values of the configuration file are spelled does not matter", "statement": "The values of the configuration file may be spelled in other ways: decimals with other digits, underscores or a signed exponent (0.1 or 1.0e-1), whole numbers with a sign or in octal, hexadecimal or binary notation (100 or 0x64), truth values by any of the words for them (True or yes), missing values not at all or as null; a decimal parameter that is only computed with may be given as a whole number (5 or 5.0), which excludes the reference magnitude, since that is also written to the result. Each spelling is read as what it stands for, and two files with the same entries in such spellings, in any order and layout, give the same configuration and the same run.", "quantifier": "all configurations that can be written, spellings, orders and layouts of the file; all runs", "why_tests_cant": "there are infinitely many spellings of a number; tests use one file per workflow", "anchors": ["main.py::__main__", "mtoolkit/workflow.py::Context"]}
{"id": "C223", "title": "Every number can be given in the configuration file", "statement": "For every configuration, whatever its numbers, there is a file that is read as it: give each number as Python prints it and put .0 before the exponent of those that are printed without a decimal point (1.0e-05 for 1e-05, which is read as a text). The program started on this file, in any order, spelling and layout, does what it does with the configuration itself.", "quantifier": "all double precision numbers, all configurations whose names can be written, all runs", "why_tests_cant": "there are infinitely many numbers; tests use the few in the test files", "anchors": ["main.py::__main__", "mtoolkit/workflow.py::Context"]}
{"id": "C224", "title": "Further entries in the configuration file do not matter", "statement": "A configuration file may hold entries under keys that the program does not know, anywhere in the file and inside of its sections. The file gives the same configuration as without them, and the program started on it does the same, whatever the order, spelling and layout of the entries.", "quantifier": "all configurations, further entries, orders, spellings and layouts, all runs", "why_tests_cant": "there are infinitely many files with further entries; the files of the test suite have none", "anchors": ["main.py::__main__", "mtoolkit/workflow.py::Context"]}
