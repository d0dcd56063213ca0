# Formal model of oq-hazard-modeller: design

`/repo` is read as text; nothing of it is built or run.  The model is a shallow embedding in Lean 4: each Python function becomes one Lean
function that follows it branch by branch, with a comment naming the file and the lines.  Section 6 lists every property with the theorems that
state it; section 5 lists what the code does wrong, each with a proved counterexample.

## 1. Conventions of the model

* **Python version**: 2.7 (print statements, `reduce`, comparison of values of different types, `/` of integers only where the file imports
  `division`), numpy of 2012 (1.6).
* **Exceptions are values**: `Except PyErr α`.  Index errors, `TypeError`s from `float(None)`, broadcasting errors ... are explicit branches.
* **Numbers**: algorithms are written once over a *law-free* class `PyNum F` / `PyMath F` (operations and decidable comparisons, nothing assumed
  about them).  A theorem that uses only the class holds for IEEE doubles (NaN, rounding) as well as for reals.  Theorems that need algebra are
  proved at `ℝ` and say so ("in exact arithmetic"): they are about the code read with exact numbers.  There is an instance at `Float`, with which
  `Verif/Sanity` runs models on the numbers of the repository's own tests.
* **Arrays**: in declustering, arrays of length `n` are functions `Fin n → α` and boolean masks are pointwise; elsewhere arrays are lists.  Events of
  completeness and recurrence are pairs (year, magnitude); completeness tables are lists of such pairs.
* **Sorting**: `np.argsort(kind='heapsort')` may order ties in any way.  The declustering models take *any* permutation that sorts the key;
  theorems quantify over all of them.
* **Dictionary order**: Python 2 dictionaries iterate in an arbitrary order.  The catalogue reader takes the order as an argument; theorems quantify over
  all orders that enumerate the fields.  Refutations that need an order (C07, C13) use the one of CPython 2.7 on 64 bit.
* **Loops**: a `while` loop is a function with a step budget returning an `Option`; the theorems that a loop ends say that some budget suffices.
* **Number texts**: `str(float)` (`%.12g`), `%10.5f`, `float(text)` are modelled exactly in `Model/Format` over an ordered field.  The Workflow model takes number
  texts of catalogues as a parameter with the law that written numbers read back, restricted to the numbers that occur.
* **Outside world as parameters** (`Ext` in `Model/Workflow`): current year, file system as a map from paths to contents, the element tree of an XML document
  (parsing and schema validation are a function), polygon containment (shapely), sort permutations, a stream of random numbers.

## 2. Trusted base

* The Lean 4 kernel.  Axioms: every theorem named in MANIFEST.json depends on at most `propext`, `Classical.choice` and `Quot.sound`; AXIOMS.md lists the result of
  `#print axioms` for each of them.  There are no own axioms, no `sorry`/`admit`, no `native_decide`/`bv_decide`, no `implemented_by`, no `unsafe`.
* That the Lean definitions say what the Python says.  This is checked by reading only (the code is not run), and by `Verif/Sanity` and the `#guard`s in the models, which
  evaluate models at `Float` or `ℚ` on numbers from the repository's tests.
* That the specifications in `Verif/Spec` and in the theorem statements say what the English says.  To test this, wrong programs were made by editing the model and checked
  against the theorems: `seeded/LOG.jsonl`.

## 3. What is modelled

| Module | Code |
|---|---|
| `Py/Num`, `Py/Err`, `Py/Text` | numbers, exceptions, strings of Python |
| `Py/XNum` | numbers with infinities and NaN (comparisons and operations as in IEEE 754, exact otherwise, zero without sign); used by C73, C138, C143, C144 and C154-C162 |
| `Py/Double` | IEEE double precision: rationals with 53 significant bits, every operation rounded to nearest, ties to even (no overflow, underflow, infinities, NaN or sign of zero); the functions of the C library are arbitrary (class `Libm`); used by C163, C164, C166-C197, C199, C200, C203-C206, C208, C211, C217 |
| `Model/SpecialFloat` | `float(text)` with the texts of infinities and NaN |
| `Model/EqCatalog` | mtoolkit/eqcatalog.py: header check, row loop, conversions, all checks |
| `Model/Csv` | the csv reader and writer state machines (excel dialect, field limit 131072) used by eqcatalog.py |
| `Model/CatalogueUtilities` | mtoolkit/scientific/catalogue_utilities.py: `decimal_year`, `haversine`, `greg2julian`, leap years |
| `Model/Declustering` | mtoolkit/scientific/declustering.py: windows, Gardner-Knopoff, Afteran |
| `Model/Numpy` | `arange`, `histogram` bins, `min`, `max`, ... as used |
| `Model/Completeness` | mtoolkit/scientific/completeness.py: Stepp analysis, selection flags |
| `Model/Recurrence` | mtoolkit/scientific/recurrence.py: table, MLE, time-averaged MLE, Weichert preparation and iteration |
| `Model/MaximumMagnitude` | mtoolkit/scientific/maximum_magnitude.py: smoothing, Hastings function, Kijko, cumulative moment and bootstrap |
| `Model/Fault` | mtoolkit/geo/simple_fault.py, mtoolkit/geo/tectonic_region.py, mtoolkit/scientific/fault_calculator.py |
| `Model/SourceModel`, `Model/Nrml` | mtoolkit/source_model.py, nrml/reader.py, nrml/writer.py on element trees |
| `Model/Format`, `Model/Table` | Python number formatting; `np.savetxt`/`np.genfromtxt` of the completeness table |
| `Model/Workflow` | mtoolkit/jobs.py, mtoolkit/workflow.py, mtoolkit/catalog_filter.py, main.py: file system, shared context, pipelines, whole runs |
| `Model/Console` | mtoolkit/console.py and the `__main__` block of main.py: the argparse parser of Python 2.7 for the four options, the log file, the whole program |
| `Model/Distances` | mtoolkit/scientific/catalogue_utilities.py `haversine` on scalars and vectors, units and radius, broadcasting, as a matrix |
| `Model/Configuration` | the lookups in the configuration dictionary by mtoolkit/workflow.py, mtoolkit/jobs.py and main.py: keys missing, without value or given |
| `Model/MaxObserved` | mtoolkit/scientific/maximum_magnitude.py `kijko_nonparametric_gauss` with the argument `max_observed` |
| `Model/Repr` | `repr`, `str`, `%10.5f` and `float` of Python 2.7 on doubles (`repr`: the shortest decimal number that is read as the same double) |
| `Model/Sampler` | mtoolkit/scientific/maximum_magnitude.py `cum_mo_uncertainty` with the argument `seed` and the two generators of numpy (arbitrary streams) |
| `Model/XmlText` | the text layer below nrml/writer.py:61-64 and nrml/reader.py:71-72: the pretty-printing serialiser of lxml/libxml2 and a parser of elements, attributes, namespaces, references and comments, on characters (no encodings, CDATA sections, processing instructions or document types) |
| `Model/YamlScalar` | what yaml.load (mtoolkit/workflow.py:226) makes of a plain scalar: the implicit resolver and the constructors of PyYAML for null, bool, int and float; sexagesimal numbers, dates and infinities are recognised but not valued |
| `Model/YamlConfig` | yaml.load (mtoolkit/workflow.py:224-226) for the layout of config.yml and tests/data/*.yml on characters, and the configuration record made from the dictionary with the keys of mtoolkit/jobs.py and mtoolkit/workflow.py; a `reference_magnitude` given as a whole number is not modelled, since nrml/writer.py:237 would print it without a decimal point |
| `Model/TextProgram` | main.py:34-58 with mtoolkit/console.py:54-71 and mtoolkit/workflow.py:215-226 on the text of the configuration file (files outside of the part of YAML of `Model/YamlConfig` have no outcome) |
`Verif/Spec` holds the specifications, `Verif/Lemmas` helper lemmas, `Verif/Props` the property theorems with their examples, `Verif/Sanity` evaluations.

## 4. What is not modelled

* Logging (except expressions in log calls that can raise), the YAML parser except the typing of plain scalars in `Model/YamlScalar` and the layouts in `Model/YamlConfig` (elsewhere a configuration is a record; in `Model/Configuration` a dictionary with keys that may be missing, whose values have the documented types; in `Model/Console` loading is an arbitrary function from file contents to records), `argparse` beyond the options of console.py, the texts it prints, the lines written to `debug.log`, the XML tokenizer except the part in `Model/XmlText` (runs take the parser as a parameter; C207 instantiates it), XSD
  validation by lxml (the schema part that matters for C89 and C90 is a specification), shapely's polygon predicates, nhlib, plotting scripts, the `utils`/`qa` test code.
* Rounding errors of IEEE arithmetic in the theorems at `ℝ` (they are modelled, over `Dbl`, in C163, C164 and C166-C197, C199, C200, C203-C206, C208, C211, C217 only); `float(text)` is exact; NaN and infinities exist only in theorems over the law-free class and over `XNum` (C73, C138, C143, C144, C154-C162).  At `ℝ` a division by zero gives 0; the one place where this matters for termination is Weichert's iteration on bins without events, which returns at `ℝ` and never returns over `XNum` (`C63_nothing_complete`); with at least one event the two agree step by step (`C154_transfer`).  The other places where it matters: the maximum likelihood recurrence (C144), the estimator of Kijko with the smoothing factor zero (C155), the logarithm of a moment excess of zero and the standard deviation of one bootstrap sample (C156, C73), and the Gruenthal windows of magnitudes below about -0.036, where the square root of a negative number is 0 at `ℝ` and NaN in numpy (C158: the exact theorems about the declusterings describe the code for all other magnitudes).  Stepp's test gives the same over `XNum` as at `ℝ` for every input (C157).
* `np.histogram` and `np.arange` are modelled with exact bin edges `start + i * step`, as numpy computes them.

## 5. Where the code does not do what the property says

Each of these has a theorem ending in `_fails` (negation with a concrete witness) and `_partial` theorems for what holds.

* **C03** `check_day` tests only the upper bound for February: day 0 and negative days are accepted.
* **C07** the error strike is checked before the semi-axes in CPython's dictionary order, so an ellipse can lose one part and keep another.
* **C08** `float(None)`: an unreadable compulsory float raises `TypeError` rather than the validation error.
* **C09** the reported line is the number of rows read, wrong after blank lines and multi-line cells.
* **C13** reading a stored catalogue again can clear an inconsistent ellipse (consequence of C07).
* **C24** a source without events makes `Recurrence` and `Maximum_Magnitude` raise; the run ends and no result file is written.
* **C25** `read_source_model` sets `context.sm_definitions` only inside the loop over the sources; without any, `len(None)` in the log call raises `TypeError`.
* **C29** a row (year, magnitude) of the table deselects events *below* its magnitude: events of one bin are held against the year of the next bin, and incomplete events are kept.
* **C30** a second `GardnerKnopoff` leaves flags of the wrong length, the selection raises `ValueError`.
* **C31** the completeness table is stored with five decimals, so store-then-process can differ; also Weichert depends on the removed events.
* **C37, C39** Gardner-Knopoff: a later cluster takes the main event of an earlier one; a smaller foreshock removes the largest event.
* **C45, C46** Afteran: members lie only within twice the distance window; isolated events can be removed.
* **C47** the Gardner-Knopoff time window decreases at magnitude 6.5.
* **C50** `greg2julian` miscounts at four month ends around century years that are not leap years.
* **C54** Stepp with all magnitudes in one multiple of 0.1 has no bins and counts nothing.
* **C56** Stepp ignores a single exceedance at the first location.
* **C63** the Newton iteration of Weichert diverges on a catalogue of two events with a table of two rows; without a complete earthquake its first step is 0/0 and it goes on with NaN forever (`C63_nothing_complete`).
* **C65, C66** the Hastings function is 1 (not 0) more than five standard deviations below the mean, and its coefficients (0.115194 has the wrong sign) miss the published accuracy: the error exceeds 0.18 at 1.3 standard deviations and is at most 0.25 from five standard deviations below the mean on.
* **C68, C70** as a consequence Kijko's integral can be negative and the maximum magnitude below the observed one.
* **C71** `np.min([np.std, iqr / 1.34])` compares the function object `np.std`; the standard deviation is never used.
* **C74** unknown algorithm names are accepted: maximum magnitude 0, recurrence by MLE.
* **C83** empty names come back as `None`, empty number lists are written in a form the reader refuses.
* **C87** a bare file name as output path is refused (`os.path.dirname` is empty).
* **C89** incremental distributions raise `AttributeError`; only the first rate model is read.
* **C90** the default source (no name, no region) is written as a document that does not conform to the schema.
* **C92** the uncertainty of the Kijko estimate uses the first of the events with the largest magnitude, so it depends on the order of the rows.
* **C100** with `-d` the file `debug.log` is created before the missing configuration file is noticed.
* **C101** options without a configuration file end in an uncaught `TypeError` (`args.input_file[0]` of `None`).
* **C23** `Cumulative_Moment` draws the random numbers of all sources from one stream, so the result of a source depends on the sources before it.
* **C104** surplus latitudes of the second set are ignored, a single latitude of the first set is used for all its longitudes.
* **C106** the error of the maximum likelihood rate is `10 ** |(b + sigma_b) * mref - b * mc|` (recurrence.py): it depends on the origin of the magnitude scale, everything else does not.
* **C108** in the Weichert algorithm an event below the completeness table adds empty magnitude bins (recurrence.py `weichert_prep`), which enter the likelihood.
* **C110** main.py looks at the result path after the workflow has run: the preprocessed catalogue and the completeness table are written first.
* **C112** a missing `result_file` (main.py:57) or processing section is noticed after the preprocessing outputs are written.
* **C114** when the maximum magnitude is not a whole number of bins above the minimum, the last bin of `get_mfd` reaches above it: with bins of 0.1 from 4.0 to 7.01 and b = 1 the rates release more moment than the slip supplies.
* **C116** Afteran keeps an M5 of 1 January 2005 and an M4 five days later at the same place (window 12 days) if an M6 of 2000 is in the distance window: every search of the moving window starts from that M6 and ends there.
* **C117** after an M6 on day 1, an M5 on day 11 and an M4 on day 6 (window 12 days) the first Afteran run removes only the M5 (which moves the reference time behind the M4), a second run removes the M4.
* **C118** without the increment lock a bin in which no change of slope exceeds the sensitivity takes the duration of the bin below: with events 2004 and 2000 of magnitude 4.05 and 2004, 2003, 2001 of 5.05 the year of magnitude 5 goes from 2002 (sensitivity 0.2) to 2001 (0.8).
* **C119** with reference magnitude 0 `weichert` returns the rate above the lower edge of the lowest bin instead of the one at magnitude 0; `b_maxlike_time` averages rates of periods with different b-values, so its rates at three reference magnitudes are not on one line.
* **C121** without the increment lock a table of Stepp's test can have the years 2001, 2002, 2001; `b_maxlike_time` advances by the number of rows of the year, so it uses 2001 twice and never 2002.
* **C122** `gardner_knopoff_decluster` never searches around the smallest event of a catalogue: a magnitude 5 event four weeks before a magnitude 6 one at the same place leaves it alone (foreshock fraction 0.05), but removes it as soon as the catalogue has a magnitude 4 event 40 degrees away.
* **C123** with the rows (2001, 4), (2002, 5), (2001, 6) `b_maxlike_time` gives another b-value than with the rows of 2001 together; with the rows (1950, 3.0), (1975, 3.5) below all magnitudes `weichert` takes 26 years as the period of all bins, in the other order 51.
* **C124** `cumulative_moment` measures how far the released moment departs from the mean trend at the ends of the years: for one year with a magnitude 6 event and one with a magnitude 5 event the estimate is the magnitude of half the difference of their moments, below 6.
* **C125** `stepp_analysis` can return a row without events: for a magnitude 4 event in 2000 and a magnitude 5 event in 1997 the table is (1999, 4), (1998, 5); no event of magnitude 5 is left, and `b_maxlike_time` raises a ValueError.
* **C126** in the catalogue of C122 the magnitude 6 event is removed by the earlier magnitude 5 one if the foreshock fraction is 0.05; with fraction 1 it removes the magnitude 5 event first and is kept.
* **C129** is false for the catalogue of C70, with its own maximum as the given one.
* **C130** `selected_eq_flag_vector` broadcasts: a single flag counts for every event, and for a catalogue of one event the other flags are ignored if zero and otherwise reported as an index error.
* **C134** the Uhrhammer time window is `exp(-2.87 + 1.235 m / 365)`: the conversion from days to years is applied inside the exponential, and the window is about three weeks whatever the magnitude.
* **C90** also: the identifier MTK is written for the nrml, sourceModel and areaSource elements although gml:id is an xs:ID (`C90_default_identifiers`).
* **C142** the maximum likelihood b-value ignores the events in bins whose centre is below the completeness magnitude: for magnitudes 4.08 and 4.18, interval 0.1 and the default completeness table (4.08) only the second event is used; for events of one magnitude 4.08 none is, and the code divides 0 by 0.
* **C143** the magnitude text `nan` and the depth text `inf` are accepted by the catalogue reader (`float` reads them, the magnitude is not checked, `inf > 0`); one `nan` magnitude makes the default completeness magnitude `nan`, and the maximum likelihood recurrence then raises `ValueError`.
* **C144** with the default completeness table, one event of magnitude 4.08 and interval 0.1 the maximum likelihood b-value and rate are `nan` (0 divided by 0).
* **C147** a double quote at the beginning of the last cell (`sigmaML`, optional) of a row opens a quotation that runs to the end of the file: all later lines become part of that cell, which is not a number and is therefore blanked; the file is loaded without them.
* **C148** a file cut off inside its last column is loaded: `0.15` cut to `0.1` is just another value.
* **C149** with cumulative moments, events of magnitude 6 and 5 and the reference magnitude 6 the written minimum magnitude exceeds the written maximum; with `Recurrence` as only job the default source keeps its maximum magnitude 0, so any positive reference magnitude gives an empty range.
* **C151** the documentation marks `second` as compulsory and `Identifier` as unused; the code accepts blank seconds and refuses a blank identifier.
* **C152** `eventID` is documented as unique, but a repeated one is accepted.
* **C153** (only two-column files are taken as completeness tables): the values are taken two by two whatever the lines are, so a file of two lines with one number each gives a table of one row; a word in place of a number becomes NaN without notice. `C153_one_column_fails`, `C153_word`.
* **C155** events of equal magnitude (or one event) have the smoothing factor 0; the estimator of Kijko divides by it and returns `nan` and `nan` without an error. The same happens with a positive smoothing factor when the smallest and the largest event are more than five smoothing factors away from the others (3.5, 5.0, 5.0, 5.4, 5.4, 7.0), because the distribution function is 1 instead of 0 far below the mean (C65).
* **C156** a catalogue of events of one year has the cumulative moment estimate `-inf` with the uncertainty `nan`; one bootstrap sample has the uncertainty `nan`.
* **C73** the bootstrap of a catalogue of events of one year without uncertainties has the uncertainty `nan`, not 0.
* **C158** a single event of magnitude -1 makes Afteran with Gruenthal windows raise `IndexError`: the window is NaN, no event lies in it, and the first of no events is asked for.
* **C159** with a b-value of zero `get_mfd` divides by zero: all rates are NaN.
* **C160** an infinite lower depth (and an infinite shear modulus or displacement length ratio) passes the validation; NaN never does.
* **C161** Weichert returns a negative number of earthquakes per year for a zone whose last earthquake precedes the completeness year: the period of observation is computed from the last earthquake of the zone, the earthquakes from the completeness magnitude on are counted whatever their year (`C161_rate_fails`, `C161_late`).
* **C163** in double precision the recurrence table loses an earthquake whose magnitude times ten rounds up to a whole number (3.5999999999999996).  Not for magnitudes of two decimals.
* **C164** in double precision an earthquake at the end of a bin can be counted in the bin below (3.3 with bins of 0.1 from 3.0); this is why C54 and the like are about exact arithmetic.
* **C165** seconds above 59 (59.5) are dropped: `check_second` compares with 59 instead of 60.
* **C166** in double precision a region with the weights 0.7, 0.2 and 0.1 is refused, because `numpy.sum` gives 0.9999999999999999.
* **C168** in double precision `get_mfd` can give one rate too many when the magnitude range is a whole number of bins (4 to 5 with bins of 0.1: eleven rates).
* **C170** in double precision the table of Stepp can have one row too many when the magnitude range is a whole number of bins (3.0 to 3.1 with bins of 0.1: two rows).
* **C172** in double precision the row of Stepp for magnitude 3.3 can have the magnitude 3.3000000000000003, which removes earthquakes of magnitude 3.3.
* **C174** in double precision Weichert's preparation can count an earthquake in the bin below its own (3.3 with bins of 0.1 from 3.0) and so remove it as incomplete although it is complete.
* **C180** in double precision the numbers of earthquakes in the Weichert bins can differ between the computed completeness table (3.3000000000000003) and the stored and retrieved one (3.3).
* **C186** in double precision Afteran can keep an earthquake that is exactly the time window after a larger one at the same place (1 and 11 January 2000 with a window of ten days): the difference of the rounded decimal years is larger than the rounded quotient 10/365.
* **C192** in double precision a row with a longitude of 180.00000000000000001 degrees, outside the allowed range, is accepted: the number is rounded to 180 before it is checked.
* **C198** the program ends without exception and writes NaN as maximum magnitude when a zone contains one earthquake, or earthquakes of one magnitude only, and the maximum magnitude method is that of Kijko.
* **C202** a seed of type `long` (on a 32 bit machine, or any integer beyond the machine word) is silently ignored by the cumulative moment bootstrap: the numbers come from the shared generator and the result is not reproducible.
* **C205** without a completeness table file the default table is the first year and the smallest magnitude of the whole catalogue; one small earthquake outside every source changes the a-value that the maximum likelihood method writes for a source (2e becomes 2/e³ in the witness).
* **C208** a tolerance written `1e-05`, the way Python prints it, is loaded as a text because the YAML resolver wants a decimal point; `d_t > iteration_tolerance` is then false at once and the Kijko estimator raises an exception for every catalogue (an UnboundLocalError unless an earlier step fails).
* **C211** of a file name such as `data #2.csv` only `data` is read, since the rest is a comment in YAML, and a file named by a number (a year, say) is never opened, since its name is read as a number.
* **C212** a number of samples written `0100` in the configuration is sixty-four, since YAML 1.1 reads a row of digits with a leading zero as an octal number, and `080` is a text.
* **C213** a comment inside a value cuts the value off: of `<aValueCumulative>5<!-- was 4 -->.5</aValueCumulative>` only the `5` is read, since the reader takes the text of an element up to its first comment.
* **C217** `1.5e3` and `-.5` are numbers for Python and texts for the configuration (YAML 1.1 wants a sign in the exponent and a digit after a sign). `C217_partial` covers all other spellings with a point.
Other peculiarities kept in the model: the region name `Subction Intraslab` (C79); the default geometry `POINT(0 0)` prints integers as `0`; `Cumulative_Moment` reads random numbers
so its result is not reproducible (C33); the state `completeness_table` and the working catalogue are shared between sources (C23).

## 6. Properties

"proved": the statement in properties.jsonl is proved in full.  "partial": the full statement is refuted or not reached; the note says what is.


| Id | Property | Status | Theorems | Where | Note |
|---|---|---|---|---|---|
| C01 | Header gate | proved | `EqCatalog.C01_header_gate`, `EqCatalog.C01_otherwise_refused` | `Props/EqCatalog` | Any file text; exact set of accepted first lines. |
| C02 | Accepted entries satisfy the documented ranges of the compulsory fields | proved | `EqCatalog.C02_accepted_ranges` | `Props/EqCatalog` | Any row, any dictionary order, any number type. |
| C03 | Accepted entries carry a possible day of the month | partial | `EqCatalog.C03_possible_day_partial`, `EqCatalog.C03_possible_day_fails` | `Props/EqCatalog` | False of the code: day 0 and negative days of February are accepted (negation proved with a witness); proved exactly what the code enforces. |
| C04 | Acceptance does not depend on the dictionary order | proved | `EqCatalog.C04_order_independent`, `EqCatalog.C04_accepted_iff_valid` | `Props/EqCatalog` | Acceptance does not depend on the dictionary order and is characterised exactly. |
| C05 | Optional fields never reject a row and are sanitised | proved | `EqCatalog.C05_optional_clean`, `EqCatalog.C05_optional_never_rejects` | `Props/EqCatalog` |  |
| C06 | sigmaMw is always usable as a number | proved | `EqCatalog.C06_sigmaMw_number`, `EqCatalog.C06_sigmaMw_nonneg` | `Props/EqCatalog` |  |
| C07 | Error ellipse is all or nothing | partial | `EqCatalog.C07_ellipse_partial`, `EqCatalog.C07_ellipse_fails` | `Props/EqCatalog` | False of the code in the dictionary order of CPython 2.7 (negation proved); holds when both axes are checked before the strike. |
| C08 | A bad compulsory field is reported as a validation error naming it | partial | `EqCatalog.C08_validation_error_partial`, `EqCatalog.C08_validation_error_fails` | `Props/EqCatalog` | False of the code for unreadable compulsory floats (TypeError/accepted conversions; negation proved). |
| C09 | Reported line number is the line of the bad row | partial | `EqCatalog.C09_line_number_partial`, `EqCatalog.C09_line_number_fails` | `Props/EqCatalog` | Holds when no row spans several lines and no line is blank; negation of the full claim proved. |
| C10 | Loading is all-or-nothing and order preserving | proved | `EqCatalog.C10_all_or_nothing`, `EqCatalog.C10_order_preserving`, `EqCatalog.C10_first_bad_row` | `Props/EqCatalog` |  |
| C11 | Rows with a wrong number of columns are never accepted | proved | `EqCatalog.C11_wrong_width_rejected` | `Props/EqCatalog` |  |
| C12 | A written catalogue reads back as the same cells | proved | `Csv.C12_csv_round_trip`, `Csv.C12_catalog_round_trip` | `Props/Csv` | Model of the excel dialect of csv with its field limit; all cell texts without NUL within the limit. |
| C13 | A stored catalogue is accepted again | partial | `Csv.C13_stored_catalog_accepted_partial`, `Csv.C13_same_entries_fails` | `Props/Csv` | Acceptance and equality outside the error ellipse proved; equality of an inconsistent ellipse is false of the code (negation proved). |
| C34 | Declustering returns the unflagged rows in original order | proved | `Declustering.C34_gk_mainshocks`, `Declustering.C34_gk_succeeds`, `Declustering.C34_afteran_mainshocks`, `Declustering.C34_afteran_succeeds` | `Props/Afteran`, `Props/GardnerKnopoff` | Any arithmetic and tie order; totality of Afteran in exact arithmetic, where Gruenthal windows exist for all magnitudes (see C158). |
| C35 | Flagged events always belong to a cluster | proved | `Declustering.C35_gk_flag_cluster`, `Declustering.C35_afteran_flag_cluster` | `Props/Afteran`, `Props/GardnerKnopoff` |  |
| C36 | Gardner-Knopoff removes only events inside the windows of a main event | proved | `Declustering.C36_gk_windows` | `Props/GardnerKnopoff` | Any arithmetic, any tie order of the sort. |
| C37 | Each Gardner-Knopoff cluster has exactly one kept event | partial | `Declustering.C37_at_most_one_kept_partial`, `Declustering.C37_one_kept_fails` | `Props/GardnerKnopoff`, `Props/GardnerKnopoffExamples` | False of the code (negation proved): a later cluster can take the main event of an earlier one. At most one event of a cluster is kept. |
| C38 | Declustering never empties a catalogue | proved | `Declustering.C38_gk_nonempty`, `Declustering.C38_afteran_nonempty` | `Props/Afteran`, `Props/GardnerKnopoff` |  |
| C39 | The largest event survives Gardner-Knopoff | partial | `Declustering.C39_largest_survives_partial`, `Declustering.C39_symmetric_windows_partial`, `Declustering.C39_largest_survives_fails` | `Props/GardnerKnopoffExamples`, `Props/GardnerKnopoffReal`, `Props/Windows` | False of the code (negation proved): a smaller foreshock can remove the largest event. Holds when the windows of the other events fit in those of the largest one in both directions. |
| C40 | Gardner-Knopoff declustering is idempotent | proved | `Declustering.C40_gk_idempotent` | `Props/GardnerKnopoffReal` | The smallest magnitude occurs once; the algorithm never centres a cluster on the last event of its order, which must not depend on how ties are sorted. |
| C41 | Declustering does not depend on row order | proved | `Declustering.C41_gk_equivariant`, `Declustering.C41_afteran_equivariant` | `Props/AfteranExamples`, `Props/GardnerKnopoffReal` | Distinct magnitudes. |
| C42 | Afteran clusters are disjoint, numbered consecutively and have one mainshock | proved | `Declustering.C42_afteran_clusters` | `Props/Afteran` | Any arithmetic and tie order. |
| C43 | An Afteran mainshock is a largest event of its cluster | proved | `Declustering.C43_afteran_mainshock_largest` | `Props/Afteran` |  |
| C44 | Afteran removals are linked to the mainshock by short time steps | proved | `Declustering.C44_afteran_chain` | `Props/Afteran` |  |
| C45 | Afteran cluster members lie in the distance window of their mainshock | partial | `Declustering.C45_afteran_distance_partial`, `Declustering.C45_afteran_distance_fails` | `Props/Afteran`, `Props/AfteranExamples` | False of the code (negation proved); members lie within twice the distance window of the kept event. |
| C46 | Isolated events are never removed | partial | `Declustering.C46_gk_isolated`, `Declustering.C46_afteran_isolated_partial`, `Declustering.C46_afteran_isolated_fails` | `Props/AfteranExamples`, `Props/GardnerKnopoff` | Proved for Gardner-Knopoff; false of Afteran (negation proved), which keeps everything if events are isolated in time, or all in distance. |
| C47 | Declustering windows are positive and grow with magnitude | partial | `Declustering.C47_windows_positive`, `Declustering.C47_windows_grow_partial`, `Declustering.C47_gk_time_fails` | `Props/Windows` | False of the Gardner-Knopoff time window across magnitude 6.5 (negation proved); all other parts proved. Gruenthal windows below about magnitude -0.036 are NaN (C158). |
| C48 | Decimal year orders dates | proved | `CatUtil.C48_integer_part`, `CatUtil.C48_order` | `Props/CatalogueUtilities` |  |
| C49 | haversine is a distance | proved | `CatUtil.C49_great_circle`, `CatUtil.C49_symmetric`, `CatUtil.C49_self`, `CatUtil.C49_zero_iff`, `CatUtil.C49_range`, `CatUtil.C49_defined`, `CatUtil.C49_triangle` | `Props/CatalogueUtilities` | In exact arithmetic. |
| C50 | greg2julian counts days | partial | `CatUtil.C50_day_count_partial`, `CatUtil.C50_day_count_fails` | `Props/CatalogueUtilities` | Exact set of dates where consecutive days are counted one apart; negation of the full claim proved. |
| C27 | Selection flags follow the completeness table and the declustering flags | proved | `Completeness.C27_selection`, `Completeness.C27_row_order` | `Props/Completeness` | Any number type. |
| C28 | Only incomplete events are removed by the completeness step | proved | `Completeness.C28_removed_incomplete`, `Completeness.C28_stepp_removed_incomplete` | `Props/Completeness` |  |
| C29 | No incomplete event is kept | partial | `Completeness.C29_kept_complete_partial`, `Completeness.C29_kept_complete_fails` | `Props/Completeness` | False of the code (negation proved): an event is compared with the completeness year of the next larger magnitude. |
| C51 | Stepp table magnitudes | proved | `Completeness.C51_magnitudes` | `Props/Completeness` | In exact arithmetic. |
| C52 | Stepp completeness years come from the analysed time steps | proved | `Completeness.C52_years`, `Completeness.C52_whole_years` | `Props/Completeness` | The bound of the length plus one year is for whole years; otherwise less than the length plus two. |
| C53 | Increment lock makes completeness years monotone | proved | `Completeness.C53_lock_monotone` | `Props/Completeness` |  |
| C54 | Stepp counts every event exactly once per time window | partial | `Completeness.C54_counts_partial`, `Completeness.C54_counts_fails` | `Props/Completeness` | False if no magnitude bin exists (all magnitudes the same multiple of 0.1; negation proved); proved otherwise. |
| C55 | Stepp never fails on a usable time step | proved | `Completeness.C55_succeeds` | `Props/Completeness` | Exact condition of success. |
| C56 | Completeness length is the last duration exceeding the tolerance | partial | `Completeness.C56_last_location_partial`, `Completeness.C56_last_location_fails` | `Props/Completeness`, `Props/CompletenessExamples` | False of the code (negation proved): a lone first location is ignored; proved when this does not occur. |
| C57 | The recurrence table accounts for every event | proved | `Recurrence.C57_recurrence_table` | `Props/Recurrence` | In exact arithmetic. |
| C58 | Maximum likelihood b-values are positive and bounded | proved | `Recurrence.C58_b_value`, `Recurrence.C58_value` | `Props/Recurrence` | In exact arithmetic. |
| C59 | The time-averaged MLE b-value lies between those of the periods | proved | `Recurrence.C59_average`, `Recurrence.C59_errors`, `Recurrence.C59_periods` | `Props/Recurrence` | In exact arithmetic; one period for each distinct year of a table grouped by year. |
| C60 | Weichert preparation accounts for the events | proved | `Recurrence.C60_counts` | `Props/RecurrenceWeichert` | In exact arithmetic; exact set of counted events. |
| C61 | Weichert likelihood is strictly concave | proved | `Recurrence.C61_concave`, `Recurrence.C61_prepared` | `Props/Recurrence`, `Props/RecurrenceWeichert` | In exact arithmetic. |
| C62 | A returned Weichert b-value solves the likelihood equation to tolerance | proved | `Recurrence.C62_first_stable`, `Recurrence.C62_likelihood` | `Props/Recurrence` | First part for any number type. |
| C63 | Weichert terminates | partial | `Recurrence.C63_increasing_likelihood_partial`, `Recurrence.C63_first_step_partial`, `Recurrence.C63_weichert_terminates_partial`, `Recurrence.C63_weichert_terminates_fails`, `Recurrence.C63_nothing_complete` | `Props/RecurrenceWeichert`, `Props/WeichertReturns`, `Props/WeichertValues` | False of the code: without a complete earthquake the iteration goes on with NaN forever, and a catalogue of two events and a two-row table make the Newton iteration diverge (negation proved). Fewer than two bins fail with an IndexError; proved to return when the periods grow from bin to bin by at most exp(1.5 dm) and the likelihood does not decrease at the starting value, or when the first Newton step stays above the growth rate of the periods (global convergence of the iteration). |
| C64 | Gutenberg-Richter rate is consistent with the observed rate | proved | `Recurrence.C64_rate`, `Recurrence.C64_reference` | `Props/Recurrence` | In exact arithmetic. |
| C65 | The Hastings function behaves like a distribution function | partial | `MaxMag.C65_distribution_partial`, `MaxMag.C65_distribution_fails` | `Props/Hastings` | False of the code more than five standard deviations below the mean, where the value is 1 instead of 0 (negation proved); proved everywhere else. |
| C66 | The Hastings function approximates the normal distribution | partial | `MaxMag.C66_accuracy_partial`, `MaxMag.C66_bound_partial`, `MaxMag.C66_accuracy_fails`, `MaxMag.C66_far_fails` | `Props/Hastings`, `Props/HastingsError` | False of the code (negations proved): one coefficient has the wrong sign, and the error reaches more than 0.18. Proved: the documented accuracy at the mean and beyond five standard deviations above it; from five standard deviations below the mean on an error of at most 0.25, with the value on the side of 1/2. |
| C67 | Exponentially spaced samples span the interval | proved | `MaxMag.C67_spaced_points` | `Props/Kijko` | In exact arithmetic. |
| C68 | The Kijko correction is between zero and the sampled range | partial | `MaxMag.C68_integral_partial`, `MaxMag.C68_integral_fails` | `Props/Kijko` | False of the code when magnitudes lie more than five smoothing widths above a sample point (negation proved); proved otherwise. |
| C69 | The Kijko iteration terminates | proved | `MaxMag.C69_terminates`, `MaxMag.C69_terminates_real` | `Props/Kijko` | Any arithmetic; the second theorem is the case of a non-negative real tolerance. |
| C70 | Kijko maximum magnitude is not below the observed maximum | partial | `MaxMag.C70_not_below_observed_partial`, `MaxMag.C70_not_below_observed_fails` | `Props/Kijko`, `Props/KijkoExamples` | The uncertainty part is proved in exact arithmetic (it is NaN if the smoothing factor is zero, see C155); the magnitude part is false of the code (negation proved), proved when the magnitudes span at most five smoothing widths. |
| C71 | The smoothing factor follows Silverman | partial | `MaxMag.C71_silverman_partial`, `MaxMag.C71_silverman_fails` | `Props/KijkoExamples` | False of the code, which compares the function np.std with a number and never uses the standard deviation (negation proved); proved when IQR/1.34 is the smaller one. |
| C72 | Cumulative moment accounts for all moment release | proved | `MaxMag.C72_moment_accounting`, `MaxMag.C72_order_independent`, `MaxMag.C72_single_year` | `Props/CumulativeMoment` | In exact arithmetic. |
| C73 | Without magnitude errors the bootstrap is exact | partial | `MaxMag.C73_exact_partial`, `MaxMag.C73_exact_fails`, `MaxMag.C73_exact_without_errors` | `Props/CumulativeMoment`, `Props/CumulativeValues` | False of the code (negation proved): if every year of the catalogue released the same moment the samples are minus infinity and their standard deviation is NaN. Proved with infinities and NaN for all other catalogues with integer years, and in exact arithmetic, where log10(0) is a number, for all. |
| C74 | An unknown maximum magnitude algorithm is refused | partial | `MaxMag.C74_known_algorithm_partial`, `MaxMag.C74_unknown_algorithm_fails`, `MaxMag.C74_unknown_algorithm_result`, `MaxMag.C74_unknown_recurrence_fails`, `Workflow.C74_run_zero`, `Workflow.C74_run_mle` | `Props/CumulativeMoment`, `Props/UnknownAlgorithm` | False of the code (negation proved): an unknown maximum magnitude algorithm gives 0, an unknown recurrence algorithm runs MLE; a whole run writes 0 as maximum magnitude of every source, or exactly what it writes with MLE. |
| C75 | Fault geometry validation is exact | proved | `Fault.C75_fault_validation`, `Fault.mkFault_spec` | `Props/Fault` | mkFault_spec holds in any arithmetic. |
| C76 | Fault dimensions are consistent | proved | `Fault.C76_dimensions` | `Props/Fault` | In exact arithmetic. |
| C77 | Fault length is a path length | proved | `Fault.C77_length`, `Fault.C77_direction`, `Fault.C77_split`, `Fault.C77_end_points` | `Props/Fault` | In exact arithmetic. |
| C78 | Tectonic region validation is exact | proved | `Fault.C78_region_validation`, `Fault.C78_first_values`, `Fault.C78_missing_entry` | `Props/Fault` | In exact arithmetic (sums of weights). |
| C79 | Regions by name are well formed or refused | proved | `Fault.C79_defaults`, `Fault.C79_overrides`, `Fault.C79_no_keyError`, `Fault.C79_unknown` | `Props/Fault` | The name of the third region is spelled Subction Intraslab in the code; the correct spelling is refused. |
| C80 | Occurrence rates are positive | proved | `Fault.C80_positive` | `Props/Mfd` | In exact arithmetic; b-value strictly between 0 and the slope of the moment scaling. |
| C81 | Occurrence rates telescope and follow Gutenberg-Richter | proved | `Fault.C81_telescope`, `Fault.C81_whole_bins` | `Props/Mfd` | In exact arithmetic; the range ends half a bin below the maximum magnitude. |
| C82 | Occurrence rates scale with seismic slip | proved | `Fault.C82_refused`, `Fault.C82_proportional` | `Props/Mfd` | Refusal in any arithmetic, proportionality in exact arithmetic. |
| C83 | Serialised sources read back | partial | `Nrml.C83_python_partial`, `Nrml.C83_same_list_partial`, `Nrml.C83_round_trip_partial`, `Nrml.C83_writer_accepts`, `Nrml.C83_fails`, `Nrml.C83_empty_list_unreadable` | `Props/Nrml`, `Props/NrmlExamples` | Proved for sources whose texts and lists are present; false in general (negation proved): an empty name comes back as None, and an empty list of numbers cannot be read back. |
| C84 | Serialisation is stable | proved | `Nrml.C84_stable`, `Nrml.C84_python` | `Props/Nrml`, `Props/NrmlExamples` | For number formatting that is stable; proved of the twelve digit format of Python 2.7. |
| C85 | The reader yields one source per area source element, in document order | proved | `Nrml.C85_count`, `Nrml.C85_document_order`, `Nrml.C85_closing_order`, `Nrml.C85_others_ignored` | `Props/Nrml` | For every tree that is read without error. |
| C86 | A malformed coordinate list is never silently truncated | proved | `Nrml.C86_odd_refused`, `Nrml.C86_pairs`, `Nrml.C86_even_accepted` | `Props/Nrml` |  |
| C87 | Writers refuse unusable output paths | partial | `Nrml.C87_directory_partial`, `Nrml.C87_root_partial`, `Nrml.C87_fails`, `Nrml.C87_bare_name_refused` | `Props/Nrml` | False of the code for file names without directory part (negation proved); exact otherwise. |
| C89 | Every schema conforming area source is read | partial | `Nrml.C89_readable_partial`, `Nrml.C89_only_first_rate_model`, `Nrml.C89_fails` | `Props/NrmlSchema` | False of the code (negation proved): an incremental distribution raises AttributeError and further rate models are dropped. Proved for the remaining conforming elements. |
| C90 | The result document conforms to the schema | partial | `Nrml.C90_valid_partial`, `Nrml.C90_document_partial`, `Nrml.C90_conforms_partial`, `Nrml.C90_default_not_valid`, `Nrml.C90_default_identifiers` | `Props/NrmlSchema`, `Props/NrmlValid` | False of the code: the document written for the default source never conforms (region, magnitude type, repeated identifier). What is written conforms, in elements, attributes, values and identifiers, exactly when every source has a region and magnitude types of the schema, values in range and identifiers that are distinct names. |
| C14 | Catalogue matrix is numeric and column aligned | proved | `Workflow.C14_matrix` | `Props/Workflow` |  |
| C15 | Default preprocessing values remove nothing | proved | `Workflow.C15_defaults_select_all`, `Workflow.C15_accepted_catalogue`, `Workflow.C15_empty_catalogue` | `Props/Preprocessing` | Over the reals, from the catalogue file on; an empty catalogue raises IndexError in create_default_values. |
| C16 | Preprocessing pipeline is the documented job list | proved | `Workflow.C16_preprocessing`, `Workflow.C16_processing`, `Workflow.C16_names` | `Props/Workflow` | Exact list of jobs for every configuration. |
| C17 | An unknown job name is refused before anything runs | proved | `Workflow.C17_refused` | `Props/Workflow` |  |
| C18 | Jobs run in order and stop at the first failure | proved | `Workflow.C18_concatenation`, `Workflow.C18_in_order`, `Workflow.C18_stops` | `Props/Workflow` |  |
| C19 | Each source is processed exactly once, in order, on its own events | proved | `Workflow.C19_once_in_order`, `Workflow.C19_own_events`, `Workflow.C19_multiplicity`, `Workflow.C19_default_source` | `Props/Workflow` | Polygon containment is an uninterpreted predicate (shapely). |
| C20 | Disabled processing leaves the sources untouched | proved | `Workflow.C20_disabled` | `Props/Workflow` |  |
| C26 | The stored catalogue is exactly the selected events | proved | `Workflow.C26_stored`, `Workflow.C26_contents`, `Workflow.C26_kept`, `Workflow.C26_run` | `Props/Files`, `Props/Preprocessing` | C26_run is the whole run, for processing lists of the two analyses. |
| C21 | Processing only rewrites the Gutenberg-Richter parameters | proved | `Workflow.C21_only_parameters`, `Workflow.C21_without_recurrence`, `Workflow.C21_without_maximum`, `Workflow.C21_minimum_magnitude` | `Props/Processing` |  |
| C22 | Recurrence and MaximumMagnitude commute | proved | `Workflow.C22_commute`, `Workflow.C22_run` | `Props/Processing` |  |
| C23 | Sources are processed independently | partial | `Workflow.C23_alone_partial`, `Workflow.C23_split_partial`, `Workflow.C23_order_partial`, `Workflow.C23_fails` | `Props/Processing`, `Props/SourceOrder` | Holds for job lists made of the two processing jobs and no random algorithm. Refuted in general: Cumulative_Moment draws from one random stream for all sources, so two copies of a source get different maximum magnitudes. |
| C32 | Completeness table survives storing to five decimals | proved | `Table.C32_round_trip`, `Table.C32_error`, `Table.C32_stable`, `Table.C32_exact`, `Table.C32_empty`, `Workflow.C32_jobs` | `Props/Table` | Over exact arithmetic with decimal rounding to five places. |
| C33 | Results are reproducible unless Cumulative_Moment is used | proved | `Workflow.C33_run`, `Workflow.C33_observable`, `MaxMag.C33_reproducible` | `Props/CumulativeMoment`, `Props/Reproducible` |  |
| C88 | The result document lists the input sources | proved | `Workflow.C88_written`, `Workflow.C88_result_document` | `Props/RunResults` |  |
| C24 | A zone without events does not abort the run | partial | `Workflow.C24_fails`, `Workflow.C24_empty_zone_raises`, `Workflow.C24_program_aborts`, `Workflow.C24_kept_partial` | `Props/RunExamples`, `Props/RunResults` | Refuted: a source without events makes Recurrence and Maximum_Magnitude raise, and the whole program ends with that exception (C24_empty_zone_raises, C24_program_aborts; concrete run C24_fails). C24_kept_partial: with a processing list without these two jobs every source is left as it was. |
| C25 | A source model document without area sources loads as an empty model | partial | `Workflow.C25_fails`, `Workflow.C25_no_sources_raises`, `Workflow.C25_reader_partial` | `Props/RunExamples`, `Props/RunResults` | Refuted: a valid source model without area sources makes the job read_source_model raise (concrete document C25_fails; every such document C25_no_sources_raises). C25_reader_partial: the NRML reader itself gives the empty list for every such document; the job read_source_model then raises TypeError. |
| C30 | Declustering jobs can be chained | partial | `Workflow.C30_fails`, `Workflow.C30_selection_raises`, `Workflow.C30_chained_partial` | `Props/Chaining` | Refuted: GardnerKnopoff acts on the working catalogue, so a second one leaves flags for the shortened catalogue and the selection raises ValueError (C30_selection_raises in general, C30_fails on three events). C30_chained_partial: every job list in which GardnerKnopoff is at most the first declustering job keeps flags describing the original rows and the selection succeeds. |
| C31 | Preprocess-and-process equals store-then-process | partial | `Workflow.C31_fails`, `Workflow.C31_equivalent_partial` | `Props/Equivalence`, `Props/EquivalenceRun` | Refuted: the table is stored with five decimals, so for a magnitude with more decimals the second run finds another a value (concrete pair of runs C31_fails). C31_equivalent_partial: for every pair of runs with separate files, numbers of at most five decimals in the completeness table, and either no event removed by the completeness check or an algorithm other than Weichert with a table whose magnitudes decrease with the year, the second run ends with the same source definitions and the same result file. |
| C91 | Row order does not matter to completeness and recurrence | proved | `Completeness.C91_stepp`, `Recurrence.C91_recurrence` | `Props/RowOrder` | In exact arithmetic. |
| C92 | Row order does not matter to the Kijko maximum magnitude | partial | `MaxMag.C92_order_partial`, `MaxMag.C92_order_fails` | `Props/KijkoOrder` | False of the code for the uncertainty (negation proved): with two events of the largest magnitude it takes the uncertainty of the first one. The magnitude is independent of the order, and so is the uncertainty if the largest events have the same one. |
| C93 | Results do not depend on the origin of time | proved | `Completeness.C93_stepp`, `Recurrence.C93_recurrence` | `Props/TimeShift` | In exact arithmetic. |
| C94 | Repeating every event scales the rate and keeps the b-value | proved | `Recurrence.C94_mle`, `Recurrence.C94_weichert` | `Props/Repetition` | In exact arithmetic; for Weichert also the number of iterations is the same. |
| C95 | A run changes no file but its outputs | proved | `Workflow.C95_only_outputs`, `Workflow.C95_result_last` | `Props/Files` | Any arithmetic. |
| C96 | A run depends on its input files only | proved | `Workflow.C96_inputs` | `Props/Files` | Any arithmetic; the random stream is part of the configuration of the run. |
| C97 | Running again changes nothing | proved | `Workflow.C97_rerun` | `Props/Files` | Any arithmetic; the same random stream in both runs. |
| C98 | The command line is understood | proved | `Console.C98_understood` | `Props/Console` | Model of the parts of argparse of Python 2.7 that these options use. |
| C99 | A refused command line has no effect | proved | `Console.C99_stray`, `Console.C99_info`, `Console.C99_no_arguments`, `Console.C99_no_effect` | `Props/Console` |  |
| C100 | A missing configuration file is reported and nothing is written | partial | `Console.C100_missing_partial`, `Console.C100_fails` | `Props/Console` | False of the code (negation proved): with -d the log file is created before the configuration is read. Holds without -d. |
| C101 | A command line without configuration file is refused | partial | `Console.C101_no_file_partial`, `Console.C101_fails` | `Props/Console` | False of the code (negation proved): -d alone ends in an uncaught TypeError. The files are left alone. |
| C102 | The program changes nothing but the outputs of the given configuration | proved | `Console.C102_only_outputs` | `Props/Console` | Any arithmetic. |
| C103 | haversine of sets of locations | proved | `CatUtil.C103_matrix`, `CatUtil.C103_pairs`, `CatUtil.C103_radians`, `CatUtil.C103_scalar`, `CatUtil.C103_transpose` | `Props/Distances` | Entries in exact real arithmetic; shape and pairs in any arithmetic. |
| C104 | Locations without both coordinates are refused | partial | `CatUtil.C104_missing_latitude_partial`, `CatUtil.C104_first_set_partial`, `CatUtil.C104_fails` | `Props/Distances` | False of the code (negation proved): surplus latitudes of the second set are ignored. A missing latitude of the second set is refused, and a first set with different numbers (and not just one latitude) is. |
| C105 | Declustering depends on relative positions and times only | proved | `Declustering.C105_gardner_knopoff`, `Declustering.C105_afteran`, `Declustering.C105_displacements` | `Props/Geometry` | Exact real arithmetic, any result of the sorts. |
| C106 | Results move with the origin of the magnitude scale | partial | `Completeness.C106_stepp`, `Recurrence.C106_mle_partial`, `Recurrence.C106_weichert_partial`, `Recurrence.C106_fails`, `MaxMag.C106_kijko`, `MaxMag.C106_cumulative_moment`, `MaxMag.C106_maximum_magnitude` | `Props/MagnitudeShift`, `Props/MagnitudeShiftMax` | Exact real arithmetic. False of the code for one of the results (negation proved): the error of the maximum likelihood rate is 10 ** |(b + sigma_b) * mref - b * mc| and depends on the origin. Proved for the b-value, its error and the rate (maximum likelihood), for all four results (Weichert, multiples of 0.2, reference magnitude not zero, no completeness year after the last event), completeness (multiples of 0.1) and maximum magnitude (any real number). |
| C107 | Time windows of zero | proved | `Declustering.C107_no_foreshocks`, `Declustering.C107_simultaneous`, `Declustering.C107_negative` | `Props/ZeroWindows` | Exact real arithmetic, any result of the sorts. |
| C108 | Events outside the completeness table have no influence on recurrence | partial | `Recurrence.C108_mle_partial`, `Recurrence.C108_weichert_partial`, `Recurrence.C108_weichert_fails` | `Props/Irrelevant` | False of the code for Weichert (negation proved): such an event adds empty magnitude bins below the completeness magnitude. Proved for maximum likelihood; for Weichert if the events are not the first or last, smallest or largest of the catalogue. |
| C109 | Only the largest events matter to the Kijko estimate | proved | `MaxMag.C109_largest_only` | `Props/Irrelevant` | Exact real arithmetic; events appended to the catalogue. |
| C110 | A result path that cannot be written is reported before anything is written | partial | `Workflow.C110_raises_partial`, `Workflow.C110_nothing_written_partial`, `Workflow.C110_fails` | `Props/Configuration` | False of the code (negation proved): the path is looked at after the workflow has run, so intermediate outputs have been written. Proved: such a run always raises and leaves the result path alone, and writes nothing if no intermediate output is asked for. |
| C111 | Options of jobs that are not requested have no influence | proved | `Workflow.C111_unrequested`, `Workflow.C111_algorithm` | `Props/Configuration` | On the dictionary of configuration keys, which may be missing or without value. |
| C112 | A missing option is reported before anything is written | partial | `Workflow.C112_raises_partial`, `Workflow.C112_at_start_partial`, `Workflow.C112_nothing_written_partial`, `Workflow.C112_fails` | `Props/Configuration` | False of the code (negation proved): a missing result_file is noticed at the end, after the preprocessed catalogue is written. Proved: a run that misses something always raises; before anything is written if the key belongs to the building of the pipelines or is the catalogue; without writing if no intermediate output is asked for. |
| C113 | Occurrence rates release the moment that the slip supplies | proved | `Fault.C113_balance`, `Fault.C113_accuracy`, `Fault.C113_below_supply` | `Props/MomentBalance` | Exact real arithmetic; the rupture length enters through the equation moment(max magnitude) = shear modulus * width * length * (ratio * length). |
| C114 | A distribution with the magnitudes at the bin centres does not exceed the moment supply | partial | `Fault.C114_below_supply_partial`, `Fault.C114_centres_partial`, `Fault.C114_fails` | `Props/MomentBalance` | False of the code (negation proved): the last bin may reach above the maximum magnitude. Proved: the exact value of the released moment in all cases, and the bound when the range is a whole number of bins and the b-value at most half the slope of the scaling. Missing: the bound for larger b-values or other ranges, where it can be false. |
| C115 | Gardner-Knopoff declustering keeps no dependent pair | proved | `Declustering.C115_gk_no_kept_pair` | `Props/KeptPairs` |  |
| C116 | Afteran declustering keeps no dependent pair | partial | `Declustering.C116_next_largest_partial`, `Declustering.C116_fails` | `Props/KeptPairs` | False of the code (negation proved): every search starts from the first event of the selection, which may be far away in time. Proved: the largest of the other events in the distance window is removed if it is in the time window and no event as large as the kept one is in the distance window. Missing: the other events, for which the claim is false. |
| C117 | Afteran declustering is idempotent | partial | `Declustering.C117_afteran_idempotent_partial`, `Declustering.C117_fails` | `Props/KeptPairs` | False of the code (negation proved). Proved for events in one another's distance windows with distinct magnitudes in which no smaller event precedes a larger one. Missing: catalogues with foreshocks (counterexample) or several places. |
| C118 | A larger sensitivity of the Stepp test gives no earlier completeness year | partial | `Completeness.C118_lock_partial`, `Completeness.C118_located_partial`, `Completeness.C118_fails` | `Props/Sensitivity` | False of the code without the increment lock (negation proved): a bin without a location takes the duration of the bin before. Proved with the lock for all inputs, and without it when every bin has a location of its own. |
| C119 | The recurrence rates for different reference magnitudes lie on one Gutenberg-Richter line | partial | `Recurrence.C119_weichert_partial`, `Recurrence.C119_weichert_fails`, `Recurrence.C119_mle_partial`, `Recurrence.C119_mle_fails` | `Props/ReferenceMagnitude` | False of the code (negations proved): Weichert at the reference magnitude 0, maximum likelihood with completeness periods of different b-values. Proved: independence of the b-value in all cases; the line for Weichert at reference magnitudes other than 0 and for maximum likelihood with one completeness year; bounds of the factor otherwise. |
| C120 | The Weichert relation reproduces the catalogue | proved | `Recurrence.C120_balance` | `Props/WeichertBalance` | Exact real arithmetic; a kept event and a table that starts before the end of the catalogue are assumed (without a kept event the code divides 0 by 0). |
| C121 | The maximum likelihood recurrence uses every completeness year exactly once | partial | `Recurrence.C121_down_partial`, `Recurrence.C121_locked_partial`, `Recurrence.C121_fails` | `Props/EachYear` | False of the code (negation proved): Stepp's test without the increment lock can return a year twice with another one between; the loop then uses the first twice and drops the other. Proved: tables whose years never go up, in particular all tables of Stepp's test with the lock and a time step of at least 1e-5 years. |
| C122 | Groups of events far apart are declustered independently | partial | `Declustering.C122_gardner_knopoff_partial`, `Declustering.C122_afteran_partial`, `Declustering.C122_fails` | `Props/Regions` | False of the code for Gardner-Knopoff (negation proved): the loop stops before the smallest event of the catalogue, so the smallest event of a region removes nothing when the region is declustered alone but does in the whole catalogue. Proved: Afteran in all cases; Gardner-Knopoff when the smallest event of the region is the smallest of the catalogue or has no other event of the region in its windows. Events of different magnitudes are assumed. |
| C123 | The order of the rows of the completeness table does not matter | partial | `Completeness.C123_filter`, `Recurrence.C123_mle_partial`, `Recurrence.C123_mle_fails`, `Recurrence.C123_weichert_partial`, `Recurrence.C123_weichert_fails` | `Props/TableOrder` | False of the code (negations proved): maximum likelihood loses years when the rows of a year are separated; Weichert takes the period of a bin from the last row at or below it, so exchanging rows of different years changes the rate. Proved: the completeness filter for all orders; maximum likelihood for all orders that keep the rows of a year together; Weichert for exchanges of rows of the same year. |
| C124 | The cumulative moment estimate is not below the largest earthquake | partial | `MaxMag.C124_bounds_partial`, `MaxMag.C124_fails` | `Props/CumulativeBounds` | False of the code (negation proved): a magnitude 6 event in one year and a magnitude 5 event in the next give an estimate below 6. Proved: the moment of the estimate lies between the largest yearly moment minus the mean and the total minus the mean; so the claim holds for an event whose year released the mean moment in addition to that of the event. |
| C125 | The completeness table of Stepp's test suits the maximum likelihood recurrence | partial | `Recurrence.C125_periods_partial`, `Recurrence.C125_stepp_partial`, `Recurrence.C125_fails` | `Props/SteppTable` | False of the code (negation proved): Stepp's test can return a row for whose years and magnitudes there is no event, and then b_maxlike_time raises an error. Proved: the recurrence succeeds, with positive results, for every table whose rows each have an event half a bin above their magnitude in their years; in particular for a table of Stepp's test if the last year has an event half a bin above the largest magnitude of the table. |
| C126 | Larger declustering windows remove no fewer earthquakes | partial | `Declustering.C126_removed_partial`, `Declustering.C126_fails` | `Props/LargerWindows` | False of the code (negation proved): with a larger foreshock fraction a catalogue of three events keeps an event that it removes with a smaller one, since a removed event no longer removes others. Proved if under the larger windows no event lies in the windows of a smaller one and the relation of lying in the windows is transitive. |
| C127 | A maximum observed magnitude can be given to the Kijko estimator | proved | `MaxMag.kijkoObserved_none`, `MaxMag.C127_own_maximum`, `MaxMag.C127_uncertainties_unused`, `MaxMag.C127_uncertainty`, `MaxMag.C127_magnitude_independent`, `MaxMag.C127_terminates` | `Props/MaxObserved` | Termination and the unused uncertainties for every arithmetic, the rest for exact real arithmetic. If several events have the largest magnitude they are assumed to have the same uncertainty (C92 shows why). |
| C128 | The Kijko estimator gives a result for every catalogue | proved | `MaxMag.C128_succeeds`, `MaxMag.C128_default_succeeds` | `Props/MaxObserved` | Exact real arithmetic, where 0/0 is a number; in numpy it is NaN with a warning, not an exception, and ends the iteration (C155_no_smoothing). |
| C129 | The Kijko estimate is not below a given maximum observed magnitude | partial | `MaxMag.C129_not_below_partial`, `MaxMag.C129_not_below_fails` | `Props/MaxObserved` | False of the code (negation proved with the catalogue of C70). Proved if the smoothing factor is positive, some event used is not above the given maximum, and the events used lie within five smoothing factors of each other. |
| C130 | A flag vector of another length than the catalogue is refused | partial | `Completeness.C130_refused_partial`, `Completeness.C130_one_flag`, `Completeness.C130_one_event`, `Completeness.C130_refused_fails` | `Props/FlagLength` | False of the code (negation proved): one flag is taken as the flag of every event. Proved: with a number of flags other than one and a number of events other than one the mismatch is refused; the outcome for one flag and for one event is characterised completely. |
| C131 | Only seven columns of the catalogue influence a run | proved | `Workflow.C131_run`, `Workflow.C131_observable` | `Props/Columns` | The files named in the configuration are assumed to be different from the catalogue and the stored catalogue. |
| C132 | The maximum magnitude does not depend on the completeness and recurrence analyses | proved | `Workflow.C132_maximum` | `Props/Independence` |  |
| C133 | The recurrence does not depend on the maximum magnitude analysis | proved | `Workflow.C133_recurrence` | `Props/Independence` |  |
| C134 | The window types give the published windows | partial | `Declustering.C134_published_partial`, `Declustering.C134_uhrhammer_time`, `Declustering.C134_uhrhammer_constant`, `Declustering.C134_published_fails` | `Props/PublishedWindows` | False of the Uhrhammer time window (negation proved): the code divides the exponent instead of the days by 365, so the window is about three weeks for every magnitude. Everything else proved. |
| C135 | Every command line is understood, answered or refused | proved | `Console.C135_outcome` | `Props/CommandLine` |  |
| C136 | The uncertainty of the magnitudes matters for the maximum magnitude only | proved | `Workflow.C136_run`, `Workflow.C136_observable`, `Declustering.C136_gardner_knopoff`, `Declustering.C136_afteran` | `Props/Uncertainty` |  |
| C137 | A run from a valid source model writes a valid one | proved | `Workflow.C137_valid_result`, `Nrml.rewritten_valid`, `Nrml.rnd12_keeps` | `Props/ValidRun` | rnd12_keeps: the number texts of the code keep the value ranges, as the theorem assumes. |
| C138 | How the analyses end is known for every input | proved | `Completeness.C138_stepp`, `Recurrence.C138_weichert`, `Recurrence.C138_maxlike`, `Recurrence.C138_maxlike_iff`, `MaxMag.C138_kijko`, `MaxMag.C138_cumulative`, `Declustering.C138_declustering`, `Declustering.C138_declustering_values` | `Props/DeclusteringValues`, `Props/Outcomes`, `Props/OutcomesMle` | Over the real numbers, the declusterings also with NaN (Gruenthal windows of negative magnitudes). C138_maxlike_iff decides the maximum likelihood recurrence for every table and every positive interval. Whether the Weichert iteration ends is the subject of C63. |
| C139 | A source with an unusable boundary stops the run | proved | `Workflow.C139_reported`, `Workflow.C139_unusable_boundary` | `Props/Boundaries` | Whether a boundary makes a polygon and whether it is valid is decided by shapely, an arbitrary function of the coordinates in the model. |
| C140 | A number is read from a text exactly when the text is a decimal literal | proved | `Format.C140_read`, `Format.C140_refused`, `Format.C140_unique`, `Format.C140_printed`, `Format.C140_printed_table`, `Nrml.C140_schema` | `Props/NrmlSchema`, `Props/NumberText` | float() of Python also reads nan, inf and infinity, which have no value in an ordered field; see C143 for catalogues. |
| C141 | The result file holds the results of the analyses of each source | proved | `Workflow.C141_results` | `Props/WholeRun` | Over any number type. The random stream of the cumulative moment analysis is at some position p. |
| C142 | Every earthquake enters the maximum likelihood b-value | partial | `Recurrence.C142_fails`, `Recurrence.C142_used_partial`, `Recurrence.C142_all_partial` | `Props/UsedEvents` | b_max_likelihood drops the bins whose centre is below the completeness magnitude, so events less than half a magnitude interval above it may be ignored (if no event is left the code divides 0 by 0 and returns nan). Proved: the estimate is made from the events in the other bins, among them every event at least half an interval above the completeness magnitude; and from all events if the completeness magnitude is not above the centre of the lowest bin. |
| C143 | Accepted earthquakes have ordinary numbers | partial | `EqCatalog.C143_fails`, `EqCatalog.C143_depth_fails`, `EqCatalog.C143_position_partial`, `EqCatalog.C143_magnitude_partial`, `Recurrence.C143_default_table` | `Props/NotANumber`, `Props/SpecialValues` | The magnitude is not checked, and the depth only for being positive: the magnitude text nan and the depth text inf are accepted. Proved: longitude and latitude are ordinary numbers, the depth is a positive number or infinite, the magnitude is an ordinary number exactly when its text is a decimal literal. One nan magnitude makes the default completeness magnitude nan, and then the maximum likelihood recurrence raises ValueError whatever the other earthquakes. |
| C144 | The maximum likelihood recurrence gives numbers | partial | `Recurrence.C144_fails`, `Recurrence.C144_nan`, `Recurrence.C144_number_partial` | `Props/SpecialValues` | If no complete event is left after dropping the bins whose centre is below the completeness magnitude, numpy divides 0 by 0 and b-value and rate are nan. Proved for arithmetic with infinities and NaN (numbers are exact reals otherwise): if some event of each period lies half a magnitude interval above its completeness magnitude, the results are the positive numbers of exact arithmetic. The uncertainties (sigma) are not covered: for a period of one event numpy gives nan. |
| C145 | A run is the composition of its analyses | proved | `Workflow.C145_run`, `Workflow.C145_standard`, `Workflow.C145_determined` | `Props/Refinement` | an equivalence between the runs of the workflow that end without exception and a relation that only mentions the analyses and the files; C145_standard spells it out for the standard configuration |
| C146 | Catalogue files are read line by line and cell by cell | proved | `Csv.C146_lines`, `Csv.C146_last_line`, `Csv.C146_open_quotation`, `Csv.C146_cells` | `Props/PlainText` |  |
| C147 | No line of the catalogue is silently lost | partial | `Csv.C147_no_line_lost_partial`, `Csv.C147_fails` | `Props/PlainText` | holds for all files without quotes; a stray quote at the start of the optional last cell swallows the lines that follow (negation proved) |
| C148 | A catalogue file cut off in the middle of a row is refused | partial | `Csv.C148_cut_off_refused_partial`, `Csv.C148_fails` | `Props/PlainText` | every quote-free file with a line that does not have 24 commas is refused; a cut inside the last column is not noticed (negation proved) |
| C149 | The magnitude range of the written sources is not empty | partial | `Workflow.C149_range_partial`, `Workflow.C149_fails`, `Workflow.C149_recurrence_only_fails` | `Props/MagnitudeRange` | proved for the Kijko algorithm and events within five smoothing widths; false of the code for cumulative moments (maximum below the largest event) and when no maximum magnitude is computed for the default source (negations proved) |
| C150 | The checks of optional columns repair, those of compulsory columns only judge | proved | `EqCatalog.C150_checks` | `Props/Checks` | Exact real numbers in the columns; values of every type (numbers, texts, None) in every column. |
| C151 | The compulsory columns are the documented ones | partial | `EqCatalog.C151_documented_partial`, `EqCatalog.C151_identifier_and_second`, `EqCatalog.C151_fails` | `Props/Documented` | False of the code for two columns (negation proved): a blank Identifier, documented as not used, makes the row refused; blank seconds, documented as compulsory, are accepted. Proved for the other 23 columns. |
| C152 | The eventID identifies an earthquake | partial | `EqCatalog.C152_identifiers_partial`, `EqCatalog.C152_fails` | `Props/Documented` | False of the code (negation proved): repeated identifiers are accepted. Proved: the identifiers are the numbers of the first column in file order, so they are unique exactly if those of the file are. |
| C153 | Only two-column files are taken as completeness tables | partial | `Table.C153_outcome`, `Table.C153_two_columns_partial`, `Table.C153_word`, `Table.C153_one_column_fails` | `Props/TableFiles` | The outcome is decided for every file; files of two columns of numbers are read as stated. Refuted in general: two lines of one number are taken as one row, and a word becomes NaN. |
| C154 | The Weichert recurrence gives numbers | proved | `Recurrence.C154_numbers`, `Recurrence.C154_transfer` | `Props/WeichertValues` | Exact numbers with infinities and NaN (no rounding). With at least one kept earthquake the computation is the one of exact arithmetic, step by step; with none it never returns (C63_nothing_complete). |
| C155 | The Kijko estimate is a number | partial | `MaxMag.C155_numbers_partial`, `MaxMag.C155_numbers_fails`, `MaxMag.C155_no_smoothing`, `MaxMag.C155_equal_magnitudes`, `MaxMag.C155_outcome`, `MaxMag.C155_outliers`, `MaxMag.C155_outliers_fails` | `Props/KijkoOutcome`, `Props/KijkoValues` | False of the code (negation proved): whenever the smoothing factor, rounded to two decimals, is zero, both results are NaN, in particular for one event and for events of equal magnitude. Proved: with a positive smoothing factor and events within five smoothing factors of those used, the computation with infinities and NaN is the one of exact arithmetic. With a positive smoothing factor and any events: either the computation is the one of exact arithmetic, or both results are NaN and the smoothed number of events vanishes at a value of the iteration. The latter happens whenever the smallest and the largest event are more than five smoothing factors away from all others (for example 3.5, 5.0, 5.0, 5.4, 5.4, 7.0). |
| C156 | The cumulative moment estimate is a number | partial | `MaxMag.C156_numbers_partial`, `MaxMag.C156_numbers_fails`, `MaxMag.C156_estimate`, `MaxMag.C156_one_year`, `MaxMag.C156_one_sample` | `Props/CumulativeValues` | False of the code (negation proved): events of one year give minus infinity with the uncertainty NaN, one bootstrap sample gives the uncertainty NaN. Decided for cumulative_moment and integer years: minus infinity exactly if every year released the same moment. Proved for the bootstrap: two or more samples none of which is of that kind give ordinary numbers, those of exact arithmetic. |
| C157 | The completeness table of Stepp holds ordinary numbers | proved | `Completeness.C157_stepp_numbers` | `Props/SteppValues` | Numbers with infinities and NaN, without rounding. |
| C158 | The declusterings give the same with infinities and NaN | partial | `Declustering.C158_gk`, `Declustering.C158_gk_partial`, `Declustering.C158_gk_small`, `Declustering.C158_afteran`, `Declustering.C158_afteran_partial`, `Declustering.C158_afteran_alone`, `Declustering.C158_afteran_fails` | `Props/DeclusteringValues` | False of the code (negation proved): Gruenthal windows of negative magnitudes are NaN, and Afteran then raises IndexError. Everything else agrees with exact arithmetic; what Gardner-Knopoff does with such events is characterised. |
| C159 | The occurrence rates of a fault are ordinary numbers | partial | `Fault.C159_rates_partial`, `Fault.C159_zero_b`, `Fault.C159_rates_fails` | `Props/FaultValues` | False of the code for a b-value of zero (negation proved), where every rate is NaN; true for all other b-values. The estimate of the maximum magnitude is an arbitrary function giving ordinary numbers. |
| C160 | Validated faults and regions hold no NaN | partial | `Fault.C160_fault_partial`, `Fault.C160_fault_fails`, `Fault.C160_region_partial` | `Props/FaultValues` | False of the code for an infinite lower depth (negation proved); no NaN passes. |
| C161 | The rate of earthquakes is positive | partial | `Recurrence.C161_rate_partial`, `Recurrence.C161_default`, `Recurrence.C161_stepp`, `Recurrence.C161_late`, `Recurrence.C161_rate_fails` | `Props/PositiveRates` | Refuted: a zone with earthquakes of 1980 to 1990 and a completeness table (2000, 5.0) gets a negative rate, because the earthquakes from the completeness magnitude on are counted whatever their year and the period 1990-2000+1 is negative. Proved for tables whose years are not later than the year after the last earthquake; this holds for the default table in every zone and for the table of Stepp in the catalogue it was computed from. For tables later than that a returned rate is always negative. The rates of the maximum likelihood algorithm are positive by C125 and C144. |
| C162 | A Weichert run writes ordinary numbers and positive rates | proved | `Workflow.C162_run` | `Props/RunNumbers` | Composes C145 with C154, C157 and C161. The case left out (a source model together with the table of Stepp or a table from a file) is the one in which C161 refutes the positive rate. |
| C163 | The recurrence table counts every earthquake, in double precision | partial | `Recurrence.C163_total_partial`, `Recurrence.C163_fails` | `Props/DoubleBins` | Refuted: the magnitude 3.5999999999999996 (the double next below 3.6), times ten, rounds to 36, so that the first edge is above it and the table is empty. Proved for magnitudes of at most two decimals between -10 and 10 and bin widths between 0.001 and 10: every earthquake is counted exactly once in double precision, whatever the functions of the C library. |
| C164 | An earthquake is counted in the bin of its magnitude, in double precision | partial | `Recurrence.C164_bin_partial`, `Recurrence.C164_fails` | `Props/DoubleBins` | Refuted: with the magnitudes 3.0 and 3.3 and bins of 0.1 the earthquake of 3.3 is counted in the bin from 3.2 to 3.3. Proved for bins neither end of which is within 1e-8 of a magnitude of the catalogue. |
| C165 | Possible values are delivered as they stand in the file | partial | `EqCatalog.C165_kept_partial`, `EqCatalog.C165_seconds_dropped`, `EqCatalog.C165_fails` | `Props/KeptValues` | Refuted: seconds above 59 (59.5) are replaced by the empty string. Everything else is proved, for every dictionary order. |
| C166 | Weights that add up to one are accepted, in double precision | partial | `Fault.C166_accepted_partial`, `Fault.C166_fails` | `Props/DoubleWeights` | Refuted: the weights 0.7, 0.2, 0.1 are refused, because their sum in double precision is 0.9999999999999999. Proved for one or two weights and for any number of weights that are binary fractions. |
| C167 | The weights of an accepted region add up to one, in double precision | proved | `Fault.C167_sum_near_one` | `Props/DoubleWeights` | Rounding to 53 bits without overflow and underflow. |
| C168 | There is one occurrence rate per magnitude bin, in double precision | partial | `Fault.C168_number_partial`, `Fault.C168_fails` | `Props/DoubleMfd` | Refuted: from magnitude 4 to 5 there are eleven rates for ten bins of 0.1. Proved: exactly one rate per bin unless the range is, up to a millionth of a bin, a whole number of bins; then there may be one rate too many, never more and never one too few. |
| C169 | Decimal year orders dates, in double precision | proved | `CatUtil.C169_integer_part`, `CatUtil.C169_order` | `Props/DoubleDates` | Rounding to 53 bits; calendar dates of the years -10000 to 10000. |
| C170 | The completeness table has one row per magnitude bin, in double precision | partial | `Completeness.C170_rows_partial`, `Completeness.C170_fails` | `Props/DoubleStepp` | Refuted: the magnitudes 3.0 and 3.1 with bins of 0.1 give two rows for one bin. Proved: exactly one row per bin unless the range is, up to a millionth of a bin, a whole number of bins; then there may be one row too many, never more and never one too few. The magnitudes of the rows are those of exact arithmetic up to 1e-9, the first exactly. |
| C171 | Stepp counts every earthquake of a time window once, in double precision | proved | `Completeness.C171_counts` | `Props/DoubleStepp` | Rounding to 53 bits. That there may be no bin at all (all magnitudes equal to one decimal) is C54. |
| C172 | An earthquake at the completeness magnitude is not removed, in double precision | partial | `Completeness.C172_flag_partial`, `Completeness.C172_fails` | `Props/DoubleStepp` | Refuted: the row for magnitude 3.3 of a catalogue from 3.0 on has the magnitude 3.3000000000000003, so that it removes an earthquake of magnitude 3.3. Proved for earthquakes whose magnitude is not within 1e-8 of the one of a row. |
| C173 | Weichert preparation accounts for the earthquakes, in double precision | proved | `Recurrence.C173_counts` | `Props/DoubleWeichert` | Rounding to 53 bits. The magnitudes of the rows that remove nothing are a tenth below those of the earthquakes, which are rounded to one decimal. |
| C174 | Weichert bins hold the earthquakes of their magnitudes, in double precision | partial | `Recurrence.C174_bin_partial`, `Recurrence.C174_fails`, `Recurrence.C174_complete_lost` | `Props/DoubleWeichert` | Refuted: with the magnitudes 3.0 and 3.3 and bins of 0.1 the earthquake of 3.3 is counted in the bin from 3.2 to 3.3; as a consequence a complete earthquake is lost if the table has the magnitude 3.3. Proved for bins neither end of which is within 1e-8 of a magnitude of the catalogue. |
| C175 | The Julian date keeps the order and the distance of earthquakes, in double precision | proved | `CatUtil.C175_accuracy`, `CatUtil.C175_order` | `Props/DoubleJulian` | greg2julian over doubles: error at most 1e-9 days, and strictly increasing with time from 1902 to 2099 down to 1 ms. |
| C176 | The maximum likelihood recurrence selects the complete earthquakes, in double precision | proved | `Recurrence.C176_selected` | `Props/DoubleMle` | Selection of b_maxlike_time over doubles, for tables of stepp over doubles: same earthquakes as in exact arithmetic. |
| C177 | Every selected earthquake enters the maximum likelihood b-value, in double precision | proved | `Recurrence.C177_used` | `Props/DoubleMle` | The counts of the bins that enter the b-value add up to the number of selected earthquakes, over doubles. |
| C178 | The observation periods of the Weichert bins are those of exact arithmetic, in double precision | proved | `Recurrence.C178_periods`, `Recurrence.C178_stepp` | `Props/DoublePeriods` | Observation periods of weichert_prep over doubles; second theorem for tables of stepp over doubles. |
| C179 | A stored completeness table has the magnitudes of exact arithmetic, in double precision | proved | `Recurrence.C179_stored` | `Props/DoubleTable` | Storing with five decimals and reading over doubles: the rows are the doubles nearest to the decimal magnitudes. |
| C180 | Storing the completeness table changes no result, in double precision | partial | `Recurrence.C180_selection_partial`, `Recurrence.C180_periods_partial`, `Recurrence.C180_fails` | `Props/DoubleTable` | Same selection and same observation periods; the numbers of earthquakes in the Weichert bins can differ (computed magnitude 3.3000000000000003, stored magnitude 3.3). |
| C181 | Storing a catalogue loses no number in double precision | proved | `Format.C181_number`, `Csv.C181_catalogue` | `Props/DoubleText` | repr (shortest text) and float (nearest double) of Python 2.7 modelled over doubles; C13 without assumptions on number texts. |
| C182 | Source model numbers of at most twelve digits survive writing and reading in double precision | proved | `Nrml.C182_sources`, `Nrml.C182_stable` | `Props/DoubleText` | str (twelve digits) and float over doubles satisfy the laws assumed by C83-C90. |
| C183 | The cumulative moment attributes every earthquake to its year, in double precision | proved | `MaxMag.C183_years` | `Props/DoubleMoment` | double precision with any mathematical library |
| C184 | Declustering does not depend on row order, is final and keeps no dependent pair, in double precision | proved | `Declustering.C184_gk_row_order`, `Declustering.C184_afteran_row_order`, `Declustering.C184_gk_again`, `Declustering.C184_gk_no_pair` | `Props/DoubleDecluster` | double precision with any mathematical library |
| C185 | Afteran links earthquakes by steps of at most the time window, in double precision | proved | `Declustering.C185_mainshock_largest`, `Declustering.C185_chain` | `Props/DoubleDecluster` | double precision with any mathematical library |
| C186 | Afteran finds the clusters of exact arithmetic, in double precision | partial | `Declustering.C186_same_partial`, `Declustering.C186_succeeds`, `Declustering.C186_fails` | `Props/DoubleAfteran` | false for earthquakes exactly the time window apart: ten days after 1 January 2000 is more than 10/365 in double precision; holds when no two dates are exactly the window apart |
| C187 | Gardner-Knopoff finds the clusters of exact arithmetic and keeps the largest earthquake, in double precision | proved | `Declustering.C187_gk_same`, `Declustering.C187_distance_symmetric`, `Declustering.C187_gk_largest` | `Props/DoubleGk` | the agreement of the window decisions is a hypothesis, as the windows are computed by the mathematical library |
| C188 | The maximum likelihood b-value is accurate and within its bounds, in double precision | proved | `Recurrence.C188_b_value` | `Props/DoubleBValue` | The only assumption about the library functions is that log10(exp(1)) is positive. Nothing is said about the uncertainty, whose square root is not specified. |
| C189 | The averages over the completeness periods are averages, in double precision | proved | `Recurrence.C189_average` | `Props/DoubleBValue` | All four results; no assumption about the library functions. |
| C190 | The maximum likelihood method succeeds with a b-value within its bounds, in double precision | proved | `Recurrence.C190_run` | `Props/DoubleBValue` | Combines C177, C188 and C189. |
| C191 | Occurrence rates are positive and add up, in double precision | proved | `Fault.C191_rates` | `Props/DoubleRates` | For a given maximum magnitude. The assumptions about the library functions are spelled out in Spec.Elementary. |
| C192 | The reader decides about the numbers in the file, in double precision | partial | `EqCatalog.C192_row_partial`, `EqCatalog.C192_file_partial`, `EqCatalog.C192_accepts`, `EqCatalog.C192_fails` | `Props/DoubleReader` | Refuted by a longitude of 180.00000000000000001 degrees, which is rounded to 180 and accepted. The partial theorems assume at most nine decimals and numbers up to 100000; C192_accepts has no such limit. Texts like inf and nan are treated in C143. |
| C193 | Every row of a catalogue file is counted in the recurrence table, in double precision | proved | `Workflow.C193_file` | `Props/DoubleFile` | Composition of C10, C14, C163, C164 and C165 at the level of the texts of the file. Bins with an earthquake at an edge are excluded as in C164, which is refuted for them. |
| C194 | Rounding errors of the completeness table do not reach the b-value, in double precision | proved | `Recurrence.C194_table`, `Recurrence.C194_stored` | `Props/DoubleMleTable` | The a-value is computed with the completeness magnitude itself and is not covered. The Weichert method is the subject of C180. |
| C195 | A file with one-decimal magnitudes leads to a positive b-value in double precision | proved | `Workflow.C195_file` | `Props/DoubleFileRun` | The catalogue matrix, the default completeness table and the recurrence job, with IEEE rounding; the elementary functions are arbitrary except that log10(exp(1)) is positive. |
| C196 | The width of a fault is positive and accurate in double precision | proved | `Fault.C196_width`, `Fault.C196_accuracy`, `Fault.C196_monotone`, `Fault.C196_vertical`, `Fault.C196_direction` | `Props/DoubleFault` | IEEE rounding with unbounded exponent; the elementary functions are arbitrary apart from the stated properties. |
| C197 | A catalogue and a completeness table that were stored lead to the same b-value in double precision | proved | `Recurrence.C197_selected`, `Recurrence.C197_stored`, `Workflow.C197_files` | `Props/DoubleStored` | IEEE rounding with unbounded exponent; the mathematical library is arbitrary. C197_files: jobs and files; C197_stored: the recurrence on the stored table and catalogue; C197_selected: removing the incomplete events beforehand changes nothing. |
| C198 | A run writes a maximum magnitude that is a number | partial | `Workflow.C198_run_partial`, `Workflow.C198_equal`, `Workflow.C198_fails` | `Props/MaximumRun` | Refuted: a run on one earthquake, or on earthquakes of one magnitude, ends without exception and writes NaN. Holds: the maximum magnitudes written are ordinary numbers or NaN, never infinite. |
| C199 | Row order does not matter to the analyses in double precision | proved | `Completeness.C199_stepp`, `Recurrence.C199_recurrence`, `MaxMag.C199_kijko` | `Props/DoubleRowOrder` | In double precision.  With no more events than the configured number, kijko_nonparametric_gauss adds up the kernels in row order, which is not covered. |
| C200 | The completeness years are those of exact arithmetic in double precision | proved | `Completeness.C200_years`, `Completeness.C200_succeeds`, `Completeness.C200_lock`, `Completeness.C200_stored` | `Props/DoubleSteppYears` | In double precision. |
| C201 | The sources do not influence each other | proved | `Workflow.C201_run`, `Workflow.C201_each` | `Props/SourceIndependence` | Over any number type.  With Cumulative_Moment the random numbers of all sources come from one stream, so a source model with another first source shifts them. |
| C202 | A seed makes the cumulative moment analysis reproducible | partial | `MaxMag.C202_int_partial`, `MaxMag.C202_samples`, `MaxMag.C202_fails` | `Props/Seed` | Proved for seeds of type int; a long integer is silently ignored and the shared generator is used instead, which is refuted by a witness over the reals. |
| C203 | A run in two parts gives the b-values of the run in one in double precision | proved | `Workflow.C203_run` | `Props/DoubleRuns` | Whole runs of main in double precision; the second run uses the configuration of the first one with the stored catalogue as input and no preprocessing jobs. |
| C204 | The order of the rows of the catalogue file does not matter to a run | proved | `Workflow.C204_exact`, `Workflow.C204_double` | `Props/RowOrderRun` | Whole runs of main.  The result document is the same in every number, not only up to rounding.  With equal magnitudes the clusters depend on the order of the sort (C41). |
| C205 | Only the earthquakes inside a source matter to it | partial | `Workflow.C205_partial`, `Workflow.C205_fails` | `Props/OutsideEvents` | Proved for runs with a completeness table file, or with the same first year and smallest magnitude in both catalogues.  Without a completeness table file the default table takes the first year and the smallest magnitude of the whole catalogue, so a small earthquake far away changes the a-value of a source: refuted by two runs over the reals. |
| C206 | What is computed for a source depends on its boundary only | proved | `Workflow.C206_run` | `Props/OnlyBoundary` | Whole runs of main, including the methods that draw random numbers. |
| C207 | The text of a written source model is well-formed and is read back | proved | `Xml.C207_tree`, `Xml.C207_document`, `Xml.C207_sources`, `Xml.C207_injective`, `Workflow.C207_next_run` | `Props/XmlText` | The text layer (serialiser of libxml2, parser) is modelled on characters in Model/XmlText.lean; a guard checks that the model writes tests/data/serialized_models.xml character by character. |
| C208 | A number written to the configuration file as Python prints it is the number the program computes with | partial | `Yaml.C208_partial`, `Yaml.C208_usual_partial`, `Yaml.C208_int`, `Yaml.C208_dotless`, `Yaml.C208_fails`, `Yaml.C208_tolerance` | `Props/ConfigNumbers` | False for the doubles Python prints without a decimal point, among them 1e-05: they are loaded as texts, and with a text as tolerance the Kijko estimator raises an exception for every catalogue. Proved for every double printed with a point, in particular zero and magnitudes from 1e-4 to 1e15, and for all integers. The resolver of PyYAML for plain scalars is modelled; quoting, block structure and document syntax are not. |
| C209 | Comments, blank lines and indentation of the configuration file change nothing | proved | `Yaml.C209_layout` | `Props/ConfigText` | The part of YAML that the documented files use is modelled on characters in Model/YamlConfig.lean (block mapping, item lines, flow mappings with one entry per line, comments); a guard reads the text of config.yml. |
| C210 | The order of the entries of the configuration file does not matter and unknown entries are ignored | proved | `Yaml.C210_order`, `Yaml.C210_unknown`, `Yaml.C210_repeated` | `Props/ConfigRead` | On the mapping that the file is loaded as; values have their documented types (otherwise the configuration is none on both sides). |
| C211 | The configuration written to the file is the configuration of the run | partial | `Yaml.C211_partial`, `Yaml.C211_fails`, `Yaml.C211_number` | `Props/ConfigRead` | False: of the file name data #2.csv only data is read, and a file named by a number is read as a number. Proved for names that begin with a letter, underscore or slash, or have a slash or a letter that does not occur in numbers anywhere, and consist of letters, digits, inner spaces and _-+./ (except words such as yes, no, null), numbers printed with a decimal point, all counts and flags. |
| C212 | Digits in the configuration file are the decimal number they spell | partial | `Yaml.C212_partial`, `Yaml.C212_octal`, `Yaml.C212_text`, `Yaml.C212_based`, `Yaml.C212_fails` | `Props/ConfigDigits` | False: 0100 is read as sixty-four. Proved for rows of digits that do not begin with a zero; for the others it is proved what they are read as: an octal number, or a text if an eight or a nine occurs, and hexadecimal and binary numbers after 0x and 0b. |
| C213 | Comments in a source model file change nothing | partial | `Xml.C213_partial`, `Xml.C213_cut`, `Xml.C213_sources`, `Xml.C213_fails` | `Props/XmlComments` | False: of <m>6<!--was 7-->.5</m> only 6 is read. Proved for comments with nothing but blanks before the next tag (for all files, well-formed or not, and for written source models down to the sources), and in general that whatever stands between a comment and the next tag is not read. Not covered: comments after the root element, and files with carriage returns. |
| C214 | The layout of a source model file does not matter | proved | `Xml.C214_layout`, `Xml.C214_windows` | `Props/XmlLayout` | Equality of the parsed trees, also when both are refused; the sources are computed from the tree. Texts between tags, and raw values of attributes, are the same in both files. |
| C215 | A run depends on the configuration, not on how its file is typed | proved | `Console.C215_run`, `Console.C215_same` | `Props/TextRun` | On the text of the file: Model/TextProgram reads it with Model/YamlConfig and runs Model/Configuration. Sections that are not given may be left out; an empty list of jobs is written as a key without value. |
| C216 | Characters of a source model file may be written as references | proved | `Xml.C216_files`, `Xml.C216_text`, `Xml.C216_value` | `Props/XmlReferences` | On the characters of the file (Model/XmlText); carriage returns only as references, as typed ones are line ends. |
| C217 | A decimal number in the configuration is read as that number | partial | `Yaml.C217_partial`, `Yaml.C217_sign`, `Yaml.C217_exponent`, `Yaml.C217_fails` | `Props/ConfigDecimals` | False: 1.5e3 (an exponent without sign) and -.5 (a sign before the point) are read as texts. Proved for all spellings in which the exponent has a sign and a signed number begins with a digit, underscores between digits included; the other two forms are proved to be read as texts. |
| C218 | A run depends on its input files only through what they say | proved | `Workflow.C218_reading`, `Workflow.C218_run`, `Workflow.C218_catalogue`, `Workflow.C218_model`, `Workflow.C218_table` | `Props/Reading` | C218_reading: equal readings give equal runs, for all files. C218_run: for files of the same rows, texts and tags typed in any of the ways of SaysCatalogue, SaysModel and Table.Spec.Contains, with the XML parser of Model/XmlText; the other three theorems are its parts. Example: a run in double precision with all three input files typed in another way. |
| C219 | How the numbers of the catalogue and of the completeness table are typed does not matter | proved | `Workflow.C219_run`, `EqCatalog.C219_rows`, `EqCatalog.C219_row`, `Table.C219_table`, `Format.C219_whole` | `Props/NumbersTyped` | C219_run: whole runs in double precision, with any mathematical library; the others are its parts. Example: a run in double precision and the same with numbers typed in other ways in both files. For the numbers of the source model see C221. |
| C220 | Typing all four files of a run in another way leads to the same run | proved | `Console.C220_run`, `Console.C220_main` | `Props/Retyped` | textProgram, i.e. the program from the command line and the text of its configuration file, in double precision with any mathematical library; C220_main: the part after the configuration is read. Example: a run that ends normally and writes a source model, and the same with all four files typed in another way. Source models may differ as in C218 or as in C221; the parts of YAML, CSV and XML are those of Describes, SaysCatalogue and SaysModel. |
| C221 | How the numbers of the source model are typed and how its elements are indented does not matter | proved | `Workflow.C221_run`, `Workflow.C221_model`, `Nrml.C221_doc`, `Nrml.C221_words`, `Nrml.C221_schema` | `Props/ModelTyped`, `Props/ModelValid` | C221_doc: for any reading of numbers that depends only on the number; C221_model and C221_run: for the reading of doubles in Model/Format and whole runs; C221_words: the words found by the reader are those of a specification of white space. The verdict of the schema is a parameter of the model and assumed to be the same for both documents; C221_schema shows this for the part of the schema in Spec/NrmlSchema. Examples: a conforming document retyped; a run in double precision that writes a source model, and the same with all numbers of the source model typed in another way, line breaks in the lists and other indentation. |
| C222 | How the values of the configuration file are spelled does not matter | proved | `Yaml.C222_stands`, `Yaml.C222_config`, `Yaml.C222_load`, `Console.C215_run`, `Console.C215_same`, `Console.C220_run` | `Props/ConfigSpelled`, `Props/Retyped`, `Props/TextRun` | the runs are C215_run, C215_same and C220_run, whose files describe a configuration in any order, spelling and layout; that some spellings of numbers in common use are not read as numbers is C208, C212 and C217. Not modelled: a reference magnitude given as a whole number, which the writer prints without a decimal point (nrml/writer.py:237); such a file has no configuration in the model |
| C223 | Every number can be given in the configuration file | proved | `Yaml.C223_number`, `Yaml.C223_load`, `Yaml.C223_file`, `Console.C223_run`, `Console.C215_run` | `Props/ConfigPointed`, `Props/TextRun` | all numbers with unbounded exponent; names as in C211_partial; the number that Python prints is C181 |
| C224 | Further entries in the configuration file do not matter | proved | `Yaml.C224_config`, `Yaml.C224_load`, `Console.C215_run`, `Console.C215_same`, `Console.C220_run` | `Props/ConfigExtra`, `Props/Retyped`, `Props/TextRun` | the runs are C215_run, C215_same and C220_run, whose files may have further entries; values of the further entries are of the modelled part of YAML |
