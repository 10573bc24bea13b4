# Formal model of sympl: design

The code modelled is `/repo/sympl` (read as text, never run).  The model is in
Lean 4 under `lean/Verif`.  `properties.jsonl` lists the properties,
`MANIFEST.json` says which theorem proves which property, and
`seeded/LOG.jsonl` records the wrong programs the theorems were tested against.

## 1. Layout

| directory | contents |
|---|---|
| `Verif/Py/*` | Python substrate: insertion-ordered dictionaries, exceptions as values |
| `Verif/Model/*` | the model, function by function, each definition citing file and lines |
| `Verif/Lemmas/*` | helper lemmas about the model |
| `Verif/Spec/*` | small independent specifications used to state properties |
| `Verif/Props/*` | property theorems, each with a concrete `example` next to it |

## 2. Modelling decisions

* **Numbers** are exact rationals `ℚ`.  Floating-point rounding, NaN, dtypes and
  integer overflow are not modelled.  Division by a zero timestep gives 0.
  `Model/Rounding` runs the time steppers in arithmetic that rounds every result and constant
  (any rounding, or that of `float64` without its limits on exponents); C109, C110, C114, C115, C117, C118 and C120 are about it.
* **Times and timedeltas** are integers (microseconds).  `total_seconds()` is
  the rational µs/10^6.  Calendar arithmetic is not modelled; which fields a
  date type accepts is a parameter (C56).
* **dict** is an insertion-ordered association list (`Dict`); `d[k] = v` keeps
  the position of an existing key and otherwise appends.  Iteration order of a
  `set` of strings is a parameter (`SetOrder`, any permutation).
* **Exceptions** are values (`Except Err`).  Messages and warnings are not
  modelled, only the class.  Where a raising call has already changed `self`, the
  model returns the new `self` beside the `Except`.
* **numpy arrays** are a shape and a function from index lists to ℚ.  reshape is
  C order through `ravel`/`unravel`; transpose checks that the axes are a
  permutation; size mismatch is ValueError.
* **xarray.DataArray** is a list of dims, an array and attributes.  dtype is
  not modelled; coordinates (labels of a dimension) only in `Coords`, where xarray aligns
  operands by label (inner join) and in-place arithmetic raises if labels differ.  Binary operations follow xarray: dims of the
  left, then the unseen dims of the right; conflicting lengths raise ValueError.
* **pint** is a parameter: a registry that maps unit strings to (dimension
  vector, scale > 0, offset) or fails.  Conversion is the affine map given by
  scale and offset.  Laws about string composition (`u + ' s^-1'`) are stated as
  explicit hypotheses of the theorems that need them (`Faithful`, `RateUnits`,
  `QuotientOk`) and are shown satisfiable by a concrete registry.
* **User code** (`array_call`, wrapped components) is an arbitrary function
  parameter over an arbitrary world `σ`; it may differ at each call, which covers
  stateful components.
* **Property dictionaries** of a class are shared by its instances (`Class`), or
  rebuilt on every access where the code does so (`constructRebuilt`, `tsClass`).
* **Object identity** matters for in-place mutation; those properties (C30, C42,
  C43) use separate heap models in which arrays are references.
* **NetCDF file**: per variable dims, attributes and rows; reading back is the
  identity apart from what xarray decodes (times, `units` of time), which is
  modelled.
* **File system** of RestartMonitor: a finite map from names to contents
  (absent / partial / complete state); rename, remove and close are atomic steps,
  and a store is the list of disks after each step, so that a crash is any prefix.

## 3. Plan and result per property

131 properties: 76 proved, 55 partial.  "partial" means that the code does not satisfy the
property as stated in `properties.jsonl`, or that only part is proved.  In both
cases the part proved has the suffix `_partial`, a counterexample or a general
failure theorem is proved next to it where the code is wrong, and the note says
what is missing.

General method: C01 to C09 by a named-index specification of arrays
(`Spec/Arrays`) and ravel/transpose algebra; C10 to C12 over affine maps;
C13 to C20 and C58 to C63 by the decision logic of `__init__` and `__call__`
against declarative conditions; C21 to C25 by list and axis algebra and
invariants over histories of the tracer registry; C26 to C29, C64 and C66 to C68
by an exact account of which entries can be merged; C31 to C40, C65, C69, C78, C86 and C87 by
induction over call histories and ring identities; C41 to C44 by refinement to
a schedule or a pointwise law; C45 to C48 by invariants over histories; C49 to
C51 by refinement to a log of records; C52 to C54 by a crash-point transition
system; C81 by an invariant over histories of `__init__` calls; C82 by a simulation
between calls under an arbitrary backend and calls with DataArrays; C98 by induction over the
steps of a run to the recurrences of the schemes, whose solutions are then bounded by a
contraction argument (and below by a growing mode, for Leapfrog); C103 by bounds of the local error from
Taylor polynomials of the exponential and norms in which the schemes do not grow; C99 by an invariant of the
states and of the memory of the steppers under which every operation of a step succeeds; C100 by
a simulation by name of quantity and axis between runs with the components in two orders; C101 and
C102 by case analysis of every failing step against a list of faults of the state and of the
returned arrays; C112 by C99's invariant for states at any time, whose stores form a program in the sense of C111; C113 by a simulation in
which two wrappers have the same memory or are both due; C114 by following two
runs stage by stage: how far apart their states are, and how large; C115 by Taylor's theorem for the truncation error of a step and
an induction over the steps for how it grows. C116 adds the same for the stages of SSPRungeKutta,
whose weights are the trapezoidal rule and Simpson's rule, and whose growth is at most the exponential function. For Leapfrog (C117) the errors of
the two states it carries are followed together; with `alpha = 1/2` their sum and their difference are followed, because
the filter does not change the sum. For components in an UpdateFrequencyWrapper (C118) the theorem of C115 is proved with
an invariant of what the components remember; the wrapper's is that its output was computed from a state of the run. C119 gives every array the position of each of its elements in the state's memory; where these are follows from the theorems
about values (C01 ff.), applied to a state in which all elements have different values. C120 follows two Leapfrog runs and the states
they remember, step by step, as C114 does. C121 runs the steppers in an arithmetic of ensembles (one array per member; `SteppersOver`),
which both the run of each member and the run of the mean stand for.
C122 takes arrays with elements of any type and any operations on them (`Model/Elements`), and proves once that the time
steppers keep every relation that the operations keep (`Props/Alike`). Agreement outside a region is such a relation, and so
is "is the same array and has NaN at this point".
C123 uses the same theorem with states that differ in their time only.
C125 uses it with a relation that depends on the name of the quantity.
C124 follows exceptions through the time steppers of `Model/SteppersOver`: what the operations and the components raise is passed on,
and the code adds four kinds of its own.

* **C01** Inputs reach a component labelled correctly (proved): `inputs_labelled_correctly`, `alias_equal_to_name_loses_input`. Aliases must be distinct from names (alias_equal_to_name_loses_input shows the hypothesis is needed).
* **C02** All arrays given to one component agree on dimension lengths (proved): `input_lengths_agree`.
* **C03** Inconsistent input states are always rejected (proved): `invalid_inputs_rejected`, `valid_inputs_accepted`, `wildcard_overlap_rejected`. wildcard_overlap_rejected: a consistent state is rejected when a dimension is matched by one wildcard and named by another quantity.
* **C04** Extract-then-restore is the identity on values (proved): `extract_restore_roundtrip`.
* **C05** Component outputs with the wrong shape are rejected (partial): `wrong_shape_rejected`, `wrong_shape_error_class`, `wrong_size_rejected_wildcard_partial`, `wrong_size_error_class`, `wildcard_shape_not_checked`. Proved for outputs without wildcard; with a wildcard only the total size is checked by the code (counterexample proved).
* **C06** Restored outputs carry the state's dimensions (proved): `restored_outputs_carry_state_dims`, `restored_values`.
* **C07** Pre-allocated output arrays always fit (partial): `preallocated_arrays_fit_partial`, `preallocated_alias_not_accepted`. Outputs without alias; for aliased outputs the claim is false (preallocated_alias_not_accepted).
* **C08** get_numpy_array / restore_dimensions round trip (proved): `restore_dimensions_values`, `get_numpy_array_restore_roundtrip`.
* **C09** get_numpy_array returns the requested layout or raises (proved): `get_numpy_array_layout`, `get_numpy_array_errors`.
* **C10** Unit conversion preserves the physical quantity (proved): `to_units_preserves_quantity`, `to_units_back`, `to_units_errors`.
* **C100** The order in which components are given to a time stepper does not matter (proved): `components_in_any_order`, `ab_components_in_any_order`, `ssprk_components_in_any_order`, `lf_components_in_any_order`, `class_independent`, `classes_apart`, `order_matters_with_memory`. Rates are compared exactly, in rational arithmetic; floating-point addition is not associative, so in the code results agree up to rounding. Runs are without tendencies in diagnostics. class_independent is for dims lists without a wildcard or with nothing but a wildcard.
* **C101** Component calls raise the documented exceptions (partial): `exception_explained`, `faultless_accepted`, `documented_exceptions_partial`, `missing_tracer_or_time_key_error`, `missing_input_is_not_key_error`, `unknown_units_not_invalid_state`, `overlap_is_value_error`. False of the code: a missing input raises InvalidStateError, never KeyError (missing_input_is_not_key_error, for every component and state); units unknown to pint raise UndefinedUnitError (unknown_units_not_invalid_state) and a wildcard overlap a ValueError (overlap_is_value_error). Proved: every exception raised before array_call stands for a fault of its own kind (exception_explained), missing tracers and a missing time are KeyErrors, clashing lengths, unlisted dims and missing or inconvertible units are InvalidStateErrors, and a state without fault is accepted.
* **C102** Components that return what they declare do not fail, others fail for what they return (partial): `tendency_exception_explained`, `stepper_exception_explained`, `diagnostic_exception_explained`, `declared_outputs_accepted`, `declared_outputs_accepted_with_tendencies`, `accepted_outputs_named`, `few_axes_is_key_error`, `stepper_alias_tendencies_keyError`, `tracer_tendency_exception_explained`, `tracer_stepper_exception_explained`, `declared_outputs_accepted_with_tracers`, `accepted_outputs_named_with_tracers`, `stepper_tendencies_exception_explained`, `tracer_stepper_tendencies_exception_explained`, `stepper_tendencies_shape_valueError`. Proved: every exception after array_call is that of array_call or stands for a fault of its own kind in what was returned (for Steppers with tendencies in diagnostics also: for an output or its old value that is not there under its name, for shapes that do not broadcast, and for differences that do not fit), what is declared is accepted by all kinds, and what is missing, undeclared or misnamed is never accepted. False of the code: a Stepper with tendencies in diagnostics and an alias fails on what it declares (stepper_alias_tendencies_keyError); with tendencies in diagnostics a wrong shape may raise ValueError instead of InvalidPropertyDictError (stepper_tendencies_shape_valueError); with a wildcard and a dimension that the inputs do not have an array with too few axes raises KeyError instead of InvalidPropertyDictError (few_axes_is_key_error); a quantity returned under its name although it has an alias raises KeyError. With tracers likewise, the faults of the tracer array being a missing array, too few positions or axes, and other lengths; further positions on the tracer axis are accepted and dropped (hmore of declared_outputs_accepted_with_tracers).
* **C103** Runs follow the differential equation to the order of the scheme (partial): `ab_accuracy_partial`, `ssprk_accuracy`, `lf_accuracy`, `lf_accuracy_unfiltered`, `ab_second_order_only`, `ab_no_third_order`, `SolvesRelaxation.eq`, `solvesRelaxation`. Proved with explicit bounds for SSPRungeKutta (orders 2 and 3, timesteps up to the timescale), AdamsBashforth of orders 1 and 2, and Leapfrog with a filter whose alpha is 1/2 (the default) or without filter; with another alpha the bound is of first order. False of the code for AdamsBashforth of the orders 3 (the default) and 4: because the first step is an Euler step the error is of second order (ab_accuracy_partial), and no better (ab_second_order_only, ab_no_third_order).
* **C104** A failed NetCDFMonitor call names its cause and loses no data (proved): `failed_write_explained`, `faultless_write_succeeds`, `failed_store_explained`, `prepare_fails`. For faults noticed after the times are appended the file keeps one record per time without values (failed_write_explained says when), and the next write adds them again: defect 42.
* **C105** get_tracer_names and get_tracer_unit_dict describe the tracer arrays (partial): `tracer_names_listed`, `tracer_names_order_partial`, `registered_twice_listed_twice`. Partial because the code violates the full claim: registering a tracer again with the same units appends its name again (registered_twice_listed_twice), so the list has more names than the arrays have slices. Proved: the arrays follow the list without repetitions, names and keys of the unit dictionary agree after every history, and with no name registered twice the list is the order.
* **C106** Runs continue from a restart file as if they had not been interrupted (partial): `ssprk_restarts`, `euler_restarts`, `restart_is_new_run_partial`, `ab_restart_differs`, `leapfrog_restart_differs`. Partial because the code violates the full claim: AdamsBashforth of orders 2 to 4 and Leapfrog keep earlier tendencies or states that no restart file has, so a continued run starts with an Euler step and ends elsewhere (ab_restart_differs for every such order, leapfrog_restart_differs). Proved: the full claim for SSPRungeKutta and order 1, over all crashes; for the others, that the continued run is the run of a new stepper from the stored state. Only states with dates, because timedeltas are not loaded as such (C94).
* **C107** UpdateFrequencyWrapper only delays the components it wraps (partial): `updates_every_step_partial`, `ab_held_between_updates`, `lf_held_between_updates`, `ssprk_updating_is_euler`, `ssprk_updating_differs`. Partial because the code violates the full claim: the stages of SSPRungeKutta have the time of the first state, so a wrapper with any positive interval, however short, repeats the first stage in the others, and a step with wrapped components is a forward Euler step (`ssprk_updating_is_euler`, with numbers in `ssprk_updating_differs`).  Proved for AdamsBashforth and Leapfrog; for the runs with longer intervals the components must return what depends on the state and timestep only, since a component with memory is called less often.
* **C108** NetCDF files have the states that a run stored (partial): `ab_file_as_stored`, `ssprk_file_as_stored`, `leapfrog_file_as_stored_partial`, `leapfrog_changes_stored`. Proved for AdamsBashforth and SSPRungeKutta. The code violates the claim for Leapfrog: its filter changes the arrays of the state it steps, which wait in the monitor if the state was stored before its step, so that the file has other values when written later than when written on store (leapfrog_changes_stored). leapfrog_file_as_stored_partial proves the claim for programs that store states after their steps, as the documented main loop does, from the first step on and with components that give tendencies of the same quantities at every step. Assumes that the arrays of the program exist, and that components change no existing array. A DataArray and its data are one object; views are not modelled.
* **C109** Quantities that are not stepped keep their values to the last bit (partial): `ab_keeps_unstepped`, `leapfrog_keeps_unstepped`, `ssprk2_keeps_unstepped`, `ssprk3_keeps_unstepped_partial`, `ssprk3_changes_unstepped`. Proved for AdamsBashforth and Leapfrog with any arithmetic, and for SSPRungeKutta with two stages in binary floating-point arithmetic. The code violates the claim for three stages: 1./3*x + 2./3*x is not x for about a third of all numbers, and it is computed for all quantities (ssprk3_changes_unstepped, with float64 rounding and x = 7); proved instead is that n steps change elements by at most the part (1 + u)^(6 n) - 1, where u = 2^-53 for float64.
* **C11** Unit compatibility and sameness are equivalence relations (proved): `units_compatible_equivalence`, `units_same_equivalence`, `compatible_iff_to_units`.
* **C110** Rounding errors of Adams-Bashforth steps and runs are bounded (proved): `ab_step_rounding`, `ab_zero_tendencies_exact`, `ab_run_rounding`, `ab_can_stall`. Values and tendencies in the run are bounded by X and T (hypotheses about the run in rounded arithmetic, which can be observed). ab_can_stall shows that the bound must grow with n: 300 K warmed by 2^-46 K per step never changes in float64. Overflow, underflow and NaN are not modelled; unit conversion of tendencies may round in any way (part of the accuracy e of the components).
* **C111** When a NetCDFMonitor is written makes no difference (proved): `netcdf_file_of_program`, `netcdf_when_written`, `pieces_need_one_write`, `second_store_is_second_record`, `earlier_store_is_later_record`. The conditions are needed: with write_on_store a state stored in pieces raises InvalidStateError (pieces_need_one_write), a second store for one time becomes a second record instead of replacing the first (second_store_is_second_record), and earlier times stored later come later in the file (earlier_store_is_later_record). Cached arrays are values here; C72 and C108 are about sharing.
* **C112** The main loop of the documentation writes the run it makes (proved): `documented_loop_file`, `ab_loop_writes`, `lf_loop_writes`, `ssprk_loop_writes`, `documented_loop_endless`. Loop of docs/quickstart.rst:44-51 (model documentedLoop). On values; that array identity makes no difference for AdamsBashforth and SSPRungeKutta is C108. Without tendencies in diagnostics. With write_on_store the last write has nothing to write. For Leapfrog no diagnostic is a stepped quantity (the loop updates the dict that Leapfrog keeps).
* **C113** Continuing a run with new UpdateFrequencyWrappers (partial): `ab_new_wrappers`, `lf_new_wrappers`, `euler_restarts_between_updates`, `restart_within_interval`. Proved, with exact equality of the states, if the number of steps before the interruption is a multiple of the number of timesteps in each interval (rounded up). The code violates the claim otherwise (restart_within_interval): a new wrapper runs its component at the first call, whatever was cached before, so the results and all later update times differ.
* **C114** Rounding errors of SSPRungeKutta runs (proved): `ssprk_run_rounding`, `ssprk_stable`. Exponents are unbounded (no overflow or underflow), as in C109 and C110. The components are a parameter; ssprk_run_rounding assumes the bound X for the states of the rounded run, and a bound T for tendencies of states of at most stageSize u X T dt.
* **C115** AdamsBashforth runs follow the differential equation of any components (proved): `ab_run_converges`, `ab_run_converges_exact`, `abStepError_sum`. The rounding model is that of C110 (relative error u per operation, no underflow or overflow); u = 0 is exact arithmetic, and then no bounds for values and tendencies are needed. Solutions are given with their derivatives (Spec/Convergence.lean); the truncation bound is proved with Taylor's theorem (Lemmas/Taylor.lean). C103 has sharper bounds for relaxation and shows that orders 3 and 4 have second-order errors because of the first step; the bound here includes that step.
* **C116** SSPRungeKutta runs follow the differential equation of any components (proved): `ssprk_run_converges`, `ssprk_run_second_order`, `stageGrowth_le_exp`. Exact arithmetic; C114 bounds how far a floating-point run is from the exact one, so that the sum bounds the error of the floating-point run. The equation must be autonomous because all stages are computed with the time of the beginning of the step (the solution need only be followed at the states' values). With three stages the error of smooth linear equations is of third order (C103); here only three derivatives of the solution and a Lipschitz condition are assumed, which give second order for both.
* **C117** Leapfrog runs follow the differential equation of any components (proved): `lf_run_converges`, `lf_run_converges_exact`, `lf_run_converges_half`, `lf_run_second_order_half`. Rounding as in C110: every elementary operation of the step is rounded with relative error at most u. With rounding the sizes of states and tendencies of the run are assumed bounded; with u = 0 nothing is assumed about them. The condition 2 dt L <= nu of the theorem for alpha = 1/2 holds for all short enough timesteps when nu > 0. C103 has the growth of leapfrog for a single relaxation.
* **C118** AdamsBashforth runs with a component in an UpdateFrequencyWrapper follow its differential equation (proved): `ab_run_updating`, `ab_run_updating_exact`, `ab_run_converges_memory`. One component in a wrapper (or everything the time stepper calls); ab_run_converges_memory is the theorem for any combination of components with memory. The wrapper keeps the tendencies in the units the component gave, and the time stepper converts them for the present state: the proof uses that steps keep the units of the state. C107 says which output a wrapper gives.
* **C119** What array_call changes in the state (partial): `views_same_arrays`, `views_explained`, `in_place_changes_explained`, `in_place_results_same`, `tracer_changes_stay`, `unchanged_stepper_same`, `in_place_tendency_vanishes`, `in_place_stepper_tendency_wrong`, `in_place_differences`, `in_place_differences_wrong`. The last clause fails for Steppers with tendencies_in_diagnostics: the differences are taken from the arrays array_call was given, so a Stepper that works in place gets tendency 0 (in_place_tendency_vanishes, in_place_stepper_tendency_wrong).  It is proved for all other components, and for these Steppers if nothing is changed in place.  Whether numpy copies to merge axes is a parameter because strides are not modelled.  A TimeDifferencingWrapper around a Stepper that works in place takes the differences from the changed state (in_place_differences, in_place_differences_wrong).
* **C12** DataArray addition and subtraction are by name and keep left attributes (proved): `add_by_name`, `sub_by_name`.
* **C120** Rounding errors of Leapfrog runs (proved): `lf_run_rounding`, `lf_stable`. Exponents are unbounded (no overflow or underflow), as in C109, C110 and C114. The values of the rounded run and of the states the Leapfrog remembers are assumed at most X, the tendencies at most T.
* **C121** The mean of an ensemble of runs is the run of the mean (proved): `ab_means`, `ssprk_means`, `leapfrog_means`, `run_means`, `composite_means`, `runs_of_mean`, `pointProg_keeps`, `class_means`, `stepper_means`, `diagnostic_means`, `tidy_dims`. Arithmetic is exact. What the components remember must not depend on the member, which excludes components in an UpdateFrequencyWrapper. The weights must have sum 1 because unit conversions have offsets. The diagnostics of the components are only required to be in a given relation. class_means assumes that no tendency has the same axis twice; tidy_dims proves this for components without tracers whose declared dims are tidy. stepper_means and diagnostic_means state the mean of arrays with the same axes and attributes.
* **C122** NaN and other bad values stay in their grid cells, and do not go away (proved): `ab_confined`, `ssprk_confined`, `leapfrog_confined`, `main_loops_confined`, `ab_absorbed`, `ssprk_absorbed`, `leapfrog_absorbed`, `main_loops_absorb`, `exactElem_stand`, `pointwise_keeps`, `Demo.leapfrog_forgets`, `composite_confined`, `updating_confined`, `scaling_confined`, `differencing_confined`, `compositeO_dataArray`, `scalingO_dataArray`, `differencingO_dataArray`. The arrays are those of Model/Elements, with elements of any type; with exact rational elements they are the DataArrays of the other files (exactElem_stand). For the second part a Leapfrog must have the value in the state that it remembers, as it has if its first call gets it; Demo.leapfrog_forgets shows that otherwise, with alpha=1, the value is lost.
* **C123** Runs do not depend on the date on which they start (proved): `runs_shifted`, `composite_dateBlind`, `updating_dateBlind`, `shiftRel_iff`, `Demo.date_matters`, `scaling_dateBlind`, `differencing_dateBlind`. The main loop may do between the calls whatever does not depend on the date, and then advances the time by the timestep. Times are exact, as everywhere (differences of datetimes of the same calendar). Demo.date_matters shows that the claim fails for a component that uses the time.
* **C124** Time steppers raise the documented exceptions (partial): `time_steppers_raise`, `leapfrog_no_sharedKey`, `ab_raises`, `lf_raises`, `ssprk_raises`, `stepper_raises`, `composite_raises`, `elem_raises`, `dataArray_raises`. The list of exceptions is proved in full. The last part is false of the code: Leapfrog documents a SharedKeyError (timesteppers.py:240-242) that it never raises, whatever is in the state and in the diagnostics (leapfrog_no_sharedKey); an example beside it returns such a diagnostic.
* **C125** Passive quantities influence nothing (proved): `main_loops_passive`, `composite_passive`, `updating_passive`, `sameBut_value`, `passive_alike`, `drives_passive`, `Demo.heating_not_passive`, `scaling_passive`, `differencing_passive`. Arrays of Model/Elements (any elements). The passive quantities have the same axes, lengths and attributes in both runs, because a quantity without the needed units or with other lengths makes the call raise. Demo.heating_not_passive shows that the hypothesis excludes components that use the quantity.
* **C126** Leapfrog runs with components in UpdateFrequencyWrappers follow the differential equation (proved): `lf_run_updating`, `lf_run_updating_exact`, `lf_run_converges_memory`. lf_run_converges_memory is C117 for components with a memory of what happened before (the cache of the wrapper), from which lf_run_converges is derived. The step that calls Leapfrog advances the time; the units of the quantities stay as they are.
* **C127** SSPRungeKutta with components in an UpdateFrequencyWrapper takes Euler steps (proved): `ssprk_updating_euler`, `updatingO_again`, `ssprk_run_updating`. The composite of the stepper is one component in the wrapper. The values are compared in exact arithmetic, where the weights 1/2 + 1/2 and 1/3 + 2/3 add up to one.
* **C128** Components of one run may be updated at different frequencies (proved): `ab_run_each`, `ab_run_each_any`, `lf_run_each`, `addIntoO_sum`. addIntoO_sum: adding up tendencies in any units and converting the sum afterwards gives the sum of the converted tendencies. The components return tendencies with units known to the registry and without offset. ab_run_each_any has any order and inaccurate initial values. SSPRungeKutta is in C127 and C130.
* **C129** SSPRungeKutta is of first order when tendencies depend on the time (proved): `ssprk_run_first_order`, `ssprk_rectangle_rule`, `ssprk_no_better_order`. A user may expect second order with two and third order with three stages; that holds for equations that do not depend on the time (C103, C116).
* **C13** A component call returns exactly its declared outputs (proved): `tendency_call_keys`, `tendency_call_errors`, `stepper_call_keys`, `stepper_call_errors`, `diagnostic_call_outputs`, `full_name_despite_alias_keyError`. full_name_despite_alias_keyError: an array_call that returns the full name of an aliased quantity passes the check and then raises KeyError.
* **C130** SSPRungeKutta with components updated at different frequencies (proved): `ssprk_run_each`, `updatingO_waits`, `PartsOf.later`. The case of one wrapper around all components is C127, runs of AdamsBashforth and Leapfrog are C128.
* **C131** The delay by UpdateFrequencyWrapper is an error of first order, and no less (proved): `updates_no_better_order`, `leapfrog_updates_no_better_order`. runOver_add (two runs one after the other are one run) is used to put the intervals together. The component is one example; upper bounds for all components are C126, C127, C128 and C130. Leapfrog is covered without filter and for even numbers of timesteps between updates, where its two interleaved sequences of values meet every tendency equally often.
* **C14** array_call is never run on a state lacking inputs (proved): `array_call_not_run`, `array_call_gets_inputs`.
* **C15** Aliases are transparent (partial): `aliased_inputs_same`, `aliases_transparent_construct`, `aliases_transparent_tendency`, `aliases_transparent_stepper_partial`, `aliases_transparent_diagnostic`, `stepper_alias_tendencies_keyError`. Steppers are covered without tendencies_in_diagnostics; with it the claim is false (stepper_alias_tendencies_keyError).
* **C16** Tendencies placed in diagnostics equal the tendencies (proved): `inserted_tendencies_equal`, `tendencies_in_diagnostics_only_adds`.
* **C17** Stepper tendencies in diagnostics are the time difference (partial): `stepper_tendencies_are_differences_partial`, `stepper_alias_tendencies_keyError`, `in_place_tendency_vanishes`, `in_place_stepper_tendency_wrong`. For outputs and inputs without alias; with an alias the call raises KeyError (stepper_alias_tendencies_keyError). A Stepper whose array_call works in place gets tendency 0 (in_place_tendency_vanishes, in_place_stepper_tendency_wrong; see C119).
* **C18** Component instances do not interfere (partial): `instances_do_not_interfere_partial`, `instances_interfere`, `siblings_always_fail`, `stepper_siblings_always_fail`, `stepper_instances_do_not_interfere_partial`. False of the code: creating an instance with tendencies_in_diagnostics changes the class (counterexample and general failure proved), for Steppers even when the creation is rejected; constructions that leave the class unchanged do not interfere.
* **C19** Invalid property dictionaries are rejected at construction (proved): `construct_iff_valid`, `construct_stepper_tid_iff`.
* **C20** Component kinds are recognised consistently (proved): `duck_type_iff`, `duck_kinds_exclusive`, `optional_timestep_both`, `timestep_optional_iff`, `inheriting_kind`.
* **C21** Packing and unpacking tracers is lossless (proved): `pack_unpack_roundtrip`, `unpacked_values`.
* **C22** Tracer order is prepended first, then registration order, without repeats (proved): `tracer_order`, `packed_slices`.
* **C23** A tracer is never also an ordinary output (proved): `tracer_never_output`, `violating_register_raises`, `violating_create_raises`, `register_accepted_iff`.
* **C24** A rejected tracer registration changes nothing (partial): `rejected_registration_unchanged_partial`, `rejected_registration_is_recorded`. False of the code: a registration rejected by an existing component is recorded (counterexample proved); the rejections for units leave everything unchanged.
* **C25** Allocated tracer arrays match packed tracer arrays (partial): `allocated_tracers_match_partial`, `allocated_tracers_mismatch_on_reregistration`. False when a tracer is registered twice or also prepended (counterexample proved); proved otherwise, when the inputs have the tracers' lengths.
* **C26** Combined dims satisfy both components, in either order (partial): `combine_dims_ok_iff`, `combine_dims_sound_partial`, `combine_dims_most_general`, `combine_dims_symmetric_partial`, `combine_dims_unsound`, `combine_dims_order_dependent`. False of the code when exactly one argument has a wildcard (two counterexamples proved); proved otherwise.
* **C27** Combined properties cover every component (proved): `combined_properties_cover`, `combined_inputs_cover`, `incompatible_units_rejected`.
* **C28** A tendency composite returns the sum of its components' tendencies (proved): `composite_tendencies_sum`, `composite_succeeds_iff`, `composite_order_irrelevant`, `tendency_composite_sum`, `implicit_composite_calls`, `implicit_composite_sum`.
* **C29** Composites never silently overwrite a diagnostic (partial): `shared_diagnostic_rejected`, `diagnostic_composite_no_overwrite`, `tendency_composite_no_overwrite_partial`, `tracer_tendency_overwritten`. Proved for construction, for DiagnosticComponentComposite, and for tendency composites of components that return only declared diagnostics; otherwise false (tracer_tendency_overwritten).
* **C30** Composites and time steppers do not modify arrays returned by components (proved): `composite_leaves_component_arrays`, `composite_heap_refines`.
* **C31** Time steppers do not touch time or unrelated quantities (proved): `ab_untouched`, `lf_untouched`, `ssprk_untouched`, `ab_stepper_untouched`, `lf_stepper_untouched`, `composite_prog_dicts`. A tendency of a quantity not in the state makes the call raise, so the new state has exactly the keys of the old. SSPRungeKutta makes new arrays of equal value for the other quantities.
* **C32** Adams-Bashforth applies the scheme of the right order to the right history (partial): `adams_bashforth_scheme_partial`, `ab_tendencies_physical`, `failed_step_stays_in_history`, `new_quantity_not_stepped`. Proved for histories without a call that raised in the step itself; after such a call the claim is false (failed_step_stays_in_history). Quantities are stepped only once the oldest tendency in use has them (new_quantity_not_stepped).
* **C33** Adams-Bashforth of order k is exact for polynomial tendencies of degree < k (proved): `ab_exact_on_polynomials`, `ab_formula_exact`, `ab_coefficients_unique`.
* **C34** Multistep steppers reject a changed timestep without side effects (proved): `ab_rejects_changed_timestep`, `lf_rejects_changed_timestep`, `ssprk_rejects_changed_timestep`. The first call fixes the timestep even if it raises. SSPRungeKutta, a one-step method, also rejects a changed timestep.
* **C35** Adams-Bashforth keeps a bounded history (partial): `ab_history_bounded_partial`, `history_grows_after_failed_step`, `history_unbounded`. False of the code after a call that raised in the step itself: the history then grows by one with every call (proved). Proved for histories without such a call.
* **C36** Leapfrog implements the Robert-Asselin-Williams filtered scheme (proved): `leapfrog_first_call`, `leapfrog_later_call`, `leapfrog_failed_call`, `leapfrog_partial_filter`. leapfrog_partial_filter: a call that raises can leave the caller's state filtered for some quantities.
* **C37** SSPRungeKutta is the Shu-Osher scheme of order 2 or 3 (proved): `ssprk_is_butcher`, `ssprk_linear_amplification`. Every stage sees the time of the input state (part of IsRKStep), so the order is only that of the scheme if the tendencies do not depend on time; see C87.
* **C38** SSPRungeKutta is strong-stability preserving (proved): `ssprk_preserves_convex`, `ssprk_strong_stability`.
* **C39** Time stepping is independent of the tendency's units (proved): `ab_units_irrelevant`, `lf_units_irrelevant`, `ssprk_units_irrelevant`, `sameRate_of_toUnits`.
* **C40** TendencyStepper tendencies in diagnostics are the net change rate (proved): `net_tendency_in_diagnostics`, `net_tendency_name_clash`, `tsCall_state`. For Leapfrog the old value is that of the caller's state after the filter. Quantities are those of output_properties; tracers have no entry.
* **C41** UpdateFrequencyWrapper recomputes exactly when due (proved): `update_frequency_exact`, `update_frequency_apart`, `update_frequency_timestep`, `update_frequency_no_time`. A TypeError raised by the component in a call with a timestep is followed by a second call without it (update_frequency_timestep).
* **C42** ScalingWrapper scales exactly the named quantities (partial): `scaling_wrapper_partial`, `scaling_wrapper_succeeds`, `scaling_make`, `scaling_make_unknown`, `scaling_shared_array`, `scaling_changes_state`, `scaling_drops_tracers`. Proved when the component returns distinct arrays and needs only its declared inputs; otherwise false (three counterexamples proved).
* **C43** ScalingWrapper does not compound (partial): `scaling_repeat_partial`, `scaling_compounds`, `scaling_compounds_update_frequency`. False of the code for components that return an array they keep, such as ConstantTendencyComponent or an UpdateFrequencyWrapper: the factor compounds (proved). Proved for components that return new arrays.
* **C44** TimeDifferencingWrapper reproduces the wrapped Stepper (proved): `time_differencing_tendencies`, `time_differencing_euler`, `time_differencing_missing`, `time_differencing_properties`, `in_place_differences`. Assumes of the unit registry that a unit per second has the unit's scale and no offset. An output quantity missing from the state raises RuntimeError (time_differencing_missing). If the Stepper changes the state in place, the Euler step must start from the changed state (in_place_differences); the tendency of a quantity it has overwritten with its new value is 0.
* **C45** A constant set through any alias is read back through every alias (proved): `set_then_get`, `set_constant_raises`. Assumes only that the unit registry is faithful, as for C12.
* **C46** reset_constants restores the import-time constants (proved): `reset_restores`. Includes get_constants_string and whether set_constant raises.
* **C47** Alias resolution terminates and never loops (proved): `get_alias_spec`, `get_alias_small_table`, `proxy_terminates`, `proxy_lists`, `no_circular_aliases`, `phase_is_circular`, `constant_item_assigned`. A chain of more than 100 aliases also raises RuntimeError; the tables that arise have 24 entries.
* **C48** get_constants_string lists every constant (partial): `constants_string_partial`, `constants_string_succeeds`, `constants_string_water`, `constants_string_error`, `constants_string_text`, `constants_string_raises`. False of the code after set_condensible_name with a name whose constants are not all defined: KeyError (constants_string_raises). Proved whenever the call does not raise, with the exact condition for that; constants_string_text gives the text line by line.
* **C49** NetCDFMonitor writes what was stored, sorted by time (partial): `netcdf_write_partial`, `netcdf_write_on_store_partial`, `netcdf_write_succeeds`, `netcdf_write_nothing`, `netcdf_mixes_units`, `netcdf_mixes_dims`, `netcdf_scalar_raises`, `netcdf_scalar_appends_times`, `netcdf_lengths_fit`. Proved after all sequences of calls for batches in which a quantity has the same dims, shape and attributes throughout; otherwise false (netcdf_mixes_units, netcdf_mixes_dims), as for scalars, which cannot be written. Cached arrays are modelled as values.
* **C50** NetCDFMonitor rejects inconsistent sets of quantities without losing data (partial): `netcdf_rejects_partial`, `netcdf_write_succeeds`, `netcdf_quantities_added`. Proved when the file has a quantity or the cached states differ; false for a file with records but no quantity (netcdf_quantities_added).
* **C51** NetCDFMonitor name aliasing loses no quantity (partial): `alias_replaces`, `netcdf_aliases_partial`, `netcdf_alias_empty_partial`, `netcdf_empty_name`, `alias_loses_quantity`, `alias_renames_time`. False of the code when an alias gives a quantity the old name of another one (alias_loses_quantity) or occurs in 'time' (alias_renames_time). Proved otherwise.
* **C52** RestartMonitor is crash safe (proved): `restart_crash_safe`. For all histories of stores, stops and manual recovery. The process may stop between any two operations on files; renames and removals are atomic, as in POSIX. States have no dimension named time.
* **C53** RestartMonitor store then load returns the stored state (partial): `restart_load_partial`, `store_returns`, `load_timedelta`, `load_out_of_range`, `load_named_like_dim`, `load_loses_quantity`, `load_decodes_times`, `load_decodes_units`. False of the code for timedeltas, dates outside of 64 bit nanoseconds, quantities named like a dimension, and quantities in units of time that xarray decodes (all proved). Proved otherwise, whatever files existed before.
* **C54** RestartMonitor can continue after a crash (partial): `restart_continues_partial`, `restart_stop_harmless_partial`, `restart_blocked`, `restart_stop_blocks`, `restart_exception_blocks`, `restart_recovers`. False of the code: a stop after the new file is created and before it is renamed leaves <f>.new, and then every store raises IOError (restart_stop_blocks, restart_blocked); between the renames nothing can be loaded either. Proved when <f>.new is absent, and after manual recovery (restart_recovers).
* **C55** get_component_aliases respects the documented priority (proved): `component_aliases_priority`.
* **C56** datetime honours every documented calendar and rejects others (partial): `datetime_documented`, `datetime_noleap`, `datetime_unknown`. False of the code for an unknown calendar name: None is returned (datetime_unknown). Proved for all documented names in any letter case. Which fields a date type accepts is a parameter.
* **C57** Relaxation drives a quantity toward equilibrium (proved): `relaxation_tendency`, `relaxation_offset_rejected`. Stated in base units, with no exception raised. Assumes of pint that the quotient of a unit and the second has the quotient's scale. A component for units with an offset cannot be made (relaxation_offset_rejected); inputs may have such units.
* **C58** Constant components return what they were given (proved): `constant_tendency_component`, `constant_diagnostic_component`. Of the attributes only the units are returned.
* **C59** Returned diagnostics are declared (partial): `diagnostics_declared_partial`, `constant_undeclared_diagnostic`, `tracer_undeclared_diagnostic`. False of the code for components whose properties build a new dictionary on every access, such as ConstantTendencyComponent: the inserted declaration is lost (constant_undeclared_diagnostic); and for every component with tracers and tendencies in diagnostics: the tendencies of the tracers are returned as diagnostics and not declared (tracer_undeclared_diagnostic). Proved: for dictionaries that keep what is written to them these are the only undeclared ones.
* **C60** require_wildcard_matches is enforced (partial): `require_wildcard_matches_partial`, `require_wildcard_matches_ignored`. False of the code: a requirement that the array does not meet is ignored (require_wildcard_matches_ignored). Proved when the required dims are the unlisted ones in any order.
* **C61** A tracer's units never change (proved): `tracer_units_stable`, `changed_units_rejected`, `same_units_accepted`. Assumes that pint identifies only equal units (Faithful).
* **C62** Which tracer-using components can be constructed (proved): `construct_tracers_iff`. Relative to construction of the same class without tracers (C19).
* **C63** array_call gets and returns every tracer in its place (proved): `tendency_call_tracers`, `stepper_call_tracers`. For tracers that are not declared outputs (C23); the returned array must have the shape of the given one.
* **C64** Combined dims suit every component (partial): `combined_dims_exact`, `combined_dims_sound_partial`, `combined_dims_general`, `combined_dims_missing`, `combined_dims_unsound`. False of the code when entries with and without wildcard are combined (combined_dims_unsound, the slip of C26). Proved when all or none have a wildcard; that usable arrays stay usable is proved without restriction.
* **C65** Steady tendencies are integrated exactly over whole runs (proved): `ab_steady_run`, `lf_steady_run`, `ssprk_steady_run`. Exact arithmetic. Also says that each stepper keeps the units of the quantity (SameAttrs in the stages of SSPRungeKutta).
* **C66** Components that agree can be composed (partial): `combine_properties_ok_iff`, `agreeing_components_compose_iff`, `agreeing_components_compose_partial`, `composite_alias_clash`. False of the code as to aliases: a composite of two valid components that use one alias for different inputs is rejected (composite_alias_clash). The exact condition is proved, and the claim without such aliases.
* **C67** TendencyStepper accepts tendencies_in_diagnostics whenever it accepts the components (partial): `ts_tid_decided`, `ts_tid_accepted_partial`, `ts_tid_rejected`. The claim is false in the code. ts_tid_decided gives the exact condition (same dims and same unit string as input and output, otherwise InvalidPropertyDictError); ts_tid_accepted_partial proves the claim when no stepped quantity is an input of a component; ts_tid_rejected proves the failure for every stepped quantity whose input unit string is not the clean form of its tendency units times seconds. Missing: nothing further can hold of the code as written.
* **C68** A TendencyStepper returns the diagnostics it declares (partial): `ts_diagnostics_declared_partial`, `ts_declared_units_not_returned`. The names are the declared ones and the units compatible with those declared. The full claim is false: with tendencies given in units other than base units (K day^-1) the net tendency is returned in base units (kelvin s^-1), proved for every state and scheme.
* **C69** Time stepping does not depend on the units of the state (partial): `ab_state_units_partial`, `lf_state_units_partial`, `ssprk_state_units`, `ssprk_keeps_nothing`, `ab_units_mixed`, `lf_units_mixed`. Proved for AdamsBashforth of every order and Leapfrog as long as each quantity keeps its units during the run, and for SSPRungeKutta without that restriction. The full claim is false: if a quantity comes in km after m, AdamsBashforth and Leapfrog combine numbers of both units.
* **C70** General constant names mean the constants of the condensible (proved): `general_names`, `condensible_changes_only`. The general names and their meaning are a separate specification (Spec/Condensible). 'phase' itself is excluded: it makes aliases of themselves (C47).
* **C71** A unit may be written with the signs % and ° (partial): `sign_spellings_partial`, `unit_strings_partial`, `sign_spellings_read`, `sign_units_unreadable`. Holds for validity, sameness, base units and the unit converted from; for the unit converted to (and both units of DataArray.to_units) only if pint itself reads the signs, because .to() and Quantity() bypass the replacement. If pint does not read the sign, the claim is false (sign_units_unreadable): the unit is valid, but units_are_compatible is not symmetric and nothing can be converted. Which holds depends on the version of pint, which is a parameter.
* **C72** NetCDFMonitor writes states as they were stored (partial): `netcdf_stores_values_partial`, `netcdf_writes_later_values`, `netcdf_change_written`. Proved if no array is changed in place while it waits to be written (in particular with write_on_store and successful writes). In general it is false: store caches references, and what is written is what the arrays are at write (netcdf_writes_later_values, witness netcdf_change_written).
* **C73** PlotFunctionMonitor does not let the plot function change the state (proved): `plot_leaves_state`, `plot_shares_other_objects`. The claim is about DataArrays. Other objects in a state (numpy arrays, plain xarray DataArrays) are passed by reference and can be changed (plot_shares_other_objects). The figure is not modelled.
* **C74** Wrapped components keep their kind, and nested scalings multiply (partial): `wrapped_kinds`, `wrapped_accepted`, `time_differencing_kind`, `nested_scaling_partial`, `nested_implicit_raises`, `scaling_update_implicit_raises`, `scaling_discards_timestep`, `wrapped_in_composites`, `tendency_composite_accepts_implicit`. Proved for Steppers, TendencyComponents and DiagnosticComponents. The code violates it for ImplicitTendencyComponents: a wrapped one is also an instance of TendencyComponent and is called without its timestep, so ScalingWrapper around it always raises (nested_implicit_raises, scaling_update_implicit_raises), and TendencyComponentComposite accepts it and then always raises (tendency_composite_accepts_implicit).
* **C75** TimeDifferencingWrapper reproduces the wrapped Stepper, tracers included (partial): `time_differencing_stepper_partial`, `time_differencing_loses_tracers`, `time_differencing_inputs`, `time_differencing_declares`. Proved for declared outputs; what the wrapper declares is what it returns. The code violates it for tracers: only names in output_properties are differenced, so every tracer keeps its old value whatever the Stepper returns (time_differencing_loses_tracers), and the wrapper has uses_tracers False, so composites do not ask for the tracers (time_differencing_inputs).
* **C76** The units of the state do not matter to components, composites, wrappers and runs (partial): `component_calls_unit_blind`, `composites_unit_blind`, `wrappers_unit_blind`, `model_steps_unit_blind`, `scaling_unit_blind_partial`, `scaling_depends_on_units`. Proved for components, composites, TimeDifferencingWrapper, UpdateFrequencyWrapper and runs of AdamsBashforth, Leapfrog and SSPRungeKutta with components (for AdamsBashforth and Leapfrog under C69's condition that units do not change between calls). The code violates it for ScalingWrapper: inputs are multiplied in the state's own units, so with offset units the component sees other physical inputs (scaling_depends_on_units); without offset units it holds (scaling_unit_blind_partial).
* **C77** The order of a state's axes does not matter to components (proved): `layout_accepted`, `layout_inputs`, `layout_outputs`, `components_axis_order`, `axis_order_matters_along_wildcard`. States with unit-free or ill-formed arrays are outside (WF, StarFree); property dimensions are without repetitions and disjoint from the wildcard's (PlainDims), as in C03. The proviso (AxisBlind) is needed: axis_order_matters_along_wildcard.
* **C78** Runs conserve what the components conserve (proved): `ab_conserves`, `lf_conserves`, `ssprk_conserves`, `ab_conservation_needs_fixed_quantities`. In exact arithmetic; the sum is taken in the units the state has at the start, which the steppers keep. That tendencies are given for the same quantities in every call is needed: ab_conservation_needs_fixed_quantities.
* **C79** Composites accept exactly the components they can call (proved): `implicit_composite_accepts`, `plain_composite_accepts`, `composite_accepts_subclass`, `composite_type_error`.
* **C80** MonitorComposite stores with every monitor, in order (proved): `monitor_composite_stores`.
* **C81** A component is not run before its base class is initialised (partial): `uninitialised_never_runs_partial`, `initialised_calls`, `first_init_is_construct`, `uninitialised_tendency_stepper`, `half_initialised_stepper`. array_call is never run on an uninitialised object. The error is RuntimeError except for Steppers with tracers, which declare themselves initialised before their tracers are checked (half_initialised_stepper), and TendencyStepper, which raises AttributeError because the attribute it tests is absent rather than false (uninitialised_tendency_stepper).
* **C82** Sympl's results do not depend on the backend's containers (partial): `backend_tendency`, `backend_stepper`, `backend_diagnostic`, `default_backend`, `default_ops`, `backend_composite_partial`, `backend_convert_partial`, `set_backend_last`, `composite_needs_dataarrays`, `bare_containers_not_added`, `narrow_container_type`, `narrow_container_sum`, `ab_over`, `leapfrog_over`, `ssprk_over`, `stepper_over`, `dataArray_stand`. Proved in full for the base component classes, tracers included. Composites and time steppers use attrs, to_units and + of the containers themselves, so the interface is not enough for them (composite_needs_dataarrays); the _partial theorems assume the containers mimic DataArrays; given that, whole calls of the time steppers correspond (ab_over, leapfrog_over, ssprk_over, stepper_over). Whatever is not an instance of the container type has its units ignored (narrow_container_type).
* **C83** Printing a component ends, shows it, and has no effect (partial): `repr_terminates`, `repr_leaves_no_flag`, `repr_text_partial`, `repr_no_effect_partial`, `Shows.unique`, `failed_repr_stays`, `repr_has_effect`, `composite_in_itself`. The code violates the last part. If the repr of an attribute raises, the component's flag stays set and it prints as a recursive reference from then on (failed_repr_stays). A TimeDifferencingWrapper that was never printed takes the flag of its Stepper, so printing it changes what the Stepper prints (repr_has_effect). Text and absence of effects are proved without such wrappers (NoWrappers) and for calls that return; the end is proved for all, given that composites consist of objects made before them (a composite put into itself afterwards never ends, composite_in_itself). Python's recursion limit is not modelled.
* **C84** Nesting composites makes no difference (partial): `nested_call`, `nested_call_first`, `nested_diagnostic_call`, `nested_members`, `nested_accepted`, `nested_construct_partial`, `nesting_changes_acceptance`, `nesting_changes_declared_dims`, `nesting_hides_inputs`. Calls are proved in full. Construction is proved for groups that come first and declare the dims of their tendencies; otherwise the code violates the claim: dims are merged from left to right by an operation that is not associative (nesting_changes_acceptance), and tendencies and diagnostics without dims take them from the inputs of the innermost composite (nesting_changes_declared_dims, nesting_hides_inputs).
* **C85** Time steppers remember states by value (partial): `ab_remembers_values`, `ab_changes_no_array`, `leapfrog_remembers_partial`, `leapfrog_changes_stepped`, `leapfrog_sees_later_changes`, `leapfrog_changes_diagnostics`. Proved for AdamsBashforth of any order, for components that leave the arrays of the state they are given as they are. The code violates the claim for Leapfrog: _old_state keeps the caller's arrays, so that overwriting an array of an earlier state changes the next step (leapfrog_sees_later_changes), and a diagnostic that is an array of the state is changed by the filter before it is returned (leapfrog_changes_diagnostics). leapfrog_remembers_partial proves the claim without these two and for stepped quantities that do not share arrays. Views (two arrays on one buffer) are not modelled; SSPRungeKutta keeps nothing between calls.
* **C86** Budgets of components add up (proved): `composite_budgets`, `stepper_budgets`. Numbers are rationals. The units of the tendencies of budgeted quantities have no offset, and each component returns the same set of tendencies at each call (as in C78).
* **C87** Tendencies that depend on time are integrated to the order of the scheme (partial): `ab_forced_exact_partial`, `lf_forced_exact_partial`, `ssprk_forced_is_euler`, `ssprk_forced_error`. Proved for AdamsBashforth and Leapfrog (after an odd number of steps Leapfrog keeps the error of its first, forward Euler, step). False for SSPRungeKutta: every stage is evaluated with the time of the input state, so a time-dependent tendency is integrated by forward Euler (ssprk_forced_is_euler) and the error for one that is linear in time is of first order in the timestep with 2 or 3 stages (ssprk_forced_error). Numbers are rationals.
* **C88** str of a component says what it declares (partial): `str_tells_partial`, `str_raises_iff`, `composite_str`, `implicit_str_says_tendency`. Two parts are false of the code. str of a TendencyStepper always raises IndexError, since its template has two fields and one argument; str_raises_iff shows that this is the only way str fails. The text of an ImplicitTendencyComponent calls it a TendencyComponent (implicit_str_says_tendency); str_tells_partial proves the rest.
* **C89** Coordinates: arithmetic by label, and time steppers keep them (partial): `add_by_label`, `sub_by_label`, `ab_coords`, `ssprk_coords`, `leapfrog_coords`, `ab_coords_run`, `ssprk_coords_run`, `leapfrog_coords_run`, `leapfrog_moved`, `coords_stand_maybe`, `Demo.ab_uses_positions`, `Demo.components_use_positions`. The last sentence holds of Leapfrog (leapfrog_moved: it raises) but is false of AdamsBashforth, which combines remembered tendencies with the state by position (ab_uses_positions). Components are given bare arrays, so they combine inputs by position too (components_use_positions). xarray's alignment is modelled for index coordinates with the default inner join.
* **C90** Composites and TendencySteppers survive later tracer registrations (partial): `combined_by_name`, `input_properties_later`, `input_properties_later_iff`, `fresh_tracer_added`, `tendency_properties_later`, `diagnostic_properties_later`, `diagnostic_properties_any_tracers`, `stepper_call_later`, `tsCallLive_eq`, `stepper_call_any_tracers`, `later_tracer_breaks`, `stepper_call_breaks`, `Demo.accepted_then_broken`. Proved for any change of the registered tracers (also resets), under the condition that input_properties can still be evaluated; input_properties_later_iff says exactly when. The claim without that condition is false: components with different tracer_dims are accepted while no tracer is registered, and the first registration makes input_properties raise (later_tracer_breaks, accepted_then_broken). A TendencyStepper with tendencies in diagnostics then raises on every call, after having taken the step and changed its history (stepper_call_breaks).
* **C91** Stepping a transposed, renamed or sliced state (proved): `tsCall_units_only`, `reordered_respected`, `renamed_respected`, `column_respected`, `isel_column`, `ab_commutes`, `leapfrog_commutes`, `ssprk_commutes`, `composite_commutes`, `run_commutes`, `runs_commute`, `decayProg_commutes`. Proved for every relation between arrays that xarray's arithmetic respects (Respected), with the three of the statement as instances. Also related after every call: the state passed in, the memory of the stepper, the diagnostics, the exception raised.
* **C92** Reading properties changes nothing (partial): `reading_properties_partial`, `access_gives`, `access_seen`, `use_keeps`, `composite_diagnostics_shared`, `stepper_diagnostics_shared`, `composite_diagnostics_written_through`, `Demo.heat_changed`. Reading changes nothing, in all cases, although the outputs of a time stepper are computed by changing dicts in place: they are always new ones. The dictionaries returned may be changed at will except diagnostic_properties: there the dicts under the names are those of the components, so that changing one changes what the component declares (composite_diagnostics_written_through).
* **C93** Time steppers understand their arguments (partial): `order_accepted_iff`, `order_rejected`, `order_makes`, `numpy_order_rejected`, `stages_accepted_iff`, `stages_rejected`, `adams_bashforth_arguments_partial`, `ssprk_arguments`, `leapfrog_arguments`, `keyword_order_irrelevant`, `undocumented_keyword`, `components_as_list`, `steppers_accept_alike`. What is made is characterised exactly. The claim fails for numpy's integers: as order they raise TypeError, 'order must be an integer' (numpy_order_rejected), though numpy's floats are accepted, and as stages so are numpy's integers.
* **C94** A failed call leaves no trace (proved): `ab_failures_leave_no_trace`, `lf_failures_leave_no_trace`, `ssprk_failures_leave_no_trace`, `update_frequency_failures_leave_no_trace`, `ab_failed_step_leaves_trace`. The failing attempts are deleted from the run and the rest proved identical. The restriction for AdamsBashforth is needed: ab_failed_step_leaves_trace (defect 5). A first call that fails fixes the timestep all the same, hence one timestep for all attempts.
* **C95** Attributes of wrapped components (partial): `nest_lookup`, `attribute_passed_on`, `own_attribute`, `outputs_hidden`, `differencing_properties`, `differencing_of_no_stepper`, `differencing_name`, `bare_wrapper`, `wrapper_not_copied`, `scaling_seen_as`, `update_seen_as`, `differencing_seen_as`, `wrappers_are_layers`. Lookups on wrappers that have their component are characterised exactly. The claim fails for wrappers that have not got it yet: every lookup recurses without end, whatever the limit (bare_wrapper), so no wrapper can be copied or unpickled (wrapper_not_copied). name of a TimeDifferencingWrapper is always None (differencing_name), and around an object without outputs it passes on its tendency_properties instead of raising (differencing_of_no_stepper).
* **C96** Dimensions of quantities during a run (proved): `run_keeps_dims`, `run_keeps_shape`, `composite_keeps_dims`, `component_keeps_dims`, `sized_binop`. A quantity can gain dimensions, without a warning, when a tendency has one that it does not have; the example beside the theorems turns a single number into a profile in one step. component_keeps_dims is for components without tracers.
* **C97** Columns are computed alone (proved): `components_column_wise`, `columns_accepted`, `columns_inputs`, `columns_outputs`, `component_on_grids`, `composite_column_wise`, `run_column_wise`, `run_columns_values`. Columns.SameColumns asks that quantities requested without a wildcard have none of the dimensions across which columns are laid out. The example computes a tendency from the sum over each column, on a 2 by 2 grid and for a list of three of its columns, one of them twice.
* **C98** A relaxed quantity approaches its equilibrium in runs (proved): `ab_relaxed_run`, `lf_relaxed_run`, `ssprk_relaxed_run`, `ab_reaches_equilibrium`, `ssprk_reaches_equilibrium`, `ssprk_no_overshoot`, `lf_reaches_equilibrium`, `leapfrog_default_limit`, `ab_point_run`, `lf_point_run`, `ssprk_point_run`. Exact arithmetic. The factors abDecay, lfDecay and rkDecay are the schemes of the text books applied to y' = -y; the theorems about limits ask for the state after each number of steps (the runs do not raise). The limits for AdamsBashforth and SSPRungeKutta are sufficient, that for Leapfrog is exact. The general part (ab_point_run and others) is for any components that give the quantity a tendency which is a function of its value.
* **C99** Runs of the time steppers do not raise if the components do not (proved): `ab_completes`, `lf_completes`, `ssprk_completes`, `composite_supplies`, `relaxation_gives`, `class_gives`. The conditions on the components are Supplies and GivesRates, which quantify over all states like the first one and hold for a component whose array_call returns what its class declares (class_gives); the states a run reaches are of that kind (Ready). With tendencies in diagnostics (Reports) the units of the properties must convert from those of the state and no component may give a diagnostic of the name used. The examples use this to show that the hypotheses of the limits in C98 are met by runs of any length.

## 4. Defects of the code found while modelling

Each is proved by the theorem named; "partial" entries above depend on them.

1. `combine_dims` computes `set(dims2).intersection(dims2)`: dims of the argument
   without wildcard are not required to be matched (`combined_dims_unsound`).
2. An aliased quantity returned under its full name, or differenced by a Stepper
   with tendencies_in_diagnostics, raises KeyError
   (`full_name_despite_alias_keyError`, `stepper_alias_tendencies_keyError`).
3. tendencies_in_diagnostics of one instance changes the dictionaries of the class
   (C18), or its declaration is lost when they are rebuilt
   (`constant_undeclared_diagnostic`).
4. A rejected tracer registration is recorded (C24); a doubly registered or
   prepended tracer makes allocated and packed arrays disagree (C25).
5. AdamsBashforth keeps the tendency of a step that raised, so its history grows
   (`failed_step_stays_in_history`, C35).
6. SSPRungeKutta rejects a changed timestep although it is a one-step method (C34).
7. Leapfrog can leave the caller's state half filtered when it raises
   (`leapfrog_partial_filter`).
8. ScalingWrapper scales arrays in place: factors compound (C43) and shared arrays
   are scaled twice (C42).
9. UpdateFrequencyWrapper swallows a TypeError of the component and calls it again
   (`update_frequency_timestep`).
10. `get_constants_string` raises after `set_condensible_name` with a substance whose
    constants are incomplete (`constants_string_raises`).
11. NetCDFMonitor mixes units and dims of one quantity between states
    (`netcdf_mixes_units`, `netcdf_mixes_dims`), accepts new quantities in a file
    without any (`netcdf_quantities_added`), and aliases can drop a quantity or rename
    `time` (`alias_loses_quantity`, `alias_renames_time`).
12. RestartMonitor is blocked for good by a crash at the wrong moment
    (`restart_stop_blocks`, `restart_blocked`), and timedeltas, far dates and some
    names do not survive the round trip (C53).
13. `datetime` returns None for an unknown calendar (`datetime_unknown`).
14. `require_wildcard_matches` is ignored when not met (`require_wildcard_matches_ignored`).
15. Composites reject valid components that use one alias for two inputs
    (`composite_alias_clash`).
16. A tracer tendency can silently overwrite a diagnostic (`tracer_tendency_overwritten`).
17. TendencyStepper with tendencies_in_diagnostics rejects components that read the
    quantity they step in units not spelled as pint's base units (`ts_tid_rejected`).
18. TendencyStepper declares net tendencies in the components' units and returns them
    in base units (`ts_declared_units_not_returned`).
19. AdamsBashforth and Leapfrog combine numbers of different units if the units of the
    state change between calls (`ab_units_mixed`, `lf_units_mixed`).
20. Units written with `%` or `°` are valid but cannot be converted, unless pint itself
    reads the signs (`sign_units_unreadable`; depends on the version of pint).
21. NetCDFMonitor caches references: a stored array that is changed in place before
    `write` is written as changed (`netcdf_change_written`).
22. A wrapped ImplicitTendencyComponent is also an instance of TendencyComponent, since
    a wrapper's `__call__` has an optional timestep.  A second ScalingWrapper calls it
    without a timestep and always raises (`nested_implicit_raises`,
    `scaling_update_implicit_raises`), and TendencyComponentComposite accepts it and then
    always raises (`tendency_composite_accepts_implicit`).
23. TimeDifferencingWrapper drops the tracers of the wrapped Stepper: they get no
    tendency (`time_differencing_loses_tracers`) and are not among its inputs
    (`time_differencing_inputs`).
24. ScalingWrapper multiplies an input in the units the state happens to have, before
    the component converts it, so a scaled temperature depends on whether the state
    holds it in K or degC (`scaling_depends_on_units`).
25. Stepper's `__init__` declares the object initialised before it checks its tracers.
    If that check raises and a subclass catches it, calls raise AttributeError, or
    whatever is wrong with the state, instead of RuntimeError
    (`half_initialised_stepper`).
26. TendencyStepper's AssertionError for a missing `__init__` cannot be reached: the
    attribute it tests is absent, so AttributeError is raised
    (`uninitialised_tendency_stepper`).
27. Composites and time steppers bypass the backend: they use `attrs`, `to_units` and `+`
    of the containers, so a backend that implements all of StateBackend can run components
    but not composites (`composite_needs_dataarrays`).  A value that is not an instance of
    `get_container_type()` has its units ignored without a word (`narrow_container_type`).
28. A component one of whose attributes cannot be printed is printed as a recursive
    reference ever after (`failed_repr_stays`), and a TimeDifferencingWrapper that has never
    been printed takes the flag of its Stepper (`repr_has_effect`).
29. Whether components can be composed, and what the composite declares, depends on how
    they are nested (`nesting_changes_acceptance`, `nesting_changes_declared_dims`,
    `nesting_hides_inputs`).
30. Leapfrog keeps references to the caller's arrays: overwriting an array of an earlier
    state changes the next step (`leapfrog_sees_later_changes`), and a diagnostic that is
    an array of the state is filtered along with it (`leapfrog_changes_diagnostics`).
31. SSPRungeKutta evaluates every stage with the time of the input state: tendencies that
    depend on time are integrated by forward Euler, to first order (`ssprk_forced_error`).
32. `str` of a TendencyStepper always raises IndexError (`str_raises_iff`); the text of an
    ImplicitTendencyComponent calls it a TendencyComponent (`implicit_str_says_tendency`).
33. AdamsBashforth combines remembered tendencies with the state by position even if the
    labels of the state have changed (`ab_uses_positions`); Leapfrog raises in that case
    (`leapfrog_moved`).  Components combine their inputs by position whatever the labels
    (`components_use_positions`).
34. Components with different `tracer_dims` are accepted into a composite while no tracer is
    registered; the first registration makes its properties raise. A TendencyStepper with
    tendencies in diagnostics then raises on every call, after having changed its history (C90).
35. `diagnostic_properties` of composites and time steppers hand out the dicts of the components
    themselves, unlike every other property computed on access; a caller that adjusts the units
    or dims in there adjusts the component (C92).
36. AdamsBashforth rejects an order that is one of numpy's integers as not being an integer, and
    accepts the same number as one of numpy's floats (`numpy_order_rejected`).
37. No wrapper can be copied (`copy.copy`, `copy.deepcopy`) or unpickled: RecursionError, because
    `__getattr__` looks for the wrapped component on an instance that has not got it yet
    (`bare_wrapper`, `wrapper_not_copied`).
38. `name` of a TimeDifferencingWrapper is None, whatever the name of the Stepper
    (`differencing_name`). It also accepts objects that are no Steppers, and then presents their
    `tendency_properties` as its own (`differencing_of_no_stepper`).
39. Calls of components raise InvalidStateError for a missing input where the
    documentation says KeyError (`missing_input_is_not_key_error`), UndefinedUnitError
    for units pint does not know (`unknown_units_not_invalid_state`), and a ValueError
    of numpy when wildcards overlap (`overlap_is_value_error`), instead of
    InvalidStateError.
40. An output with a wildcard and a dimension that the inputs do not have, returned with too few
    axes, raises KeyError instead of InvalidPropertyDictError (`few_axes_is_key_error`).
41. AdamsBashforth takes "the order of accuracy to use" (3 by default), but its first step is an
    Euler step, so runs of the orders 3 and 4 are of second order (`ab_second_order_only`,
    `ab_no_third_order`).
42. `NetCDFMonitor.write` appends the times before it looks at the arrays: if it then raises,
    the file has records without values, and a second write appends the times again
    (`failed_write_explained`).  It also raises ValueError, IOError, IndexError, AttributeError and
    TypeError for faults of the states, where the docstring has InvalidStateError only.
43. Registering a tracer again appends its name to `get_tracer_names` again, so the list is
    longer than the tracer axis it is documented to describe (`registered_twice_listed_twice`).
44. A run with AdamsBashforth of order 2 to 4 or with Leapfrog cannot be continued from a restart
    file: the earlier tendencies (or state) are only in the stepper, so the continued run begins
    with an Euler step and ends elsewhere (`ab_restart_differs`, `leapfrog_restart_differs`).
45. With components in UpdateFrequencyWrappers, SSPRungeKutta is the forward Euler method: its stages
    have the same time, so the wrappers repeat the output of the first in the others, whatever their
    (positive) intervals (`ssprk_updating_is_euler`, `ssprk_updating_differs`).
46. A state stored in a NetCDFMonitor before Leapfrog steps from it is written as its filter left it if the file is
    written after the step, and as it was if the monitor writes on store (`leapfrog_changes_stored`).
47. SSPRungeKutta with three stages changes quantities for which no component gives a tendency, by rounding: `add` and
    `multiply` (state.py) apply `1./3*x + 2./3*x` to every quantity of the state, also latitudes and constants
    (`ssprk3_changes_unstepped`: a latitude of 7 degrees in `float64`).
48. With `write_on_store`, a state that is stored in pieces for one time raises InvalidStateError at the second piece, and
    a second store for one time is a second record; without it the pieces are merged and the second store replaces the
    first (`pieces_need_one_write`, `second_store_is_second_record`).
49. A run with a component in an UpdateFrequencyWrapper that is restarted between two updates does not go on as it
    would have: the new wrapper runs the component at once and updates from then on (`restart_within_interval`, C113).
50. With `tendencies_in_diagnostics` a component that uses tracers returns the tendency of every tracer as a diagnostic, and declares
    none of them in `diagnostic_properties` (C59, `tracer_undeclared_diagnostic`), so composites cannot see that two components collide
    (C29, `tracer_tendency_overwritten`).
51. An array of the tracers with more positions on the tracer axis than there are tracers is accepted, and what it holds there is
    dropped without a message (C102, `declared_outputs_accepted_with_tracers`).
52. A Stepper with `tendencies_in_diagnostics` whose `array_call` changes its input arrays in place and returns them puts tendencies of 0 in its
    diagnostics: the differences are taken from the arrays it was given (base_components.py:636-642; C119, C17,
    `in_place_tendency_vanishes`, `in_place_stepper_tendency_wrong`). The state it was called with is changed too. TimeDifferencingWrapper (basic.py:410-439) has the
    same defect around such a Stepper (`in_place_differences_wrong`).
53. With `tendencies_in_diagnostics` an output of a Stepper with a wrong shape raises numpy's ValueError while the differences are taken, where
    it raises InvalidPropertyDictError otherwise (base_components.py:636-642 before restore_dataarray.py; C102,
    `stepper_tendencies_shape_valueError`).
54. Leapfrog documents a SharedKeyError for diagnostics that are in the state already; it never raises one
   (`leapfrog_no_sharedKey`).

## 5. Trusted base

### 5.1 Logic

Lean 4.33.0's kernel, and these axioms of Lean (no axiom is added, there is no
`sorry`, `native_decide` or `bv_decide`), by `#print axioms`:

* `none`: `wrappers_are_layers`.
* `propext`: `shiftRel_iff`, `composite_raises`, `inheriting_kind`, `update_frequency_apart`, `update_frequency_timestep`, `update_frequency_no_time`, `composite_accepts_subclass`, `set_backend_last`, `Shows.unique`, `repr_has_effect`, `composite_in_itself`, `nested_accepted`, `run_commutes`, `bare_wrapper`.
* `propext, Quot.sound`: `wrong_shape_rejected`, `wrong_shape_error_class`, `wrong_size_rejected_wildcard_partial`, `wrong_size_error_class`, `restored_outputs_carry_state_dims`, `units_compatible_equivalence`, `pointwise_keeps`, `updating_confined`, `composite_dateBlind`, `updating_dateBlind`, `scaling_dateBlind`, `updating_passive`, `sameBut_value`, `drives_passive`, `updatingO_again`, `updatingO_waits`, `aliases_transparent_construct`, `construct_iff_valid`, `construct_stepper_tid_iff`, `timestep_optional_iff`, `violating_create_raises`, `combine_dims_ok_iff`, `combine_dims_order_dependent`, `shared_diagnostic_rejected`, `diagnostic_composite_no_overwrite`, `update_frequency_exact`, `scaling_make_unknown`, `time_differencing_properties`, `get_alias_spec`, `get_alias_small_table`, `constant_item_assigned`, `component_aliases_priority`, `relaxation_offset_rejected`, `construct_tracers_iff`, `composite_type_error`, `monitor_composite_stores`, `uninitialised_tendency_stepper`, `narrow_container_type`, `narrow_container_sum`, `repr_terminates`, `repr_leaves_no_flag`, `repr_text_partial`, `repr_no_effect_partial`, `failed_repr_stays`, `nested_diagnostic_call`, `nested_construct_partial`, `combined_by_name`, `input_properties_later`, `tendency_properties_later`, `diagnostic_properties_later`, `diagnostic_properties_any_tracers`, `access_gives`, `access_seen`, `composite_diagnostics_shared`, `stepper_diagnostics_shared`, `composite_diagnostics_written_through`, `update_frequency_failures_leave_no_trace`, `nest_lookup`, `attribute_passed_on`, `own_attribute`, `outputs_hidden`, `differencing_properties`, `differencing_of_no_stepper`, `differencing_name`, `wrapper_not_copied`, `scaling_seen_as`, `update_seen_as`, `differencing_seen_as`.
* `propext, Classical.choice, Quot.sound`: all other theorems in `MANIFEST.json` (533 of 616).

### 5.2 Correspondence

That the definitions in `Verif/Model` describe the cited lines (by reading; the code
cannot be run here), and that Python, numpy, xarray, pint, netCDF4, the date types and
the file system behave as described in section 2.

### 5.3 Parts of the code modelled

| file | modelled in | not modelled |
|---|---|---|
| `_core/wildcard.py`, `get_np_arrays.py` | `Wildcard`, `Views` | messages; strides (whether merging axes copies is a parameter of `Views`) |
| `_core/restore_dataarray.py`, `init_np_arrays.py` | `Wildcard` | dtype of allocated arrays; `ensure_values_are_arrays` (array_call returns arrays in the model) |
| `_core/backend.py` | `Wildcard`, `Backend` | raw arrays other than numpy's; outside `Backend` the backend is the default one |
| `_core/units.py`, `dataarray.py` | `Units`, `DataArray`, `UnitStrings`, `Coords` | pint itself; coordinates outside `Coords`, and in it those that are not the index of a dimension; outside `UnitStrings`, `%` and `°` replacement is part of the registry parameter |
| `_core/base_components.py` | `Components`, `DuckType`, `Lifecycle`, `Repr`, `Str` | the unused `option_or_default` and `apply_scale_factors`; metaclass apart from instance checks |
| `_core/tracers.py` | `Tracers` | the unused `register_tracers` of packers |
| `_core/combine_properties.py`, `composite.py` | `Combine`, `Composite`, `LiveProps`, `PropRefs`, `Heap`, `Repr`, `Str` | tuples as dims |
| `_core/state.py`, `tendencystepper.py` | `DataArray`, `TimeSteppers`, `StepperInit`, `LiveProps`, `PropRefs`, `Keywords`, `Repr`, `Str` | warnings |
| `_core/util.py` | `Util`, `Heap`, `Restart` | the `jit` fallback |
| `_core/constants.py` | `Constants` | `__repr__` and dict views of ConstantDict |
| `_core/time.py` | `Time` | the date types themselves |
| `_core/wrappers.py` | `Wrappers`, `Nested`, `Attributes`, `UpdateRuns` | attributes every Python object has; descriptors of users' classes |
| `_components/basic.py` | `Basic`, `Wrappers`, `Nested`, `PropRefs`, `Attributes` | |
| `_components/timesteppers.py` | `TimeSteppers`, `SteppersOver`, `Rounding`, `StepperMemory`, `MonitoredRuns`, `Keywords` | filter parameters of Leapfrog that are not numbers |
| `_components/netcdf.py` | `NetCDF`, `Restart`, `Monitors`, `MonitoredRuns`, `MainLoop` (the loop of docs/quickstart.rst) | one kind of time per monitor; cached arrays are values except in `Monitors` and `MonitoredRuns` |
| `_components/plot.py` | `Monitors` | the figure (matplotlib) |
