{
 "claims": [
  {
   "property": "C01",
   "status": "proved",
   "theorems": [
    "Verif.inputs_labelled_correctly",
    "Verif.alias_equal_to_name_loses_input"
   ],
   "note": "Aliases must be distinct from names (alias_equal_to_name_loses_input shows the hypothesis is needed)."
  },
  {
   "property": "C02",
   "status": "proved",
   "theorems": [
    "Verif.input_lengths_agree"
   ],
   "note": ""
  },
  {
   "property": "C03",
   "status": "proved",
   "theorems": [
    "Verif.invalid_inputs_rejected",
    "Verif.valid_inputs_accepted",
    "Verif.wildcard_overlap_rejected"
   ],
   "note": "wildcard_overlap_rejected: a consistent state is rejected when a dimension is matched by one wildcard and named by another quantity."
  },
  {
   "property": "C04",
   "status": "proved",
   "theorems": [
    "Verif.extract_restore_roundtrip"
   ],
   "note": ""
  },
  {
   "property": "C05",
   "status": "partial",
   "theorems": [
    "Verif.wrong_shape_rejected",
    "Verif.wrong_shape_error_class",
    "Verif.wrong_size_rejected_wildcard_partial",
    "Verif.wrong_size_error_class",
    "Verif.wildcard_shape_not_checked"
   ],
   "note": "Proved for outputs without wildcard; with a wildcard only the total size is checked by the code (counterexample proved)."
  },
  {
   "property": "C06",
   "status": "proved",
   "theorems": [
    "Verif.restored_outputs_carry_state_dims",
    "Verif.restored_values"
   ],
   "note": ""
  },
  {
   "property": "C07",
   "status": "partial",
   "theorems": [
    "Verif.preallocated_arrays_fit_partial",
    "Verif.preallocated_alias_not_accepted"
   ],
   "note": "Outputs without alias; for aliased outputs the claim is false (preallocated_alias_not_accepted)."
  },
  {
   "property": "C08",
   "status": "proved",
   "theorems": [
    "Verif.restore_dimensions_values",
    "Verif.get_numpy_array_restore_roundtrip"
   ],
   "note": ""
  },
  {
   "property": "C09",
   "status": "proved",
   "theorems": [
    "Verif.get_numpy_array_layout",
    "Verif.get_numpy_array_errors"
   ],
   "note": ""
  },
  {
   "property": "C10",
   "status": "proved",
   "theorems": [
    "Verif.to_units_preserves_quantity",
    "Verif.to_units_back",
    "Verif.to_units_errors"
   ],
   "note": ""
  },
  {
   "property": "C100",
   "status": "proved",
   "theorems": [
    "Verif.components_in_any_order",
    "Verif.ab_components_in_any_order",
    "Verif.ssprk_components_in_any_order",
    "Verif.lf_components_in_any_order",
    "Verif.class_independent",
    "Verif.classes_apart",
    "Verif.order_matters_with_memory"
   ],
   "note": "Rates are compared exactly, in rational arithmetic; floating-point addition is not associative, so in the code results agree up to rounding. Runs are without tendencies in diagnostics. class_independent is for dims lists without a wildcard or with nothing but a wildcard."
  },
  {
   "property": "C101",
   "status": "partial",
   "theorems": [
    "Verif.exception_explained",
    "Verif.faultless_accepted",
    "Verif.documented_exceptions_partial",
    "Verif.missing_tracer_or_time_key_error",
    "Verif.missing_input_is_not_key_error",
    "Verif.unknown_units_not_invalid_state",
    "Verif.overlap_is_value_error"
   ],
   "note": "False of the code: a missing input raises InvalidStateError, never KeyError (missing_input_is_not_key_error, for every component and state); units unknown to pint raise UndefinedUnitError (unknown_units_not_invalid_state) and a wildcard overlap a ValueError (overlap_is_value_error). Proved: every exception raised before array_call stands for a fault of its own kind (exception_explained), missing tracers and a missing time are KeyErrors, clashing lengths, unlisted dims and missing or inconvertible units are InvalidStateErrors, and a state without fault is accepted."
  },
  {
   "property": "C102",
   "status": "partial",
   "theorems": [
    "Verif.tendency_exception_explained",
    "Verif.stepper_exception_explained",
    "Verif.diagnostic_exception_explained",
    "Verif.declared_outputs_accepted",
    "Verif.declared_outputs_accepted_with_tendencies",
    "Verif.accepted_outputs_named",
    "Verif.few_axes_is_key_error",
    "Verif.stepper_alias_tendencies_keyError",
    "Verif.tracer_tendency_exception_explained",
    "Verif.tracer_stepper_exception_explained",
    "Verif.declared_outputs_accepted_with_tracers",
    "Verif.accepted_outputs_named_with_tracers",
    "Verif.stepper_tendencies_exception_explained",
    "Verif.tracer_stepper_tendencies_exception_explained",
    "Verif.stepper_tendencies_shape_valueError"
   ],
   "note": "Proved: every exception after array_call is that of array_call or stands for a fault of its own kind in what was returned (for Steppers with tendencies in diagnostics also: for an output or its old value that is not there under its name, for shapes that do not broadcast, and for differences that do not fit), what is declared is accepted by all kinds, and what is missing, undeclared or misnamed is never accepted. False of the code: a Stepper with tendencies in diagnostics and an alias fails on what it declares (stepper_alias_tendencies_keyError); with tendencies in diagnostics a wrong shape may raise ValueError instead of InvalidPropertyDictError (stepper_tendencies_shape_valueError); with a wildcard and a dimension that the inputs do not have an array with too few axes raises KeyError instead of InvalidPropertyDictError (few_axes_is_key_error); a quantity returned under its name although it has an alias raises KeyError. With tracers likewise, the faults of the tracer array being a missing array, too few positions or axes, and other lengths; further positions on the tracer axis are accepted and dropped (hmore of declared_outputs_accepted_with_tracers)."
  },
  {
   "property": "C103",
   "status": "partial",
   "theorems": [
    "Verif.ab_accuracy_partial",
    "Verif.ssprk_accuracy",
    "Verif.lf_accuracy",
    "Verif.lf_accuracy_unfiltered",
    "Verif.ab_second_order_only",
    "Verif.ab_no_third_order",
    "Verif.SolvesRelaxation.eq",
    "Verif.solvesRelaxation"
   ],
   "note": "Proved with explicit bounds for SSPRungeKutta (orders 2 and 3, timesteps up to the timescale), AdamsBashforth of orders 1 and 2, and Leapfrog with a filter whose alpha is 1/2 (the default) or without filter; with another alpha the bound is of first order. False of the code for AdamsBashforth of the orders 3 (the default) and 4: because the first step is an Euler step the error is of second order (ab_accuracy_partial), and no better (ab_second_order_only, ab_no_third_order)."
  },
  {
   "property": "C104",
   "status": "proved",
   "theorems": [
    "Verif.failed_write_explained",
    "Verif.faultless_write_succeeds",
    "Verif.failed_store_explained",
    "Verif.prepare_fails"
   ],
   "note": "For faults noticed after the times are appended the file keeps one record per time without values (failed_write_explained says when), and the next write adds them again: defect 42."
  },
  {
   "property": "C105",
   "status": "partial",
   "theorems": [
    "Verif.tracer_names_listed",
    "Verif.tracer_names_order_partial",
    "Verif.registered_twice_listed_twice"
   ],
   "note": "Partial because the code violates the full claim: registering a tracer again with the same units appends its name again (registered_twice_listed_twice), so the list has more names than the arrays have slices. Proved: the arrays follow the list without repetitions, names and keys of the unit dictionary agree after every history, and with no name registered twice the list is the order."
  },
  {
   "property": "C106",
   "status": "partial",
   "theorems": [
    "Verif.ssprk_restarts",
    "Verif.euler_restarts",
    "Verif.restart_is_new_run_partial",
    "Verif.ab_restart_differs",
    "Verif.leapfrog_restart_differs"
   ],
   "note": "Partial because the code violates the full claim: AdamsBashforth of orders 2 to 4 and Leapfrog keep earlier tendencies or states that no restart file has, so a continued run starts with an Euler step and ends elsewhere (ab_restart_differs for every such order, leapfrog_restart_differs). Proved: the full claim for SSPRungeKutta and order 1, over all crashes; for the others, that the continued run is the run of a new stepper from the stored state. Only states with dates, because timedeltas are not loaded as such (C94)."
  },
  {
   "property": "C107",
   "status": "partial",
   "theorems": [
    "Verif.updates_every_step_partial",
    "Verif.ab_held_between_updates",
    "Verif.lf_held_between_updates",
    "Verif.ssprk_updating_is_euler",
    "Verif.ssprk_updating_differs"
   ],
   "note": "Partial because the code violates the full claim: the stages of SSPRungeKutta have the time of the first state, so a wrapper with any positive interval, however short, repeats the first stage in the others, and a step with wrapped components is a forward Euler step (`ssprk_updating_is_euler`, with numbers in `ssprk_updating_differs`).  Proved for AdamsBashforth and Leapfrog; for the runs with longer intervals the components must return what depends on the state and timestep only, since a component with memory is called less often."
  },
  {
   "property": "C108",
   "status": "partial",
   "theorems": [
    "Verif.ab_file_as_stored",
    "Verif.ssprk_file_as_stored",
    "Verif.leapfrog_file_as_stored_partial",
    "Verif.leapfrog_changes_stored"
   ],
   "note": "Proved for AdamsBashforth and SSPRungeKutta. The code violates the claim for Leapfrog: its filter changes the arrays of the state it steps, which wait in the monitor if the state was stored before its step, so that the file has other values when written later than when written on store (leapfrog_changes_stored). leapfrog_file_as_stored_partial proves the claim for programs that store states after their steps, as the documented main loop does, from the first step on and with components that give tendencies of the same quantities at every step. Assumes that the arrays of the program exist, and that components change no existing array. A DataArray and its data are one object; views are not modelled."
  },
  {
   "property": "C109",
   "status": "partial",
   "theorems": [
    "Verif.ab_keeps_unstepped",
    "Verif.leapfrog_keeps_unstepped",
    "Verif.ssprk2_keeps_unstepped",
    "Verif.ssprk3_keeps_unstepped_partial",
    "Verif.ssprk3_changes_unstepped"
   ],
   "note": "Proved for AdamsBashforth and Leapfrog with any arithmetic, and for SSPRungeKutta with two stages in binary floating-point arithmetic. The code violates the claim for three stages: 1./3*x + 2./3*x is not x for about a third of all numbers, and it is computed for all quantities (ssprk3_changes_unstepped, with float64 rounding and x = 7); proved instead is that n steps change elements by at most the part (1 + u)^(6 n) - 1, where u = 2^-53 for float64."
  },
  {
   "property": "C11",
   "status": "proved",
   "theorems": [
    "Verif.units_compatible_equivalence",
    "Verif.units_same_equivalence",
    "Verif.compatible_iff_to_units"
   ],
   "note": ""
  },
  {
   "property": "C110",
   "status": "proved",
   "theorems": [
    "Verif.ab_step_rounding",
    "Verif.ab_zero_tendencies_exact",
    "Verif.ab_run_rounding",
    "Verif.ab_can_stall"
   ],
   "note": "Values and tendencies in the run are bounded by X and T (hypotheses about the run in rounded arithmetic, which can be observed). ab_can_stall shows that the bound must grow with n: 300 K warmed by 2^-46 K per step never changes in float64. Overflow, underflow and NaN are not modelled; unit conversion of tendencies may round in any way (part of the accuracy e of the components)."
  },
  {
   "property": "C111",
   "status": "proved",
   "theorems": [
    "Verif.netcdf_file_of_program",
    "Verif.netcdf_when_written",
    "Verif.pieces_need_one_write",
    "Verif.second_store_is_second_record",
    "Verif.earlier_store_is_later_record"
   ],
   "note": "The conditions are needed: with write_on_store a state stored in pieces raises InvalidStateError (pieces_need_one_write), a second store for one time becomes a second record instead of replacing the first (second_store_is_second_record), and earlier times stored later come later in the file (earlier_store_is_later_record). Cached arrays are values here; C72 and C108 are about sharing."
  },
  {
   "property": "C112",
   "status": "proved",
   "theorems": [
    "Verif.documented_loop_file",
    "Verif.ab_loop_writes",
    "Verif.lf_loop_writes",
    "Verif.ssprk_loop_writes",
    "Verif.documented_loop_endless"
   ],
   "note": "Loop of docs/quickstart.rst:44-51 (model documentedLoop). On values; that array identity makes no difference for AdamsBashforth and SSPRungeKutta is C108. Without tendencies in diagnostics. With write_on_store the last write has nothing to write. For Leapfrog no diagnostic is a stepped quantity (the loop updates the dict that Leapfrog keeps)."
  },
  {
   "property": "C113",
   "status": "partial",
   "theorems": [
    "Verif.ab_new_wrappers",
    "Verif.lf_new_wrappers",
    "Verif.euler_restarts_between_updates",
    "Verif.restart_within_interval"
   ],
   "note": "Proved, with exact equality of the states, if the number of steps before the interruption is a multiple of the number of timesteps in each interval (rounded up). The code violates the claim otherwise (restart_within_interval): a new wrapper runs its component at the first call, whatever was cached before, so the results and all later update times differ."
  },
  {
   "property": "C114",
   "status": "proved",
   "theorems": [
    "Verif.ssprk_run_rounding",
    "Verif.ssprk_stable"
   ],
   "note": "Exponents are unbounded (no overflow or underflow), as in C109 and C110. The components are a parameter; ssprk_run_rounding assumes the bound X for the states of the rounded run, and a bound T for tendencies of states of at most stageSize u X T dt."
  },
  {
   "property": "C115",
   "status": "proved",
   "theorems": [
    "Verif.ab_run_converges",
    "Verif.ab_run_converges_exact",
    "Verif.abStepError_sum"
   ],
   "note": "The rounding model is that of C110 (relative error u per operation, no underflow or overflow); u = 0 is exact arithmetic, and then no bounds for values and tendencies are needed. Solutions are given with their derivatives (Spec/Convergence.lean); the truncation bound is proved with Taylor's theorem (Lemmas/Taylor.lean). C103 has sharper bounds for relaxation and shows that orders 3 and 4 have second-order errors because of the first step; the bound here includes that step."
  },
  {
   "property": "C116",
   "status": "proved",
   "theorems": [
    "Verif.ssprk_run_converges",
    "Verif.ssprk_run_second_order",
    "Verif.stageGrowth_le_exp"
   ],
   "note": "Exact arithmetic; C114 bounds how far a floating-point run is from the exact one, so that the sum bounds the error of the floating-point run. The equation must be autonomous because all stages are computed with the time of the beginning of the step (the solution need only be followed at the states' values). With three stages the error of smooth linear equations is of third order (C103); here only three derivatives of the solution and a Lipschitz condition are assumed, which give second order for both."
  },
  {
   "property": "C117",
   "status": "proved",
   "theorems": [
    "Verif.lf_run_converges",
    "Verif.lf_run_converges_exact",
    "Verif.lf_run_converges_half",
    "Verif.lf_run_second_order_half"
   ],
   "note": "Rounding as in C110: every elementary operation of the step is rounded with relative error at most u. With rounding the sizes of states and tendencies of the run are assumed bounded; with u = 0 nothing is assumed about them. The condition 2 dt L <= nu of the theorem for alpha = 1/2 holds for all short enough timesteps when nu > 0. C103 has the growth of leapfrog for a single relaxation."
  },
  {
   "property": "C118",
   "status": "proved",
   "theorems": [
    "Verif.ab_run_updating",
    "Verif.ab_run_updating_exact",
    "Verif.ab_run_converges_memory"
   ],
   "note": "One component in a wrapper (or everything the time stepper calls); ab_run_converges_memory is the theorem for any combination of components with memory. The wrapper keeps the tendencies in the units the component gave, and the time stepper converts them for the present state: the proof uses that steps keep the units of the state. C107 says which output a wrapper gives."
  },
  {
   "property": "C119",
   "status": "partial",
   "theorems": [
    "Verif.views_same_arrays",
    "Verif.views_explained",
    "Verif.in_place_changes_explained",
    "Verif.in_place_results_same",
    "Verif.tracer_changes_stay",
    "Verif.unchanged_stepper_same",
    "Verif.in_place_tendency_vanishes",
    "Verif.in_place_stepper_tendency_wrong",
    "Verif.in_place_differences",
    "Verif.in_place_differences_wrong"
   ],
   "note": "The last clause fails for Steppers with tendencies_in_diagnostics: the differences are taken from the arrays array_call was given, so a Stepper that works in place gets tendency 0 (in_place_tendency_vanishes, in_place_stepper_tendency_wrong).  It is proved for all other components, and for these Steppers if nothing is changed in place.  Whether numpy copies to merge axes is a parameter because strides are not modelled.  A TimeDifferencingWrapper around a Stepper that works in place takes the differences from the changed state (in_place_differences, in_place_differences_wrong)."
  },
  {
   "property": "C12",
   "status": "proved",
   "theorems": [
    "Verif.add_by_name",
    "Verif.sub_by_name"
   ],
   "note": ""
  },
  {
   "property": "C120",
   "status": "proved",
   "theorems": [
    "Verif.lf_run_rounding",
    "Verif.lf_stable"
   ],
   "note": "Exponents are unbounded (no overflow or underflow), as in C109, C110 and C114. The values of the rounded run and of the states the Leapfrog remembers are assumed at most X, the tendencies at most T."
  },
  {
   "property": "C121",
   "status": "proved",
   "theorems": [
    "Verif.ab_means",
    "Verif.ssprk_means",
    "Verif.leapfrog_means",
    "Verif.run_means",
    "Verif.composite_means",
    "Verif.runs_of_mean",
    "Verif.pointProg_keeps",
    "Verif.class_means",
    "Verif.stepper_means",
    "Verif.diagnostic_means",
    "Verif.tidy_dims"
   ],
   "note": "Arithmetic is exact. What the components remember must not depend on the member, which excludes components in an UpdateFrequencyWrapper. The weights must have sum 1 because unit conversions have offsets. The diagnostics of the components are only required to be in a given relation. class_means assumes that no tendency has the same axis twice; tidy_dims proves this for components without tracers whose declared dims are tidy. stepper_means and diagnostic_means state the mean of arrays with the same axes and attributes."
  },
  {
   "property": "C122",
   "status": "proved",
   "theorems": [
    "Verif.ab_confined",
    "Verif.ssprk_confined",
    "Verif.leapfrog_confined",
    "Verif.main_loops_confined",
    "Verif.ab_absorbed",
    "Verif.ssprk_absorbed",
    "Verif.leapfrog_absorbed",
    "Verif.main_loops_absorb",
    "Verif.exactElem_stand",
    "Verif.pointwise_keeps",
    "Verif.Demo.leapfrog_forgets",
    "Verif.composite_confined",
    "Verif.updating_confined",
    "Verif.scaling_confined",
    "Verif.differencing_confined",
    "Verif.compositeO_dataArray",
    "Verif.scalingO_dataArray",
    "Verif.differencingO_dataArray"
   ],
   "note": "The arrays are those of Model/Elements, with elements of any type; with exact rational elements they are the DataArrays of the other files (exactElem_stand). For the second part a Leapfrog must have the value in the state that it remembers, as it has if its first call gets it; Demo.leapfrog_forgets shows that otherwise, with alpha=1, the value is lost."
  },
  {
   "property": "C123",
   "status": "proved",
   "theorems": [
    "Verif.runs_shifted",
    "Verif.composite_dateBlind",
    "Verif.updating_dateBlind",
    "Verif.shiftRel_iff",
    "Verif.Demo.date_matters",
    "Verif.scaling_dateBlind",
    "Verif.differencing_dateBlind"
   ],
   "note": "The main loop may do between the calls whatever does not depend on the date, and then advances the time by the timestep. Times are exact, as everywhere (differences of datetimes of the same calendar). Demo.date_matters shows that the claim fails for a component that uses the time."
  },
  {
   "property": "C124",
   "status": "partial",
   "theorems": [
    "Verif.time_steppers_raise",
    "Verif.leapfrog_no_sharedKey",
    "Verif.ab_raises",
    "Verif.lf_raises",
    "Verif.ssprk_raises",
    "Verif.stepper_raises",
    "Verif.composite_raises",
    "Verif.elem_raises",
    "Verif.dataArray_raises"
   ],
   "note": "The list of exceptions is proved in full. The last part is false of the code: Leapfrog documents a SharedKeyError (timesteppers.py:240-242) that it never raises, whatever is in the state and in the diagnostics (leapfrog_no_sharedKey); an example beside it returns such a diagnostic."
  },
  {
   "property": "C125",
   "status": "proved",
   "theorems": [
    "Verif.main_loops_passive",
    "Verif.composite_passive",
    "Verif.updating_passive",
    "Verif.sameBut_value",
    "Verif.passive_alike",
    "Verif.drives_passive",
    "Verif.Demo.heating_not_passive",
    "Verif.scaling_passive",
    "Verif.differencing_passive"
   ],
   "note": "Arrays of Model/Elements (any elements). The passive quantities have the same axes, lengths and attributes in both runs, because a quantity without the needed units or with other lengths makes the call raise. Demo.heating_not_passive shows that the hypothesis excludes components that use the quantity."
  },
  {
   "property": "C126",
   "status": "proved",
   "theorems": [
    "Verif.lf_run_updating",
    "Verif.lf_run_updating_exact",
    "Verif.lf_run_converges_memory"
   ],
   "note": "lf_run_converges_memory is C117 for components with a memory of what happened before (the cache of the wrapper), from which lf_run_converges is derived. The step that calls Leapfrog advances the time; the units of the quantities stay as they are."
  },
  {
   "property": "C127",
   "status": "proved",
   "theorems": [
    "Verif.ssprk_updating_euler",
    "Verif.updatingO_again",
    "Verif.ssprk_run_updating"
   ],
   "note": "The composite of the stepper is one component in the wrapper. The values are compared in exact arithmetic, where the weights 1/2 + 1/2 and 1/3 + 2/3 add up to one."
  },
  {
   "property": "C128",
   "status": "proved",
   "theorems": [
    "Verif.ab_run_each",
    "Verif.ab_run_each_any",
    "Verif.lf_run_each",
    "Verif.addIntoO_sum"
   ],
   "note": "addIntoO_sum: adding up tendencies in any units and converting the sum afterwards gives the sum of the converted tendencies. The components return tendencies with units known to the registry and without offset. ab_run_each_any has any order and inaccurate initial values. SSPRungeKutta is in C127 and C130."
  },
  {
   "property": "C129",
   "status": "proved",
   "theorems": [
    "Verif.ssprk_run_first_order",
    "Verif.ssprk_rectangle_rule",
    "Verif.ssprk_no_better_order"
   ],
   "note": "A user may expect second order with two and third order with three stages; that holds for equations that do not depend on the time (C103, C116)."
  },
  {
   "property": "C13",
   "status": "proved",
   "theorems": [
    "Verif.tendency_call_keys",
    "Verif.tendency_call_errors",
    "Verif.stepper_call_keys",
    "Verif.stepper_call_errors",
    "Verif.diagnostic_call_outputs",
    "Verif.full_name_despite_alias_keyError"
   ],
   "note": "full_name_despite_alias_keyError: an array_call that returns the full name of an aliased quantity passes the check and then raises KeyError."
  },
  {
   "property": "C130",
   "status": "proved",
   "theorems": [
    "Verif.ssprk_run_each",
    "Verif.updatingO_waits",
    "Verif.PartsOf.later"
   ],
   "note": "The case of one wrapper around all components is C127, runs of AdamsBashforth and Leapfrog are C128."
  },
  {
   "property": "C131",
   "status": "proved",
   "theorems": [
    "Verif.updates_no_better_order",
    "Verif.leapfrog_updates_no_better_order"
   ],
   "note": "runOver_add (two runs one after the other are one run) is used to put the intervals together. The component is one example; upper bounds for all components are C126, C127, C128 and C130. Leapfrog is covered without filter and for even numbers of timesteps between updates, where its two interleaved sequences of values meet every tendency equally often."
  },
  {
   "property": "C14",
   "status": "proved",
   "theorems": [
    "Verif.array_call_not_run",
    "Verif.array_call_gets_inputs"
   ],
   "note": ""
  },
  {
   "property": "C15",
   "status": "partial",
   "theorems": [
    "Verif.aliased_inputs_same",
    "Verif.aliases_transparent_construct",
    "Verif.aliases_transparent_tendency",
    "Verif.aliases_transparent_stepper_partial",
    "Verif.aliases_transparent_diagnostic",
    "Verif.stepper_alias_tendencies_keyError"
   ],
   "note": "Steppers are covered without tendencies_in_diagnostics; with it the claim is false (stepper_alias_tendencies_keyError)."
  },
  {
   "property": "C16",
   "status": "proved",
   "theorems": [
    "Verif.inserted_tendencies_equal",
    "Verif.tendencies_in_diagnostics_only_adds"
   ],
   "note": ""
  },
  {
   "property": "C17",
   "status": "partial",
   "theorems": [
    "Verif.stepper_tendencies_are_differences_partial",
    "Verif.stepper_alias_tendencies_keyError",
    "Verif.in_place_tendency_vanishes",
    "Verif.in_place_stepper_tendency_wrong"
   ],
   "note": "For outputs and inputs without alias; with an alias the call raises KeyError (stepper_alias_tendencies_keyError). A Stepper whose array_call works in place gets tendency 0 (in_place_tendency_vanishes, in_place_stepper_tendency_wrong; see C119)."
  },
  {
   "property": "C18",
   "status": "partial",
   "theorems": [
    "Verif.instances_do_not_interfere_partial",
    "Verif.instances_interfere",
    "Verif.siblings_always_fail",
    "Verif.stepper_siblings_always_fail",
    "Verif.stepper_instances_do_not_interfere_partial"
   ],
   "note": "False of the code: creating an instance with tendencies_in_diagnostics changes the class (counterexample and general failure proved), for Steppers even when the creation is rejected; constructions that leave the class unchanged do not interfere."
  },
  {
   "property": "C19",
   "status": "proved",
   "theorems": [
    "Verif.construct_iff_valid",
    "Verif.construct_stepper_tid_iff"
   ],
   "note": ""
  },
  {
   "property": "C20",
   "status": "proved",
   "theorems": [
    "Verif.duck_type_iff",
    "Verif.duck_kinds_exclusive",
    "Verif.optional_timestep_both",
    "Verif.timestep_optional_iff",
    "Verif.inheriting_kind"
   ],
   "note": ""
  },
  {
   "property": "C21",
   "status": "proved",
   "theorems": [
    "Verif.pack_unpack_roundtrip",
    "Verif.unpacked_values"
   ],
   "note": ""
  },
  {
   "property": "C22",
   "status": "proved",
   "theorems": [
    "Verif.tracer_order",
    "Verif.packed_slices"
   ],
   "note": ""
  },
  {
   "property": "C23",
   "status": "proved",
   "theorems": [
    "Verif.tracer_never_output",
    "Verif.violating_register_raises",
    "Verif.violating_create_raises",
    "Verif.register_accepted_iff"
   ],
   "note": ""
  },
  {
   "property": "C24",
   "status": "partial",
   "theorems": [
    "Verif.rejected_registration_unchanged_partial",
    "Verif.rejected_registration_is_recorded"
   ],
   "note": "False of the code: a registration rejected by an existing component is recorded (counterexample proved); the rejections for units leave everything unchanged."
  },
  {
   "property": "C25",
   "status": "partial",
   "theorems": [
    "Verif.allocated_tracers_match_partial",
    "Verif.allocated_tracers_mismatch_on_reregistration"
   ],
   "note": "False when a tracer is registered twice or also prepended (counterexample proved); proved otherwise, when the inputs have the tracers' lengths."
  },
  {
   "property": "C26",
   "status": "partial",
   "theorems": [
    "Verif.combine_dims_ok_iff",
    "Verif.combine_dims_sound_partial",
    "Verif.combine_dims_most_general",
    "Verif.combine_dims_symmetric_partial",
    "Verif.combine_dims_unsound",
    "Verif.combine_dims_order_dependent"
   ],
   "note": "False of the code when exactly one argument has a wildcard (two counterexamples proved); proved otherwise."
  },
  {
   "property": "C27",
   "status": "proved",
   "theorems": [
    "Verif.combined_properties_cover",
    "Verif.combined_inputs_cover",
    "Verif.incompatible_units_rejected"
   ],
   "note": ""
  },
  {
   "property": "C28",
   "status": "proved",
   "theorems": [
    "Verif.composite_tendencies_sum",
    "Verif.composite_succeeds_iff",
    "Verif.composite_order_irrelevant",
    "Verif.tendency_composite_sum",
    "Verif.implicit_composite_calls",
    "Verif.implicit_composite_sum"
   ],
   "note": ""
  },
  {
   "property": "C29",
   "status": "partial",
   "theorems": [
    "Verif.shared_diagnostic_rejected",
    "Verif.diagnostic_composite_no_overwrite",
    "Verif.tendency_composite_no_overwrite_partial",
    "Verif.tracer_tendency_overwritten"
   ],
   "note": "Proved for construction, for DiagnosticComponentComposite, and for tendency composites of components that return only declared diagnostics; otherwise false (tracer_tendency_overwritten)."
  },
  {
   "property": "C30",
   "status": "proved",
   "theorems": [
    "Verif.composite_leaves_component_arrays",
    "Verif.composite_heap_refines"
   ],
   "note": ""
  },
  {
   "property": "C31",
   "status": "proved",
   "theorems": [
    "Verif.ab_untouched",
    "Verif.lf_untouched",
    "Verif.ssprk_untouched",
    "Verif.ab_stepper_untouched",
    "Verif.lf_stepper_untouched",
    "Verif.composite_prog_dicts"
   ],
   "note": "A tendency of a quantity not in the state makes the call raise, so the new state has exactly the keys of the old. SSPRungeKutta makes new arrays of equal value for the other quantities."
  },
  {
   "property": "C32",
   "status": "partial",
   "theorems": [
    "Verif.adams_bashforth_scheme_partial",
    "Verif.ab_tendencies_physical",
    "Verif.failed_step_stays_in_history",
    "Verif.new_quantity_not_stepped"
   ],
   "note": "Proved for histories without a call that raised in the step itself; after such a call the claim is false (failed_step_stays_in_history). Quantities are stepped only once the oldest tendency in use has them (new_quantity_not_stepped)."
  },
  {
   "property": "C33",
   "status": "proved",
   "theorems": [
    "Verif.ab_exact_on_polynomials",
    "Verif.ab_formula_exact",
    "Verif.ab_coefficients_unique"
   ],
   "note": ""
  },
  {
   "property": "C34",
   "status": "proved",
   "theorems": [
    "Verif.ab_rejects_changed_timestep",
    "Verif.lf_rejects_changed_timestep",
    "Verif.ssprk_rejects_changed_timestep"
   ],
   "note": "The first call fixes the timestep even if it raises. SSPRungeKutta, a one-step method, also rejects a changed timestep."
  },
  {
   "property": "C35",
   "status": "partial",
   "theorems": [
    "Verif.ab_history_bounded_partial",
    "Verif.history_grows_after_failed_step",
    "Verif.history_unbounded"
   ],
   "note": "False of the code after a call that raised in the step itself: the history then grows by one with every call (proved). Proved for histories without such a call."
  },
  {
   "property": "C36",
   "status": "proved",
   "theorems": [
    "Verif.leapfrog_first_call",
    "Verif.leapfrog_later_call",
    "Verif.leapfrog_failed_call",
    "Verif.leapfrog_partial_filter"
   ],
   "note": "leapfrog_partial_filter: a call that raises can leave the caller's state filtered for some quantities."
  },
  {
   "property": "C37",
   "status": "proved",
   "theorems": [
    "Verif.ssprk_is_butcher",
    "Verif.ssprk_linear_amplification"
   ],
   "note": "Every stage sees the time of the input state (part of IsRKStep), so the order is only that of the scheme if the tendencies do not depend on time; see C87."
  },
  {
   "property": "C38",
   "status": "proved",
   "theorems": [
    "Verif.ssprk_preserves_convex",
    "Verif.ssprk_strong_stability"
   ],
   "note": ""
  },
  {
   "property": "C39",
   "status": "proved",
   "theorems": [
    "Verif.ab_units_irrelevant",
    "Verif.lf_units_irrelevant",
    "Verif.ssprk_units_irrelevant",
    "Verif.sameRate_of_toUnits"
   ],
   "note": ""
  },
  {
   "property": "C40",
   "status": "proved",
   "theorems": [
    "Verif.net_tendency_in_diagnostics",
    "Verif.net_tendency_name_clash",
    "Verif.tsCall_state"
   ],
   "note": "For Leapfrog the old value is that of the caller's state after the filter. Quantities are those of output_properties; tracers have no entry."
  },
  {
   "property": "C41",
   "status": "proved",
   "theorems": [
    "Verif.update_frequency_exact",
    "Verif.update_frequency_apart",
    "Verif.update_frequency_timestep",
    "Verif.update_frequency_no_time"
   ],
   "note": "A TypeError raised by the component in a call with a timestep is followed by a second call without it (update_frequency_timestep)."
  },
  {
   "property": "C42",
   "status": "partial",
   "theorems": [
    "Verif.scaling_wrapper_partial",
    "Verif.scaling_wrapper_succeeds",
    "Verif.scaling_make",
    "Verif.scaling_make_unknown",
    "Verif.scaling_shared_array",
    "Verif.scaling_changes_state",
    "Verif.scaling_drops_tracers"
   ],
   "note": "Proved when the component returns distinct arrays and needs only its declared inputs; otherwise false (three counterexamples proved)."
  },
  {
   "property": "C43",
   "status": "partial",
   "theorems": [
    "Verif.scaling_repeat_partial",
    "Verif.scaling_compounds",
    "Verif.scaling_compounds_update_frequency"
   ],
   "note": "False of the code for components that return an array they keep, such as ConstantTendencyComponent or an UpdateFrequencyWrapper: the factor compounds (proved). Proved for components that return new arrays."
  },
  {
   "property": "C44",
   "status": "proved",
   "theorems": [
    "Verif.time_differencing_tendencies",
    "Verif.time_differencing_euler",
    "Verif.time_differencing_missing",
    "Verif.time_differencing_properties",
    "Verif.in_place_differences"
   ],
   "note": "Assumes of the unit registry that a unit per second has the unit's scale and no offset. An output quantity missing from the state raises RuntimeError (time_differencing_missing). If the Stepper changes the state in place, the Euler step must start from the changed state (in_place_differences); the tendency of a quantity it has overwritten with its new value is 0."
  },
  {
   "property": "C45",
   "status": "proved",
   "theorems": [
    "Verif.set_then_get",
    "Verif.set_constant_raises"
   ],
   "note": "Assumes only that the unit registry is faithful, as for C12."
  },
  {
   "property": "C46",
   "status": "proved",
   "theorems": [
    "Verif.reset_restores"
   ],
   "note": "Includes get_constants_string and whether set_constant raises."
  },
  {
   "property": "C47",
   "status": "proved",
   "theorems": [
    "Verif.get_alias_spec",
    "Verif.get_alias_small_table",
    "Verif.proxy_terminates",
    "Verif.proxy_lists",
    "Verif.no_circular_aliases",
    "Verif.phase_is_circular",
    "Verif.constant_item_assigned"
   ],
   "note": "A chain of more than 100 aliases also raises RuntimeError; the tables that arise have 24 entries."
  },
  {
   "property": "C48",
   "status": "partial",
   "theorems": [
    "Verif.constants_string_partial",
    "Verif.constants_string_succeeds",
    "Verif.constants_string_water",
    "Verif.constants_string_error",
    "Verif.constants_string_text",
    "Verif.constants_string_raises"
   ],
   "note": "False of the code after set_condensible_name with a name whose constants are not all defined: KeyError (constants_string_raises). Proved whenever the call does not raise, with the exact condition for that; constants_string_text gives the text line by line."
  },
  {
   "property": "C49",
   "status": "partial",
   "theorems": [
    "Verif.netcdf_write_partial",
    "Verif.netcdf_write_on_store_partial",
    "Verif.netcdf_write_succeeds",
    "Verif.netcdf_write_nothing",
    "Verif.netcdf_mixes_units",
    "Verif.netcdf_mixes_dims",
    "Verif.netcdf_scalar_raises",
    "Verif.netcdf_scalar_appends_times",
    "Verif.netcdf_lengths_fit"
   ],
   "note": "Proved after all sequences of calls for batches in which a quantity has the same dims, shape and attributes throughout; otherwise false (netcdf_mixes_units, netcdf_mixes_dims), as for scalars, which cannot be written. Cached arrays are modelled as values."
  },
  {
   "property": "C50",
   "status": "partial",
   "theorems": [
    "Verif.netcdf_rejects_partial",
    "Verif.netcdf_write_succeeds",
    "Verif.netcdf_quantities_added"
   ],
   "note": "Proved when the file has a quantity or the cached states differ; false for a file with records but no quantity (netcdf_quantities_added)."
  },
  {
   "property": "C51",
   "status": "partial",
   "theorems": [
    "Verif.alias_replaces",
    "Verif.netcdf_aliases_partial",
    "Verif.netcdf_alias_empty_partial",
    "Verif.netcdf_empty_name",
    "Verif.alias_loses_quantity",
    "Verif.alias_renames_time"
   ],
   "note": "False of the code when an alias gives a quantity the old name of another one (alias_loses_quantity) or occurs in 'time' (alias_renames_time). Proved otherwise."
  },
  {
   "property": "C52",
   "status": "proved",
   "theorems": [
    "Verif.restart_crash_safe"
   ],
   "note": "For all histories of stores, stops and manual recovery. The process may stop between any two operations on files; renames and removals are atomic, as in POSIX. States have no dimension named time."
  },
  {
   "property": "C53",
   "status": "partial",
   "theorems": [
    "Verif.restart_load_partial",
    "Verif.store_returns",
    "Verif.load_timedelta",
    "Verif.load_out_of_range",
    "Verif.load_named_like_dim",
    "Verif.load_loses_quantity",
    "Verif.load_decodes_times",
    "Verif.load_decodes_units"
   ],
   "note": "False of the code for timedeltas, dates outside of 64 bit nanoseconds, quantities named like a dimension, and quantities in units of time that xarray decodes (all proved). Proved otherwise, whatever files existed before."
  },
  {
   "property": "C54",
   "status": "partial",
   "theorems": [
    "Verif.restart_continues_partial",
    "Verif.restart_stop_harmless_partial",
    "Verif.restart_blocked",
    "Verif.restart_stop_blocks",
    "Verif.restart_exception_blocks",
    "Verif.restart_recovers"
   ],
   "note": "False of the code: a stop after the new file is created and before it is renamed leaves <f>.new, and then every store raises IOError (restart_stop_blocks, restart_blocked); between the renames nothing can be loaded either. Proved when <f>.new is absent, and after manual recovery (restart_recovers)."
  },
  {
   "property": "C55",
   "status": "proved",
   "theorems": [
    "Verif.component_aliases_priority"
   ],
   "note": ""
  },
  {
   "property": "C56",
   "status": "partial",
   "theorems": [
    "Verif.datetime_documented",
    "Verif.datetime_noleap",
    "Verif.datetime_unknown"
   ],
   "note": "False of the code for an unknown calendar name: None is returned (datetime_unknown). Proved for all documented names in any letter case. Which fields a date type accepts is a parameter."
  },
  {
   "property": "C57",
   "status": "proved",
   "theorems": [
    "Verif.relaxation_tendency",
    "Verif.relaxation_offset_rejected"
   ],
   "note": "Stated in base units, with no exception raised. Assumes of pint that the quotient of a unit and the second has the quotient's scale. A component for units with an offset cannot be made (relaxation_offset_rejected); inputs may have such units."
  },
  {
   "property": "C58",
   "status": "proved",
   "theorems": [
    "Verif.constant_tendency_component",
    "Verif.constant_diagnostic_component"
   ],
   "note": "Of the attributes only the units are returned."
  },
  {
   "property": "C59",
   "status": "partial",
   "theorems": [
    "Verif.diagnostics_declared_partial",
    "Verif.constant_undeclared_diagnostic",
    "Verif.tracer_undeclared_diagnostic"
   ],
   "note": "False of the code for components whose properties build a new dictionary on every access, such as ConstantTendencyComponent: the inserted declaration is lost (constant_undeclared_diagnostic); and for every component with tracers and tendencies in diagnostics: the tendencies of the tracers are returned as diagnostics and not declared (tracer_undeclared_diagnostic). Proved: for dictionaries that keep what is written to them these are the only undeclared ones."
  },
  {
   "property": "C60",
   "status": "partial",
   "theorems": [
    "Verif.require_wildcard_matches_partial",
    "Verif.require_wildcard_matches_ignored"
   ],
   "note": "False of the code: a requirement that the array does not meet is ignored (require_wildcard_matches_ignored). Proved when the required dims are the unlisted ones in any order."
  },
  {
   "property": "C61",
   "status": "proved",
   "theorems": [
    "Verif.tracer_units_stable",
    "Verif.changed_units_rejected",
    "Verif.same_units_accepted"
   ],
   "note": "Assumes that pint identifies only equal units (Faithful)."
  },
  {
   "property": "C62",
   "status": "proved",
   "theorems": [
    "Verif.construct_tracers_iff"
   ],
   "note": "Relative to construction of the same class without tracers (C19)."
  },
  {
   "property": "C63",
   "status": "proved",
   "theorems": [
    "Verif.tendency_call_tracers",
    "Verif.stepper_call_tracers"
   ],
   "note": "For tracers that are not declared outputs (C23); the returned array must have the shape of the given one."
  },
  {
   "property": "C64",
   "status": "partial",
   "theorems": [
    "Verif.combined_dims_exact",
    "Verif.combined_dims_sound_partial",
    "Verif.combined_dims_general",
    "Verif.combined_dims_missing",
    "Verif.combined_dims_unsound"
   ],
   "note": "False of the code when entries with and without wildcard are combined (combined_dims_unsound, the slip of C26). Proved when all or none have a wildcard; that usable arrays stay usable is proved without restriction."
  },
  {
   "property": "C65",
   "status": "proved",
   "theorems": [
    "Verif.ab_steady_run",
    "Verif.lf_steady_run",
    "Verif.ssprk_steady_run"
   ],
   "note": "Exact arithmetic. Also says that each stepper keeps the units of the quantity (SameAttrs in the stages of SSPRungeKutta)."
  },
  {
   "property": "C66",
   "status": "partial",
   "theorems": [
    "Verif.combine_properties_ok_iff",
    "Verif.agreeing_components_compose_iff",
    "Verif.agreeing_components_compose_partial",
    "Verif.composite_alias_clash"
   ],
   "note": "False of the code as to aliases: a composite of two valid components that use one alias for different inputs is rejected (composite_alias_clash). The exact condition is proved, and the claim without such aliases."
  },
  {
   "property": "C67",
   "status": "partial",
   "theorems": [
    "Verif.ts_tid_decided",
    "Verif.ts_tid_accepted_partial",
    "Verif.ts_tid_rejected"
   ],
   "note": "The claim is false in the code. ts_tid_decided gives the exact condition (same dims and same unit string as input and output, otherwise InvalidPropertyDictError); ts_tid_accepted_partial proves the claim when no stepped quantity is an input of a component; ts_tid_rejected proves the failure for every stepped quantity whose input unit string is not the clean form of its tendency units times seconds. Missing: nothing further can hold of the code as written."
  },
  {
   "property": "C68",
   "status": "partial",
   "theorems": [
    "Verif.ts_diagnostics_declared_partial",
    "Verif.ts_declared_units_not_returned"
   ],
   "note": "The names are the declared ones and the units compatible with those declared. The full claim is false: with tendencies given in units other than base units (K day^-1) the net tendency is returned in base units (kelvin s^-1), proved for every state and scheme."
  },
  {
   "property": "C69",
   "status": "partial",
   "theorems": [
    "Verif.ab_state_units_partial",
    "Verif.lf_state_units_partial",
    "Verif.ssprk_state_units",
    "Verif.ssprk_keeps_nothing",
    "Verif.ab_units_mixed",
    "Verif.lf_units_mixed"
   ],
   "note": "Proved for AdamsBashforth of every order and Leapfrog as long as each quantity keeps its units during the run, and for SSPRungeKutta without that restriction. The full claim is false: if a quantity comes in km after m, AdamsBashforth and Leapfrog combine numbers of both units."
  },
  {
   "property": "C70",
   "status": "proved",
   "theorems": [
    "Verif.general_names",
    "Verif.condensible_changes_only"
   ],
   "note": "The general names and their meaning are a separate specification (Spec/Condensible). 'phase' itself is excluded: it makes aliases of themselves (C47)."
  },
  {
   "property": "C71",
   "status": "partial",
   "theorems": [
    "Verif.sign_spellings_partial",
    "Verif.unit_strings_partial",
    "Verif.sign_spellings_read",
    "Verif.sign_units_unreadable"
   ],
   "note": "Holds for validity, sameness, base units and the unit converted from; for the unit converted to (and both units of DataArray.to_units) only if pint itself reads the signs, because .to() and Quantity() bypass the replacement. If pint does not read the sign, the claim is false (sign_units_unreadable): the unit is valid, but units_are_compatible is not symmetric and nothing can be converted. Which holds depends on the version of pint, which is a parameter."
  },
  {
   "property": "C72",
   "status": "partial",
   "theorems": [
    "Verif.netcdf_stores_values_partial",
    "Verif.netcdf_writes_later_values",
    "Verif.netcdf_change_written"
   ],
   "note": "Proved if no array is changed in place while it waits to be written (in particular with write_on_store and successful writes). In general it is false: store caches references, and what is written is what the arrays are at write (netcdf_writes_later_values, witness netcdf_change_written)."
  },
  {
   "property": "C73",
   "status": "proved",
   "theorems": [
    "Verif.plot_leaves_state",
    "Verif.plot_shares_other_objects"
   ],
   "note": "The claim is about DataArrays. Other objects in a state (numpy arrays, plain xarray DataArrays) are passed by reference and can be changed (plot_shares_other_objects). The figure is not modelled."
  },
  {
   "property": "C74",
   "status": "partial",
   "theorems": [
    "Verif.wrapped_kinds",
    "Verif.wrapped_accepted",
    "Verif.time_differencing_kind",
    "Verif.nested_scaling_partial",
    "Verif.nested_implicit_raises",
    "Verif.scaling_update_implicit_raises",
    "Verif.scaling_discards_timestep",
    "Verif.wrapped_in_composites",
    "Verif.tendency_composite_accepts_implicit"
   ],
   "note": "Proved for Steppers, TendencyComponents and DiagnosticComponents. The code violates it for ImplicitTendencyComponents: a wrapped one is also an instance of TendencyComponent and is called without its timestep, so ScalingWrapper around it always raises (nested_implicit_raises, scaling_update_implicit_raises), and TendencyComponentComposite accepts it and then always raises (tendency_composite_accepts_implicit)."
  },
  {
   "property": "C75",
   "status": "partial",
   "theorems": [
    "Verif.time_differencing_stepper_partial",
    "Verif.time_differencing_loses_tracers",
    "Verif.time_differencing_inputs",
    "Verif.time_differencing_declares"
   ],
   "note": "Proved for declared outputs; what the wrapper declares is what it returns. The code violates it for tracers: only names in output_properties are differenced, so every tracer keeps its old value whatever the Stepper returns (time_differencing_loses_tracers), and the wrapper has uses_tracers False, so composites do not ask for the tracers (time_differencing_inputs)."
  },
  {
   "property": "C76",
   "status": "partial",
   "theorems": [
    "Verif.component_calls_unit_blind",
    "Verif.composites_unit_blind",
    "Verif.wrappers_unit_blind",
    "Verif.model_steps_unit_blind",
    "Verif.scaling_unit_blind_partial",
    "Verif.scaling_depends_on_units"
   ],
   "note": "Proved for components, composites, TimeDifferencingWrapper, UpdateFrequencyWrapper and runs of AdamsBashforth, Leapfrog and SSPRungeKutta with components (for AdamsBashforth and Leapfrog under C69's condition that units do not change between calls). The code violates it for ScalingWrapper: inputs are multiplied in the state's own units, so with offset units the component sees other physical inputs (scaling_depends_on_units); without offset units it holds (scaling_unit_blind_partial)."
  },
  {
   "property": "C77",
   "status": "proved",
   "theorems": [
    "Verif.layout_accepted",
    "Verif.layout_inputs",
    "Verif.layout_outputs",
    "Verif.components_axis_order",
    "Verif.axis_order_matters_along_wildcard"
   ],
   "note": "States with unit-free or ill-formed arrays are outside (WF, StarFree); property dimensions are without repetitions and disjoint from the wildcard's (PlainDims), as in C03. The proviso (AxisBlind) is needed: axis_order_matters_along_wildcard."
  },
  {
   "property": "C78",
   "status": "proved",
   "theorems": [
    "Verif.ab_conserves",
    "Verif.lf_conserves",
    "Verif.ssprk_conserves",
    "Verif.ab_conservation_needs_fixed_quantities"
   ],
   "note": "In exact arithmetic; the sum is taken in the units the state has at the start, which the steppers keep. That tendencies are given for the same quantities in every call is needed: ab_conservation_needs_fixed_quantities."
  },
  {
   "property": "C79",
   "status": "proved",
   "theorems": [
    "Verif.implicit_composite_accepts",
    "Verif.plain_composite_accepts",
    "Verif.composite_accepts_subclass",
    "Verif.composite_type_error"
   ],
   "note": ""
  },
  {
   "property": "C80",
   "status": "proved",
   "theorems": [
    "Verif.monitor_composite_stores"
   ],
   "note": ""
  },
  {
   "property": "C81",
   "status": "partial",
   "theorems": [
    "Verif.uninitialised_never_runs_partial",
    "Verif.initialised_calls",
    "Verif.first_init_is_construct",
    "Verif.uninitialised_tendency_stepper",
    "Verif.half_initialised_stepper"
   ],
   "note": "array_call is never run on an uninitialised object. The error is RuntimeError except for Steppers with tracers, which declare themselves initialised before their tracers are checked (half_initialised_stepper), and TendencyStepper, which raises AttributeError because the attribute it tests is absent rather than false (uninitialised_tendency_stepper)."
  },
  {
   "property": "C82",
   "status": "partial",
   "theorems": [
    "Verif.backend_tendency",
    "Verif.backend_stepper",
    "Verif.backend_diagnostic",
    "Verif.default_backend",
    "Verif.default_ops",
    "Verif.backend_composite_partial",
    "Verif.backend_convert_partial",
    "Verif.set_backend_last",
    "Verif.composite_needs_dataarrays",
    "Verif.bare_containers_not_added",
    "Verif.narrow_container_type",
    "Verif.narrow_container_sum",
    "Verif.ab_over",
    "Verif.leapfrog_over",
    "Verif.ssprk_over",
    "Verif.stepper_over",
    "Verif.dataArray_stand"
   ],
   "note": "Proved in full for the base component classes, tracers included. Composites and time steppers use attrs, to_units and + of the containers themselves, so the interface is not enough for them (composite_needs_dataarrays); the _partial theorems assume the containers mimic DataArrays; given that, whole calls of the time steppers correspond (ab_over, leapfrog_over, ssprk_over, stepper_over). Whatever is not an instance of the container type has its units ignored (narrow_container_type)."
  },
  {
   "property": "C83",
   "status": "partial",
   "theorems": [
    "Verif.repr_terminates",
    "Verif.repr_leaves_no_flag",
    "Verif.repr_text_partial",
    "Verif.repr_no_effect_partial",
    "Verif.Shows.unique",
    "Verif.failed_repr_stays",
    "Verif.repr_has_effect",
    "Verif.composite_in_itself"
   ],
   "note": "The code violates the last part. If the repr of an attribute raises, the component's flag stays set and it prints as a recursive reference from then on (failed_repr_stays). A TimeDifferencingWrapper that was never printed takes the flag of its Stepper, so printing it changes what the Stepper prints (repr_has_effect). Text and absence of effects are proved without such wrappers (NoWrappers) and for calls that return; the end is proved for all, given that composites consist of objects made before them (a composite put into itself afterwards never ends, composite_in_itself). Python's recursion limit is not modelled."
  },
  {
   "property": "C84",
   "status": "partial",
   "theorems": [
    "Verif.nested_call",
    "Verif.nested_call_first",
    "Verif.nested_diagnostic_call",
    "Verif.nested_members",
    "Verif.nested_accepted",
    "Verif.nested_construct_partial",
    "Verif.nesting_changes_acceptance",
    "Verif.nesting_changes_declared_dims",
    "Verif.nesting_hides_inputs"
   ],
   "note": "Calls are proved in full. Construction is proved for groups that come first and declare the dims of their tendencies; otherwise the code violates the claim: dims are merged from left to right by an operation that is not associative (nesting_changes_acceptance), and tendencies and diagnostics without dims take them from the inputs of the innermost composite (nesting_changes_declared_dims, nesting_hides_inputs)."
  },
  {
   "property": "C85",
   "status": "partial",
   "theorems": [
    "Verif.ab_remembers_values",
    "Verif.ab_changes_no_array",
    "Verif.leapfrog_remembers_partial",
    "Verif.leapfrog_changes_stepped",
    "Verif.leapfrog_sees_later_changes",
    "Verif.leapfrog_changes_diagnostics"
   ],
   "note": "Proved for AdamsBashforth of any order, for components that leave the arrays of the state they are given as they are. The code violates the claim for Leapfrog: _old_state keeps the caller's arrays, so that overwriting an array of an earlier state changes the next step (leapfrog_sees_later_changes), and a diagnostic that is an array of the state is changed by the filter before it is returned (leapfrog_changes_diagnostics). leapfrog_remembers_partial proves the claim without these two and for stepped quantities that do not share arrays. Views (two arrays on one buffer) are not modelled; SSPRungeKutta keeps nothing between calls."
  },
  {
   "property": "C86",
   "status": "proved",
   "theorems": [
    "Verif.composite_budgets",
    "Verif.stepper_budgets"
   ],
   "note": "Numbers are rationals. The units of the tendencies of budgeted quantities have no offset, and each component returns the same set of tendencies at each call (as in C78)."
  },
  {
   "property": "C87",
   "status": "partial",
   "theorems": [
    "Verif.ab_forced_exact_partial",
    "Verif.lf_forced_exact_partial",
    "Verif.ssprk_forced_is_euler",
    "Verif.ssprk_forced_error"
   ],
   "note": "Proved for AdamsBashforth and Leapfrog (after an odd number of steps Leapfrog keeps the error of its first, forward Euler, step). False for SSPRungeKutta: every stage is evaluated with the time of the input state, so a time-dependent tendency is integrated by forward Euler (ssprk_forced_is_euler) and the error for one that is linear in time is of first order in the timestep with 2 or 3 stages (ssprk_forced_error). Numbers are rationals."
  },
  {
   "property": "C88",
   "status": "partial",
   "theorems": [
    "Verif.str_tells_partial",
    "Verif.str_raises_iff",
    "Verif.composite_str",
    "Verif.implicit_str_says_tendency"
   ],
   "note": "Two parts are false of the code. str of a TendencyStepper always raises IndexError, since its template has two fields and one argument; str_raises_iff shows that this is the only way str fails. The text of an ImplicitTendencyComponent calls it a TendencyComponent (implicit_str_says_tendency); str_tells_partial proves the rest."
  },
  {
   "property": "C89",
   "status": "partial",
   "theorems": [
    "Verif.add_by_label",
    "Verif.sub_by_label",
    "Verif.ab_coords",
    "Verif.ssprk_coords",
    "Verif.leapfrog_coords",
    "Verif.ab_coords_run",
    "Verif.ssprk_coords_run",
    "Verif.leapfrog_coords_run",
    "Verif.leapfrog_moved",
    "Verif.coords_stand_maybe",
    "Verif.Demo.ab_uses_positions",
    "Verif.Demo.components_use_positions"
   ],
   "note": "The last sentence holds of Leapfrog (leapfrog_moved: it raises) but is false of AdamsBashforth, which combines remembered tendencies with the state by position (ab_uses_positions). Components are given bare arrays, so they combine inputs by position too (components_use_positions). xarray's alignment is modelled for index coordinates with the default inner join."
  },
  {
   "property": "C90",
   "status": "partial",
   "theorems": [
    "Verif.combined_by_name",
    "Verif.input_properties_later",
    "Verif.input_properties_later_iff",
    "Verif.fresh_tracer_added",
    "Verif.tendency_properties_later",
    "Verif.diagnostic_properties_later",
    "Verif.diagnostic_properties_any_tracers",
    "Verif.stepper_call_later",
    "Verif.tsCallLive_eq",
    "Verif.stepper_call_any_tracers",
    "Verif.later_tracer_breaks",
    "Verif.stepper_call_breaks",
    "Verif.Demo.accepted_then_broken"
   ],
   "note": "Proved for any change of the registered tracers (also resets), under the condition that input_properties can still be evaluated; input_properties_later_iff says exactly when. The claim without that condition is false: components with different tracer_dims are accepted while no tracer is registered, and the first registration makes input_properties raise (later_tracer_breaks, accepted_then_broken). A TendencyStepper with tendencies in diagnostics then raises on every call, after having taken the step and changed its history (stepper_call_breaks)."
  },
  {
   "property": "C91",
   "status": "proved",
   "theorems": [
    "Verif.tsCall_units_only",
    "Verif.reordered_respected",
    "Verif.renamed_respected",
    "Verif.column_respected",
    "Verif.isel_column",
    "Verif.ab_commutes",
    "Verif.leapfrog_commutes",
    "Verif.ssprk_commutes",
    "Verif.composite_commutes",
    "Verif.run_commutes",
    "Verif.runs_commute",
    "Verif.decayProg_commutes"
   ],
   "note": "Proved for every relation between arrays that xarray's arithmetic respects (Respected), with the three of the statement as instances. Also related after every call: the state passed in, the memory of the stepper, the diagnostics, the exception raised."
  },
  {
   "property": "C92",
   "status": "partial",
   "theorems": [
    "Verif.reading_properties_partial",
    "Verif.access_gives",
    "Verif.access_seen",
    "Verif.use_keeps",
    "Verif.composite_diagnostics_shared",
    "Verif.stepper_diagnostics_shared",
    "Verif.composite_diagnostics_written_through",
    "Verif.Demo.heat_changed"
   ],
   "note": "Reading changes nothing, in all cases, although the outputs of a time stepper are computed by changing dicts in place: they are always new ones. The dictionaries returned may be changed at will except diagnostic_properties: there the dicts under the names are those of the components, so that changing one changes what the component declares (composite_diagnostics_written_through)."
  },
  {
   "property": "C93",
   "status": "partial",
   "theorems": [
    "Verif.order_accepted_iff",
    "Verif.order_rejected",
    "Verif.order_makes",
    "Verif.numpy_order_rejected",
    "Verif.stages_accepted_iff",
    "Verif.stages_rejected",
    "Verif.adams_bashforth_arguments_partial",
    "Verif.ssprk_arguments",
    "Verif.leapfrog_arguments",
    "Verif.keyword_order_irrelevant",
    "Verif.undocumented_keyword",
    "Verif.components_as_list",
    "Verif.steppers_accept_alike"
   ],
   "note": "What is made is characterised exactly. The claim fails for numpy's integers: as order they raise TypeError, 'order must be an integer' (numpy_order_rejected), though numpy's floats are accepted, and as stages so are numpy's integers."
  },
  {
   "property": "C94",
   "status": "proved",
   "theorems": [
    "Verif.ab_failures_leave_no_trace",
    "Verif.lf_failures_leave_no_trace",
    "Verif.ssprk_failures_leave_no_trace",
    "Verif.update_frequency_failures_leave_no_trace",
    "Verif.ab_failed_step_leaves_trace"
   ],
   "note": "The failing attempts are deleted from the run and the rest proved identical. The restriction for AdamsBashforth is needed: ab_failed_step_leaves_trace (defect 5). A first call that fails fixes the timestep all the same, hence one timestep for all attempts."
  },
  {
   "property": "C95",
   "status": "partial",
   "theorems": [
    "Verif.nest_lookup",
    "Verif.attribute_passed_on",
    "Verif.own_attribute",
    "Verif.outputs_hidden",
    "Verif.differencing_properties",
    "Verif.differencing_of_no_stepper",
    "Verif.differencing_name",
    "Verif.bare_wrapper",
    "Verif.wrapper_not_copied",
    "Verif.scaling_seen_as",
    "Verif.update_seen_as",
    "Verif.differencing_seen_as",
    "Verif.wrappers_are_layers"
   ],
   "note": "Lookups on wrappers that have their component are characterised exactly. The claim fails for wrappers that have not got it yet: every lookup recurses without end, whatever the limit (bare_wrapper), so no wrapper can be copied or unpickled (wrapper_not_copied). name of a TimeDifferencingWrapper is always None (differencing_name), and around an object without outputs it passes on its tendency_properties instead of raising (differencing_of_no_stepper)."
  },
  {
   "property": "C96",
   "status": "proved",
   "theorems": [
    "Verif.run_keeps_dims",
    "Verif.run_keeps_shape",
    "Verif.composite_keeps_dims",
    "Verif.component_keeps_dims",
    "Verif.sized_binop"
   ],
   "note": "A quantity can gain dimensions, without a warning, when a tendency has one that it does not have; the example beside the theorems turns a single number into a profile in one step. component_keeps_dims is for components without tracers."
  },
  {
   "property": "C97",
   "status": "proved",
   "theorems": [
    "Verif.components_column_wise",
    "Verif.columns_accepted",
    "Verif.columns_inputs",
    "Verif.columns_outputs",
    "Verif.component_on_grids",
    "Verif.composite_column_wise",
    "Verif.run_column_wise",
    "Verif.run_columns_values"
   ],
   "note": "Columns.SameColumns asks that quantities requested without a wildcard have none of the dimensions across which columns are laid out. The example computes a tendency from the sum over each column, on a 2 by 2 grid and for a list of three of its columns, one of them twice."
  },
  {
   "property": "C98",
   "status": "proved",
   "theorems": [
    "Verif.ab_relaxed_run",
    "Verif.lf_relaxed_run",
    "Verif.ssprk_relaxed_run",
    "Verif.ab_reaches_equilibrium",
    "Verif.ssprk_reaches_equilibrium",
    "Verif.ssprk_no_overshoot",
    "Verif.lf_reaches_equilibrium",
    "Verif.leapfrog_default_limit",
    "Verif.ab_point_run",
    "Verif.lf_point_run",
    "Verif.ssprk_point_run"
   ],
   "note": "Exact arithmetic. The factors abDecay, lfDecay and rkDecay are the schemes of the text books applied to y' = -y; the theorems about limits ask for the state after each number of steps (the runs do not raise). The limits for AdamsBashforth and SSPRungeKutta are sufficient, that for Leapfrog is exact. The general part (ab_point_run and others) is for any components that give the quantity a tendency which is a function of its value."
  },
  {
   "property": "C99",
   "status": "proved",
   "theorems": [
    "Verif.ab_completes",
    "Verif.lf_completes",
    "Verif.ssprk_completes",
    "Verif.composite_supplies",
    "Verif.relaxation_gives",
    "Verif.class_gives"
   ],
   "note": "The conditions on the components are Supplies and GivesRates, which quantify over all states like the first one and hold for a component whose array_call returns what its class declares (class_gives); the states a run reaches are of that kind (Ready). With tendencies in diagnostics (Reports) the units of the properties must convert from those of the state and no component may give a diagnostic of the name used. The examples use this to show that the hypotheses of the limits in C98 are met by runs of any length."
  }
 ]
}
