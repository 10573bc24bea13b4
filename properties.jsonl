{"id": "C01", "title": "Inputs reach a component labelled correctly", "statement": "When get_numpy_arrays_with_properties(state, properties) succeeds, the array it returns for each quantity holds, at the position obtained by writing the requested dims in order (with '*' replaced by the row-major position over the wildcard dims), exactly the value the state quantity has at the same named coordinates, converted to the requested units; dims the quantity lacks are broadcast.", "quantifier": "every state, every property dictionary in which no alias equals the key of another quantity, every quantity in it, every dimension order, every set of wildcard dims, every coordinate", "why_tests_cant": "There are infinitely many combinations of dim orders, missing dims and wildcard groupings; a transposition or ravel-order error shows only for some of them.", "anchors": ["sympl/_core/get_np_arrays.py:get_numpy_arrays_with_properties", "sympl/_core/backend.py:DataArrayBackend._get_numpy_array", "sympl/_core/wildcard.py:flatten_wildcard_dims", "sympl/_core/wildcard.py:get_wildcard_matches_and_dim_lengths"]}
{"id": "C02", "title": "All arrays given to one component agree on dimension lengths", "statement": "If get_numpy_arrays_with_properties succeeds, then every returned array has one axis per requested dim, any dimension name has the same length wherever it occurs in the returned arrays, and the '*' axis has the same length in every array that has one.", "quantifier": "every state and property dictionary for which the call succeeds", "why_tests_cant": "Requires quantifying over all pairs of quantities and all shapes.", "anchors": ["sympl/_core/wildcard.py:get_wildcard_matches_and_dim_lengths", "sympl/_core/backend.py:DataArrayBackend._get_numpy_array"]}
{"id": "C03", "title": "Inconsistent input states are always rejected", "statement": "A call to get_numpy_arrays_with_properties raises (and returns no arrays) whenever a needed quantity is absent, two needed quantities disagree on the length of a dimension, a quantity has a dimension that its dims do not list and that has no '*' to absorb it, a quantity has no units, or its units cannot be converted.", "quantifier": "every state and property dictionary having one of these defects, wherever it occurs", "why_tests_cant": "The defect can sit in any quantity at any position of any dictionary; acceptance of a single bad state is what matters.", "anchors": ["sympl/_core/wildcard.py:get_wildcard_matches_and_dim_lengths", "sympl/_core/backend.py:DataArrayBackend.get_array"]}
{"id": "C04", "title": "Extract-then-restore is the identity on values", "statement": "If the arrays obtained from get_numpy_arrays_with_properties are handed back unchanged to restore_data_arrays_with_properties with output properties that use the same dims, every returned DataArray has the requested units and, at every named coordinate, the value of the original quantity converted to those units.", "quantifier": "every state, every property dictionary with one '*' at most per dims list, every quantity and coordinate", "why_tests_cant": "Round trips must hold for all shapes and all wildcard groupings.", "anchors": ["sympl/_core/restore_dataarray.py:restore_data_arrays_with_properties", "sympl/_core/wildcard.py:fill_dims_wildcard", "sympl/_core/wildcard.py:expand_array_wildcard_dims"]}
{"id": "C05", "title": "Component outputs with the wrong shape are rejected", "statement": "restore_data_arrays_with_properties raises InvalidPropertyDictError for any raw output whose number of axes differs from its dims or whose length along a dimension differs from that dimension's length in the input state.", "quantifier": "every raw output array, every dims list, every input state", "why_tests_cant": "All shapes, including ones whose total size happens to coincide.", "anchors": ["sympl/_core/restore_dataarray.py:check_array_shape", "sympl/_core/wildcard.py:expand_array_wildcard_dims"]}
{"id": "C06", "title": "Restored outputs carry the state's dimensions", "statement": "Every DataArray returned by restore_data_arrays_with_properties has its '*' replaced by exactly the wildcard dimensions matched in the input state (in matching order), has the other dims as listed, has each matched dimension at its input-state length, and has the declared units.", "quantifier": "every successful call, every output quantity", "why_tests_cant": "Dims and lengths depend on the whole input state.", "anchors": ["sympl/_core/restore_dataarray.py:restore_data_arrays_with_properties", "sympl/_core/wildcard.py:fill_dims_wildcard"]}
{"id": "C07", "title": "Pre-allocated output arrays always fit", "statement": "Arrays created by initialize_numpy_arrays_with_properties for the output properties, from the raw inputs of a component, always have the shape required by restore_data_arrays_with_properties, so filling them and returning them never fails on shape.", "quantifier": "every state, input properties and output properties whose dims occur in the inputs", "why_tests_cant": "Shapes must agree for all dimension combinations, including wildcard groups and dims absent from the state.", "anchors": ["sympl/_core/init_np_arrays.py:initialize_numpy_arrays_with_properties", "sympl/_core/init_np_arrays.py:get_dim_lengths_from_raw_input", "sympl/_core/restore_dataarray.py:restore_data_arrays_with_properties"]}
{"id": "C08", "title": "get_numpy_array / restore_dimensions round trip", "statement": "restore_dimensions(get_numpy_array(a, out_dims), out_dims, a) returns a DataArray with the same dims, lengths and values as a, for every out_dims for which get_numpy_array succeeds.", "quantifier": "every DataArray a, every out_dims list", "why_tests_cant": "All dimension orders, wildcard groupings and missing x/y/z dims.", "anchors": ["sympl/_core/util.py:get_numpy_array", "sympl/_core/util.py:restore_dimensions", "sympl/_core/util.py:get_input_array_dim_names"]}
{"id": "C09", "title": "get_numpy_array returns the requested layout or raises", "statement": "get_numpy_array(a, out_dims) returns an array with one axis per out_dims entry whose values are those of a at the same named coordinates ('*' ravels the unlisted dims in a's order, absent x/y/z give a length-1 axis); it raises if a has a dimension that is not listed and there is no '*', or if a listed dim other than x/y/z is absent.", "quantifier": "every DataArray and out_dims list", "why_tests_cant": "All dimension orders and sizes.", "anchors": ["sympl/_core/util.py:get_numpy_array", "sympl/_core/util.py:get_final_shape", "sympl/_core/util.py:get_target_dimension_order"]}
{"id": "C10", "title": "Unit conversion preserves the physical quantity", "statement": "DataArray.to_units(u) denotes the same physical values as the original, keeps dims, shape and all other attributes, and has a units attribute denoting the same unit as u; converting back restores the original values; it raises ValueError exactly when the dimensions are incompatible.", "quantifier": "every DataArray, every pair of units the registry knows", "why_tests_cant": "All values and unit pairs, including offset units such as degC.", "anchors": ["sympl/_core/units.py:data_array_to_units", "sympl/_core/dataarray.py:DataArray.to_units"]}
{"id": "C11", "title": "Unit compatibility and sameness are equivalence relations", "statement": "units_are_compatible and units_are_same are reflexive, symmetric and transitive on known units, sameness implies compatibility, and compatible units are exactly those to_units can convert between.", "quantifier": "all unit strings known to the registry", "why_tests_cant": "Relational laws over an infinite set of unit expressions.", "anchors": ["sympl/_core/units.py:units_are_compatible", "sympl/_core/units.py:units_are_same"]}
{"id": "C12", "title": "DataArray addition and subtraction are by name and keep left attributes", "statement": "a + b and a - b on sympl DataArrays combine values at equal named coordinates, broadcast missing dims, and the result has the attributes of a.", "quantifier": "all pairs of DataArrays with consistent lengths, any dim orders", "why_tests_cant": "All dim orders and subsets.", "anchors": ["sympl/_core/dataarray.py:DataArray.__add__", "sympl/_core/dataarray.py:DataArray.__sub__"]}
{"id": "C13", "title": "A component call returns exactly its declared outputs", "statement": "When calling a component succeeds, the keys of each returned dictionary are exactly the quantities declared in the corresponding properties (plus tracers), never fewer and never more; if array_call omits a declared output the call raises ComponentMissingOutputError, and if it returns an undeclared key the call raises ComponentExtraOutputError.", "quantifier": "every component, state and array_call result", "why_tests_cant": "array_call is arbitrary user code.", "anchors": ["sympl/_core/base_components.py:DiagnosticChecker.check_diagnostics", "sympl/_core/base_components.py:TendencyChecker.check_tendencies", "sympl/_core/base_components.py:OutputChecker.check_outputs", "sympl/_core/base_components.py:TendencyComponent.__call__"]}
{"id": "C14", "title": "array_call is never run on a state lacking inputs", "statement": "If a state lacks any quantity in a component's input_properties, calling the component raises InvalidStateError and array_call is not executed.", "quantifier": "every component type, every state", "why_tests_cant": "Any quantity may be the missing one.", "anchors": ["sympl/_core/base_components.py:InputChecker.check_inputs", "sympl/_core/base_components.py:Stepper.__call__"]}
{"id": "C15", "title": "Aliases are transparent", "statement": "A component that declares an alias for a quantity receives that quantity under the alias and may return it under the alias; the values seen and the values returned to the caller are the same as without the alias.", "quantifier": "every alias assignment without name collisions, every state", "why_tests_cant": "All name assignments, including ones inherited from input properties.", "anchors": ["sympl/_core/restore_dataarray.py:get_alias_or_name", "sympl/_core/get_np_arrays.py:get_numpy_arrays_with_properties", "sympl/_core/base_components.py:check_overlapping_aliases"]}
{"id": "C16", "title": "Tendencies placed in diagnostics equal the tendencies", "statement": "A tendency component created with tendencies_in_diagnostics=True returns, for every tendency X, a diagnostic named X_tendency_from_<name> that equals the returned tendency of X, and otherwise returns the same diagnostics as without the option.", "quantifier": "every component, state and array_call", "why_tests_cant": "array_call is arbitrary and the set of tendencies is arbitrary.", "anchors": ["sympl/_core/base_components.py:TendencyComponent._insert_tendencies_to_diagnostics", "sympl/_core/base_components.py:TendencyComponent._insert_tendency_properties"]}
{"id": "C17", "title": "Stepper tendencies in diagnostics are the time difference", "statement": "A Stepper created with tendencies_in_diagnostics=True returns for every output X the diagnostic X_tendency_from_<name> equal to (new X - old X) / timestep per second.", "quantifier": "every Stepper, state, non-zero timestep and array_call", "why_tests_cant": "Values, shapes and aliases are arbitrary.", "anchors": ["sympl/_core/base_components.py:Stepper._insert_tendencies_to_diagnostics", "sympl/_core/base_components.py:Stepper._insert_tendency_properties"]}
{"id": "C18", "title": "Component instances do not interfere", "statement": "Creating a component with tendencies_in_diagnostics=True does not change the behaviour of other instances of the same class.", "quantifier": "every component class and every order of instance creation and calls", "why_tests_cant": "Depends on histories of instance creation and shared class-level dictionaries.", "anchors": ["sympl/_core/base_components.py:TendencyComponent._insert_tendency_properties", "sympl/_core/base_components.py:Stepper._insert_tendency_properties"]}
{"id": "C19", "title": "Invalid property dictionaries are rejected at construction", "statement": "Constructing a component raises InvalidPropertyDictError whenever an input lacks dims or units, an output/tendency/diagnostic lacks units or lacks dims while not being an input, two quantities of one dictionary share an alias, or an output's units are incompatible with the same input's units (times 1/s for tendencies); construction succeeds otherwise.", "quantifier": "all property dictionaries", "why_tests_cant": "The offending entry may be anywhere in dictionaries of any size.", "anchors": ["sympl/_core/base_components.py:InputChecker", "sympl/_core/base_components.py:TendencyChecker", "sympl/_core/base_components.py:DiagnosticChecker", "sympl/_core/base_components.py:OutputChecker"]}
{"id": "C20", "title": "Component kinds are recognised consistently", "statement": "isinstance against Stepper, TendencyComponent, ImplicitTendencyComponent and DiagnosticComponent classifies any duck-typed object into at most one kind, except that an object whose timestep argument is optional may be both a TendencyComponent and an ImplicitTendencyComponent.", "quantifier": "every object, described by which attributes it has and its call signature", "why_tests_cant": "All combinations of attributes and signatures.", "anchors": ["sympl/_core/base_components.py:ComponentMeta.__instancecheck__", "sympl/_core/base_components.py:get_kwarg_defaults"]}
{"id": "C21", "title": "Packing and unpacking tracers is lossless", "statement": "For a component using tracers, unpacking the array produced by packing a state returns, for every tracer, a quantity with the same values (at all named coordinates, in the tracer's registered units) as in the state.", "quantifier": "every set of registered and prepended tracers, every tracer_dims, every state", "why_tests_cant": "Any number of tracers, any axis position, any wildcard dims.", "anchors": ["sympl/_core/tracers.py:TracerPacker.pack", "sympl/_core/tracers.py:TracerPacker.unpack"]}
{"id": "C22", "title": "Tracer order is prepended first, then registration order, without repeats", "statement": "The i-th slice along the tracer axis belongs to the i-th tracer, where tracers are listed with prepended ones first and then registered ones in order of first registration, each exactly once.", "quantifier": "every history of register_tracer calls and every prepend list", "why_tests_cant": "Depends on the history of registrations.", "anchors": ["sympl/_core/tracers.py:TracerPacker.tracer_names", "sympl/_core/tracers.py:register_tracer"]}
{"id": "C23", "title": "A tracer is never also an ordinary output", "statement": "In every history of tracer registrations and component creations in which no call raised, no registered or prepended tracer is among the declared outputs or tendencies of a tracer-using component; the call that would violate this raises.", "quantifier": "all interleavings of register_tracer and component construction", "why_tests_cant": "Needs an invariant over arbitrary histories.", "anchors": ["sympl/_core/tracers.py:register_tracer", "sympl/_core/tracers.py:TracerPacker.ensure_tracer_not_in_outputs"]}
{"id": "C24", "title": "A rejected tracer registration changes nothing", "statement": "If register_tracer raises, the registered tracers and their units are as before the call.", "quantifier": "all registration histories and component sets", "why_tests_cant": "Depends on the failure point in the history.", "anchors": ["sympl/_core/tracers.py:register_tracer"]}
{"id": "C25", "title": "Allocated tracer arrays match packed tracer arrays", "statement": "The 'tracers' array allocated by initialize_numpy_arrays_with_properties has the same shape as the array packed for the component.", "quantifier": "every registration history and prepend list", "why_tests_cant": "Depends on the registration history (repeats, overlap with prepended tracers).", "anchors": ["sympl/_core/init_np_arrays.py:initialize_numpy_arrays_with_properties", "sympl/_core/tracers.py:TracerPacker.pack"]}
{"id": "C26", "title": "Combined dims satisfy both components, in either order", "statement": "combine_dims(d1, d2) either raises or returns dims such that any quantity acceptable under them is acceptable under d1 and under d2, and whether it raises does not depend on the order of the arguments.", "quantifier": "all pairs of dims specifications", "why_tests_cant": "All dims sets with and without wildcards.", "anchors": ["sympl/_core/combine_properties.py:combine_dims"]}
{"id": "C27", "title": "Combined properties cover every component", "statement": "combine_component_properties returns exactly the union of the components' quantities, takes the units of the first component that declares each, and raises InvalidPropertyDictError if two components' units for one quantity are incompatible.", "quantifier": "all lists of components and property dictionaries", "why_tests_cant": "Lists of any length, offending pair anywhere.", "anchors": ["sympl/_core/combine_properties.py:combine_properties"]}
{"id": "C28", "title": "A tendency composite returns the sum of its components' tendencies", "statement": "Calling a TendencyComponentComposite (or Implicit one) returns for each quantity the sum, in physical units, of the tendencies its components return for it, at every named coordinate; the sum does not depend on the order of components.", "quantifier": "all lists of components, all units and dims they use, all states", "why_tests_cant": "Any number of components with any mix of compatible units and dim orders.", "anchors": ["sympl/_core/composite.py:TendencyComponentComposite.__call__", "sympl/_core/util.py:update_dict_by_adding_another"]}
{"id": "C29", "title": "Composites never silently overwrite a diagnostic", "statement": "A composite whose components declare a common diagnostic cannot be constructed (SharedKeyError), a DiagnosticComponentComposite call whose components return a common quantity raises SharedKeyError, and otherwise every component's diagnostics appear unchanged in the result.", "quantifier": "all lists of components", "why_tests_cant": "Any pair of components at any positions.", "anchors": ["sympl/_core/composite.py:DiagnosticComponentComposite.__call__", "sympl/_core/composite.py:DiagnosticPropertiesCompositeMixin", "sympl/_core/util.py:ensure_no_shared_keys"]}
{"id": "C30", "title": "Composites and time steppers do not modify arrays returned by components", "statement": "Calling a tendency composite leaves every array its components returned (including arrays the components keep internally) unchanged.", "quantifier": "all component lists, including components returning the same array object twice or for several quantities", "why_tests_cant": "Aliasing: depends on which objects are shared.", "anchors": ["sympl/_core/util.py:update_dict_by_adding_another", "sympl/_core/composite.py:ImplicitTendencyComponentComposite.__call__"]}
{"id": "C31", "title": "Time steppers do not touch time or unrelated quantities", "statement": "AdamsBashforth, Leapfrog and SSPRungeKutta return a new state with exactly the keys of the old state plus the quantities with tendencies, with 'time' unchanged and quantities without tendencies equal to their old values.", "quantifier": "every state, timestep, set of components and call history", "why_tests_cant": "Any set of quantities and any history.", "anchors": ["sympl/_components/timesteppers.py:AdamsBashforth._call", "sympl/_components/timesteppers.py:SSPRungeKutta", "sympl/_components/timesteppers.py:Leapfrog._call", "sympl/_core/state.py:copy_untouched_quantities"]}
{"id": "C32", "title": "Adams-Bashforth applies the scheme of the right order to the right history", "statement": "On the n-th successful call with order k, the new state is the Adams-Bashforth formula of order min(k, n) applied to the tendencies of the last min(k, n) calls.", "quantifier": "all orders 1..4 and all call histories", "why_tests_cant": "Unbounded histories; an off-by-one in history trimming appears only after several steps.", "anchors": ["sympl/_components/timesteppers.py:AdamsBashforth._perform_step", "sympl/_components/timesteppers.py:AdamsBashforth._call"]}
{"id": "C33", "title": "Adams-Bashforth of order k is exact for polynomial tendencies of degree < k", "statement": "Once started, the order-k scheme integrates exactly any tendency that is a polynomial of degree less than k in time.", "quantifier": "all orders, all polynomials of the degree, all timesteps and times", "why_tests_cant": "Coefficient errors are invisible on constant test data.", "anchors": ["sympl/_components/timesteppers.py:second_bashforth", "sympl/_components/timesteppers.py:third_bashforth", "sympl/_components/timesteppers.py:fourth_bashforth"]}
{"id": "C34", "title": "Multistep steppers reject a changed timestep without side effects", "statement": "After a first call, AdamsBashforth and Leapfrog raise ValueError for any call whose timestep differs, and that call leaves the stepper's history (and hence all later results) and the state unchanged.", "quantifier": "all call histories", "why_tests_cant": "Histories with rejected calls interleaved.", "anchors": ["sympl/_components/timesteppers.py:AdamsBashforth._ensure_constant_timestep", "sympl/_components/timesteppers.py:Leapfrog._ensure_constant_timestep"]}
{"id": "C35", "title": "Adams-Bashforth keeps a bounded history", "statement": "Between calls, an AdamsBashforth of order k retains at most k-1 past tendencies.", "quantifier": "all call histories", "why_tests_cant": "Unbounded histories, including ones where a call raised.", "anchors": ["sympl/_components/timesteppers.py:AdamsBashforth._call"]}
{"id": "C36", "title": "Leapfrog implements the Robert-Asselin-Williams filtered scheme", "statement": "The first call is a forward Euler step; every later call returns x(n-1)+2 dt x' plus (alpha-1) times the filter displacement, adds alpha times the displacement to the caller's current state, and with alpha=0.5 conserves the three-point sum while alpha=1 leaves the new state unfiltered.", "quantifier": "all states, strengths, alpha, and call histories", "why_tests_cant": "Unbounded histories and all real coefficients.", "anchors": ["sympl/_components/timesteppers.py:Leapfrog._call", "sympl/_components/timesteppers.py:step_leapfrog"]}
{"id": "C37", "title": "SSPRungeKutta is the Shu-Osher scheme of order 2 or 3", "statement": "One call of SSPRungeKutta equals the standard 2- or 3-stage Runge-Kutta step (Butcher form) of its tendency components; for a linear tendency the amplification factor is the Taylor polynomial of exp of degree 2 or 3.", "quantifier": "all tendency functions of the quantities (dependence on time is C87), states and timesteps", "why_tests_cant": "All tendency functions.", "anchors": ["sympl/_components/timesteppers.py:SSPRungeKutta._step_3_stages", "sympl/_components/timesteppers.py:SSPRungeKutta._step_2_stages", "sympl/_core/state.py:add", "sympl/_core/state.py:multiply"]}
{"id": "C38", "title": "SSPRungeKutta is strong-stability preserving", "statement": "If a forward Euler step with the same timestep never leaves a convex set (or never increases a convex functional) then neither does a SSPRungeKutta step.", "quantifier": "all tendency functions, convex sets / functionals, states", "why_tests_cant": "Universally quantified over functions and sets.", "anchors": ["sympl/_components/timesteppers.py:SSPRungeKutta._step_3_stages"]}
{"id": "C39", "title": "Time stepping is independent of the tendency's units", "statement": "Expressing a component's tendency in any other compatible unit does not change the new state computed by a time stepper.", "quantifier": "all pairs of compatible units, all states", "why_tests_cant": "All unit pairs.", "anchors": ["sympl/_components/timesteppers.py:convert_tendencies_units_for_state"]}
{"id": "C40", "title": "TendencyStepper tendencies in diagnostics are the net change rate", "statement": "A TendencyStepper with tendencies_in_diagnostics=True adds for each stepped quantity X the diagnostic X_tendency_from_<name> = (new X - old X)/timestep, and raises RuntimeError rather than overwrite a diagnostic of that name.", "quantifier": "all steppers, states, non-zero timesteps", "why_tests_cant": "All names and values.", "anchors": ["sympl/_core/tendencystepper.py:TendencyStepper._insert_tendencies_to_diagnostics"]}
{"id": "C41", "title": "UpdateFrequencyWrapper recomputes exactly when due", "statement": "For any sequence of calls, the wrapped component is run on the first call and on exactly those later calls whose state time is at least update_timedelta after the last run; every other call returns the output of the last run; consecutive runs are at least update_timedelta apart; a run that raises does not count.", "quantifier": "all sequences of calls with arbitrary times", "why_tests_cant": "Unbounded sequences, non-monotone times, failing calls.", "anchors": ["sympl/_core/wrappers.py:UpdateFrequencyWrapper.__call__"]}
{"id": "C42", "title": "ScalingWrapper scales exactly the named quantities", "statement": "A ScalingWrapper returns the wrapped component's output for the state with the named inputs multiplied by their factors, with the named outputs multiplied by theirs and all other outputs unchanged; attributes are kept; unknown names are rejected with ValueError at construction.", "quantifier": "all components, states and factor dictionaries", "why_tests_cant": "Arbitrary components and factors.", "anchors": ["sympl/_core/wrappers.py:ScalingWrapper.__call__", "sympl/_core/wrappers.py:ScalingWrapper.__init__"]}
{"id": "C43", "title": "ScalingWrapper does not compound", "statement": "Calling a ScalingWrapper repeatedly on the same state around a component that returns the same result each time returns the same scaled result each time.", "quantifier": "all components and numbers of calls", "why_tests_cant": "Aliasing between the wrapped component's retained arrays and the wrapper's in-place scaling, over unbounded call sequences.", "anchors": ["sympl/_core/wrappers.py:ScalingWrapper.__call__", "sympl/_components/basic.py:ConstantTendencyComponent.array_call"]}
{"id": "C44", "title": "TimeDifferencingWrapper reproduces the wrapped Stepper", "statement": "A forward Euler step of length dt with the tendencies returned by TimeDifferencingWrapper(stepper)(state, dt) gives the stepper's own new state for every output quantity, and the diagnostics are the stepper's diagnostics.", "quantifier": "all steppers, states, non-zero timesteps, units", "why_tests_cant": "All values and units.", "anchors": ["sympl/_components/basic.py:TimeDifferencingWrapper.__call__"]}
{"id": "C45", "title": "A constant set through any alias is read back through every alias", "statement": "After set_constant(n, v, u), get_constant(m, u2) returns v converted from u to u2 for every name m resolving to the same constant as n, and every other constant is unchanged.", "quantifier": "all histories of set_constant / set_condensible_name / reset_constants, all names and units", "why_tests_cant": "Histories and alias chains of any length.", "anchors": ["sympl/_core/constants.py:set_constant", "sympl/_core/constants.py:get_constant", "sympl/_core/constants.py:get_alias"]}
{"id": "C46", "title": "reset_constants restores the import-time constants", "statement": "After any history of constant operations, reset_constants makes every get_constant call behave as it did at import.", "quantifier": "all histories", "why_tests_cant": "Unbounded histories.", "anchors": ["sympl/_core/constants.py:reset_constants"]}
{"id": "C47", "title": "Alias resolution terminates and never loops", "statement": "Looking up or listing constants always terminates: for any alias table a name resolves to a non-alias name or RuntimeError is raised, listing aliases terminates although its iteration counter is never advanced, and for every condensible name other than 'phase' no circular alias arises.", "quantifier": "all alias tables and all condensible names", "why_tests_cant": "All strings and all alias graphs.", "anchors": ["sympl/_core/constants.py:get_alias", "sympl/_core/constants.py:ConstantDict._proxy_dict", "sympl/_core/constants.py:set_condensible_name"]}
{"id": "C48", "title": "get_constants_string lists every constant", "statement": "get_constants_string names every defined constant and every alias that resolves to one, each once, with its current value and units, by category; other names come under 'User Defined'.", "quantifier": "all histories of constant operations", "why_tests_cant": "Depends on the history (user-defined constants, other condensibles).", "anchors": ["sympl/_core/constants.py:ConstantDict._repr"]}
{"id": "C49", "title": "NetCDFMonitor writes what was stored, sorted by time", "statement": "After a write, the records appended to the file are the stored states since the last write, one record per distinct time in increasing time order, quantities stored for one time merged with the latest value winning; earlier records are unchanged and the cache is empty.", "quantifier": "all sequences of store and write calls", "why_tests_cant": "Unbounded sequences with times in any order.", "anchors": ["sympl/_components/netcdf.py:NetCDFMonitor.store", "sympl/_components/netcdf.py:NetCDFMonitor.write", "sympl/_components/netcdf.py:combine_states"]}
{"id": "C50", "title": "NetCDFMonitor rejects inconsistent sets of quantities without losing data", "statement": "If a stored state's quantities differ from those already in the file or the other cached states, write raises InvalidStateError, leaves the records of the file unchanged and keeps the cache.", "quantifier": "all sequences of store and write calls", "why_tests_cant": "Any state in the sequence may be the inconsistent one.", "anchors": ["sympl/_components/netcdf.py:NetCDFMonitor._ensure_cached_states_have_same_keys", "sympl/_components/netcdf.py:NetCDFMonitor._ensure_cached_state_keys_compatible_with_dataset"]}
{"id": "C51", "title": "NetCDFMonitor name aliasing loses no quantity", "statement": "Storing a state with aliases keeps every selected quantity under its aliased name, unless two names become equal or a name would become empty (which raises ValueError).", "quantifier": "all states and alias dictionaries", "why_tests_cant": "All strings and substring overlaps.", "anchors": ["sympl/_components/netcdf.py:NetCDFMonitor.store"]}
{"id": "C52", "title": "RestartMonitor is crash safe", "statement": "At every point at which the process may stop during any sequence of store calls, the file names <f> and <f>.old together still hold a complete copy of the last completely stored state or of the newer one being stored, and <f> is never a partially written file.", "quantifier": "all sequences of stores, all crash points, any re-start in between", "why_tests_cant": "All crash points of all histories.", "anchors": ["sympl/_components/netcdf.py:RestartMonitor.store"]}
{"id": "C53", "title": "RestartMonitor store then load returns the stored state", "statement": "After a store that returned normally, load returns the quantities and time of that state; earlier stored states are gone.", "quantifier": "all states and histories of stores", "why_tests_cant": "All states and histories.", "anchors": ["sympl/_components/netcdf.py:RestartMonitor.store", "sympl/_components/netcdf.py:RestartMonitor.load"]}
{"id": "C54", "title": "RestartMonitor can continue after a crash", "statement": "After a crash at any point of store, a new RestartMonitor on the same file can load a complete state and store further states without manual intervention.", "quantifier": "all crash points", "why_tests_cant": "All crash points.", "anchors": ["sympl/_components/netcdf.py:RestartMonitor.store", "sympl/_components/netcdf.py:RestartMonitor.load"]}
{"id": "C55", "title": "get_component_aliases respects the documented priority", "statement": "For every quantity the alias returned comes from input properties if any component gives one there, else output, else diagnostic, else tendency properties; quantities without an alias are absent.", "quantifier": "all lists of components", "why_tests_cant": "All component lists and property dictionaries.", "anchors": ["sympl/_core/util.py:get_component_aliases"]}
{"id": "C56", "title": "datetime honours every documented calendar and rejects others", "statement": "sympl.datetime returns a date in the requested calendar for every documented calendar name in any letter case, rejects timezones for non-default calendars, and does not silently return nothing for an unknown calendar.", "quantifier": "all calendar strings, tz settings and installed dependencies", "why_tests_cant": "All strings.", "anchors": ["sympl/_core/time.py:datetime"]}
{"id": "C57", "title": "Relaxation drives a quantity toward equilibrium", "statement": "RelaxationTendencyComponent returns (equilibrium - value)/timescale at every named coordinate of the broadcast inputs, whatever dims and compatible units the inputs use.", "quantifier": "all states with non-zero timescales", "why_tests_cant": "All shapes, dims and units.", "anchors": ["sympl/_components/basic.py:RelaxationTendencyComponent.array_call"]}
{"id": "C58", "title": "Constant components return what they were given", "statement": "ConstantTendencyComponent and ConstantDiagnosticComponent return for every state exactly the quantities they were given at initialization, with the same dims, units and value at every named coordinate, and with tendencies_in_diagnostics also the tendencies under their diagnostic names.", "quantifier": "all dictionaries of arrays that agree on dimension lengths, all states and component names", "why_tests_cant": "All dictionaries, dims and shapes.", "anchors": ["sympl/_components/basic.py:ConstantTendencyComponent", "sympl/_components/basic.py:ConstantDiagnosticComponent"]}
{"id": "C59", "title": "Returned diagnostics are declared", "statement": "Every diagnostic a component with tendencies_in_diagnostics returns is in its diagnostic_properties, so that composites and wrappers see it.", "quantifier": "all components, names, states", "why_tests_cant": "All property dictionaries and ways to define them.", "anchors": ["sympl/_core/base_components.py:TendencyComponent._insert_tendency_properties", "sympl/_components/basic.py:ConstantTendencyComponent.diagnostic_properties", "sympl/_core/base_components.py:TendencyComponent._insert_tendencies_to_diagnostics"]}
{"id": "C60", "title": "require_wildcard_matches is enforced", "statement": "get_numpy_array(a, out_dims, require_wildcard_matches={'*': w}) ravels the dims not listed in out_dims in the order w, reports w, and does not succeed when those dims are not the ones in w.", "quantifier": "all arrays, out_dims without repeats containing '*', all requirements", "why_tests_cant": "All dims and orders.", "anchors": ["sympl/_core/util.py:get_numpy_array", "sympl/_core/util.py:same_list"]}
{"id": "C61", "title": "A tracer's units never change", "statement": "Until the tracers are reset, a registered tracer keeps the unit of its first registration whatever calls follow; registering it with a different unit raises ValueError and changes nothing, registering it with the same unit (in any spelling) is accepted.", "quantifier": "all histories of registrations, component creations and packer resets", "why_tests_cant": "All histories and unit spellings.", "anchors": ["sympl/_core/tracers.py:register_tracer"]}
{"id": "C62", "title": "Which tracer-using components can be constructed", "statement": "A Stepper or tendency component with uses_tracers can be constructed exactly when it could be constructed without tracers, tracer_dims is given and contains 'tracer', and no output is a registered or prepended tracer; otherwise the documented exception is raised and the tracer tables are unchanged.", "quantifier": "all classes, tracer tables and instance names", "why_tests_cant": "All classes and tables.", "anchors": ["sympl/_core/tracers.py:TracerPacker.__init__", "sympl/_core/base_components.py:Stepper.__init__", "sympl/_core/base_components.py:TendencyComponent.__init__"]}
{"id": "C63", "title": "array_call gets and returns every tracer in its place", "statement": "array_call of a tracer-using component is given under 'tracers' an array whose j-th slice along the tracer axis is the j-th tracer in its units, and the j-th slice of the 'tracers' array it returns becomes the j-th tracer's tendency in its units times the time unit (new value in its units, for a Stepper) at the same named coordinates.", "quantifier": "all components, array_call functions, states and registration histories", "why_tests_cant": "All shapes, dims, unit conversions and numbers of tracers.", "anchors": ["sympl/_core/base_components.py:TendencyComponent.__call__", "sympl/_core/base_components.py:Stepper.__call__", "sympl/_core/tracers.py:TracerPacker.pack", "sympl/_core/tracers.py:TracerPacker.unpack"]}
{"id": "C64", "title": "Combined dims suit every component", "statement": "The dims combine_properties returns for a quantity are such that an array can be used with them exactly when it can be used for every dictionary combined (an entry without dims takes those of the input of the same name); InvalidPropertyDictError is raised if an entry has no dims and no such input.", "quantifier": "all lists of property dictionaries, all set iteration orders", "why_tests_cant": "Lists of any length; the conflict may be between any two entries.", "anchors": ["sympl/_core/combine_properties.py:combine_properties", "sympl/_core/combine_properties.py:combine_dims"]}
{"id": "C65", "title": "Steady tendencies are integrated exactly over whole runs", "statement": "In the loop `diagnostics, state = stepper(state, timestep)` with components that always give a quantity the same tendency, after n steps without exception the quantity has changed by exactly n times the timestep times the tendency and kept its units, for AdamsBashforth of every order, Leapfrog with every filter strength and alpha, and SSPRungeKutta with two or three stages.", "quantifier": "all numbers of steps, states, tendencies in any units, orders, filters", "why_tests_cant": "Runs of any length from any state, through start-up and history rotation.", "anchors": ["sympl/_components/timesteppers.py:AdamsBashforth._call", "sympl/_components/timesteppers.py:Leapfrog._call", "sympl/_components/timesteppers.py:SSPRungeKutta._call", "sympl/_core/tendencystepper.py:TendencyStepper.__call__"]}
{"id": "C66", "title": "Components that agree can be composed", "statement": "combine_properties succeeds exactly when, for every quantity, each entry has dims (its own or those of the input), the units of all entries are compatible, and each entry's named dims are those named before it unless all entries before it have a wildcard. Components that are valid by themselves, whose inputs, tendencies and diagnostics agree in units and dims on every shared quantity and that declare no common diagnostic can be made into a composite; aliases, which are local to a component, do not matter.", "quantifier": "for all lists of components of any kind (with and without tracers), property dictionaries, unit registries and set iteration orders", "why_tests_cant": "Tests compose two or three components with hand-picked dictionaries; the condition is about every list of dictionaries and every order of entries.", "anchors": ["sympl/_core/combine_properties.py:combine_properties", "sympl/_core/combine_properties.py:combine_component_properties", "sympl/_core/composite.py:ComponentComposite.__init__", "sympl/_core/composite.py:DiagnosticPropertiesCompositeMixin", "sympl/_core/base_components.py:InputChecker"]}
{"id": "C67", "title": "TendencyStepper accepts tendencies_in_diagnostics whenever it accepts the components", "statement": "If a TendencyStepper can be constructed from some components, it can also be constructed from them with tendencies_in_diagnostics=True, unless an input is named like a net tendency. (False in the code: for a stepped quantity that is an input of a component, the input's unit string is compared as a string with the base-unit name of the tendency units times seconds, so 'K' against 'kelvin' raises InvalidPropertyDictError.)", "quantifier": "for all components, tracer registrations, instance names, unit registries and set iteration orders", "why_tests_cant": "The repository's tests with tendencies_in_diagnostics step only quantities that no component takes as input, so the comparison between an input's units and the stepper's cleaned units never runs with two spellings.", "anchors": ["sympl/_core/tendencystepper.py:TendencyStepper.__init__", "sympl/_core/tendencystepper.py:TendencyStepper.output_properties", "sympl/_core/base_components.py:Stepper._insert_tendency_properties"]}
{"id": "C68", "title": "A TendencyStepper returns the diagnostics it declares", "statement": "A TendencyStepper made with tendencies in diagnostics returns exactly the diagnostics named in its diagnostic_properties, and every net tendency '<name>_tendency_from_<stepper>' is returned in the units declared there.", "quantifier": "all components, unit registries, states, timesteps and stepping schemes", "why_tests_cant": "the declared units come from the components' tendency units and the returned units from the cleaned output units; tests use components whose tendency units are base units", "anchors": ["sympl/_core/tendencystepper.py:diagnostic_properties", "sympl/_core/tendencystepper.py:_insert_tendencies_to_diagnostic_properties", "sympl/_core/tendencystepper.py:_insert_tendencies_to_diagnostics", "sympl/_core/tendencystepper.py:output_properties"]}
{"id": "C69", "title": "Time stepping does not depend on the units of the state", "statement": "A time stepper given the same physical state in other units returns the same physical state (and raises the same errors), in every call of a run, also if the units of a quantity change from one call to the next.", "quantifier": "all steppers, orders, histories of calls, states, timesteps, unit registries and components whose tendencies depend on the physical state only", "why_tests_cant": "tests keep one set of units during a run; AdamsBashforth and Leapfrog keep numbers of earlier calls without their units", "anchors": ["sympl/_components/timesteppers.py:_call", "sympl/_components/timesteppers.py:convert_tendencies_units_for_state", "sympl/_components/timesteppers.py:second_bashforth", "sympl/_components/timesteppers.py:step_leapfrog", "sympl/_core/state.py:add", "sympl/_core/state.py:multiply"]}
{"id": "C70", "title": "General constant names mean the constants of the condensible", "statement": "After any history of set_constant, set_condensible_name and reset_constants calls, reading or setting a constant by a general name (density_of_liquid_phase, latent_heat_of_condensation, density_of_ice, ...) is reading or setting the corresponding constant of the condensible last set (water at import and after a reset), and set_condensible_name changes what no other name means.", "quantifier": "every history of constant operations, every condensible name except 'phase', every general name, every value and unit", "why_tests_cant": "The tests set one condensible name and look up a few of the twenty-three general names; the history of earlier condensibles and the frame (no other name is affected) range over unboundedly many names.", "anchors": ["sympl/_core/constants.py:set_condensible_name", "sympl/_core/constants.py:get_condensible_map", "sympl/_core/constants.py:get_alias", "sympl/_core/constants.py:get_constant", "sympl/_core/constants.py:set_constant"]}
{"id": "C71", "title": "A unit may be written with the signs % and °", "statement": "Two unit strings that differ only in writing % for percent or ° for degree are interchangeable in is_valid_unit, units_are_same, units_are_compatible, clean_units, from_unit_to_another and DataArray.to_units.", "quantifier": "all unit strings, all DataArrays, every behaviour of pint on strings", "why_tests_cant": "The tests try a handful of unit strings; the replacement is done at some of the places where a string reaches pint and not at others, which only shows for particular combinations of function, argument position and string.", "anchors": ["sympl/_core/units.py:UnitRegistry.__call__", "sympl/_core/units.py:units_are_compatible", "sympl/_core/units.py:units_are_same", "sympl/_core/units.py:is_valid_unit", "sympl/_core/units.py:data_array_to_units", "sympl/_core/units.py:from_unit_to_another"]}
{"id": "C72", "title": "NetCDFMonitor writes states as they were stored", "statement": "What NetCDFMonitor writes for a state is what the state was when it was stored, whatever happens to the state's arrays between store and write.", "quantifier": "every sequence of store and write calls and of in-place changes of any arrays, every monitor configuration", "why_tests_cant": "The tests write at once or never change a stored array; sharing of arrays between the cache and the running model only shows for a change at the right moment.", "anchors": ["sympl/_components/netcdf.py:NetCDFMonitor.store", "sympl/_components/netcdf.py:NetCDFMonitor.write"]}
{"id": "C73", "title": "PlotFunctionMonitor does not let the plot function change the state", "statement": "PlotFunctionMonitor.store gives the plot function the quantities of the state, and nothing the plot function does to what it is given changes a DataArray of the caller's state.", "quantifier": "every plot function that changes only what it is given (and new objects), every state, including states that hold one array under several names", "why_tests_cant": "Tests use plot functions that only draw; the claim quantifies over all functions and all sharing patterns in the state.", "anchors": ["sympl/_components/plot.py:copy_state", "sympl/_components/plot.py:PlotFunctionMonitor.store"]}
{"id": "C74", "title": "Wrapped components keep their kind, and nested scalings multiply", "statement": "However often a component is wrapped in ScalingWrapper and UpdateFrequencyWrapper, the result is an instance of the component's kind (and of no other, except the other tendency kind); wrappers and composites call it with a timestep exactly if the component takes one; and nested ScalingWrappers multiply every input and output by the product of its factors.", "quantifier": "all components of all four kinds, all finite nestings of the two wrappers, all scale factors, all states, all timesteps", "why_tests_cant": "The kind of a wrapped component comes from attribute delegation and a duck-typing metaclass; tests wrap a component once and never pass a wrapper to another wrapper or to a composite.", "anchors": ["sympl/_core/wrappers.py:ScalingWrapper.__getattr__", "sympl/_core/wrappers.py:ScalingWrapper.__call__", "sympl/_core/wrappers.py:UpdateFrequencyWrapper.__getattr__", "sympl/_core/base_components.py:ComponentMeta.__instancecheck__", "sympl/_components/basic.py:TimeDifferencingWrapper.__getattr__", "sympl/_core/composite.py:ensure_components_have_class"]}
{"id": "C75", "title": "TimeDifferencingWrapper reproduces the wrapped Stepper, tracers included", "statement": "A forward Euler step with TimeDifferencingWrapper(stepper) gives every quantity the Stepper changes, declared outputs and tracers alike, the value the Stepper gives it, leaves everything else as it was, and the wrapper asks for every input the Stepper needs. The tendencies and diagnostics it declares are those it returns, in the units it returns them in.", "quantifier": "all Stepper classes and array_call functions, all tracer registrations, all states, all nonzero timesteps", "why_tests_cant": "uses_tracers is a class attribute that shadows attribute delegation to the wrapped Stepper; tests of the wrapper use no tracers.", "anchors": ["sympl/_components/basic.py:TimeDifferencingWrapper.__call__", "sympl/_components/basic.py:TimeDifferencingWrapper.tendency_properties", "sympl/_components/basic.py:TimeDifferencingWrapper.__getattr__", "sympl/_core/base_components.py:Stepper.__call__", "sympl/_core/combine_properties.py:combine_component_properties", "sympl/_core/tracers.py:TracerPacker.unpack"]}
{"id": "C76", "title": "The units of the state do not matter to components, composites, wrappers and runs", "statement": "Two states that hold the same physical quantities in different units give identical calls: a component hands array_call the same arrays and returns the same results or raises the same exception, and so do composites and wrappers of such components; every step of a time stepper with such components gives the same physical state.", "quantifier": "all unit registries, all pairs of states differing in units, all component classes with or without tracers, all array_call functions, all composites and wrappers, all time stepper histories", "why_tests_cant": "tests give states in the units the component declares or in one other unit; the scaling of inputs in the state's own units needs offset units to show.", "anchors": ["sympl/_core/get_np_arrays.py:get_numpy_arrays_with_properties", "sympl/_core/base_components.py:TendencyComponent.__call__", "sympl/_core/base_components.py:Stepper.__call__", "sympl/_core/base_components.py:DiagnosticComponent.__call__", "sympl/_core/composite.py:TendencyComponentComposite.__call__", "sympl/_core/wrappers.py:ScalingWrapper.__call__", "sympl/_core/wrappers.py:UpdateFrequencyWrapper.__call__", "sympl/_components/basic.py:TimeDifferencingWrapper.__call__"]}
{"id": "C77", "title": "The order of a state's axes does not matter to components", "statement": "If two states hold the same quantities with their axes in different orders, a component accepts both or neither; array_call receives arrays with the same values in the same places (apart from the order of the dims within a wildcard); and the call returns the same quantities by name of axis, or fails for both, provided array_call does not use positions along the wildcard. Without that proviso it is false.", "quantifier": "all unit registries, all pairs of states differing in the order of axes, all component classes without tracers (steppers without tendencies in diagnostics), all array_call functions that treat wildcard positions alike", "why_tests_cant": "tests pass states whose axes have one order, or compare with a hand-transposed array for one shape; independence holds for every permutation, number of axes and set of lengths.", "anchors": ["sympl/_core/get_np_arrays.py:get_numpy_arrays_with_properties", "sympl/_core/restore_dataarray.py:restore_data_arrays_with_properties", "sympl/_core/wildcard.py:flatten_wildcard_dims", "sympl/_core/base_components.py:TendencyComponent.__call__", "sympl/_core/base_components.py:Stepper.__call__", "sympl/_core/base_components.py:DiagnosticComponent.__call__"]}
{"id": "C78", "title": "Runs conserve what the components conserve", "statement": "If in every call the tendencies of the components change a weighted sum of values of the state (total mass, energy of a column, ...) at a fixed rate, then over a run of n steps with AdamsBashforth of any order, Leapfrog with any filter, or SSPRungeKutta with two or three stages the sum changes by exactly n times the timestep times that rate; with rate zero it is conserved.", "quantifier": "all unit registries, components with any memory giving tendencies for the same quantities in every call, all finite weighted sums over quantities and coordinates, all initial states, timesteps, numbers of steps and steppers", "why_tests_cant": "tests compare single steps with literals; conservation over whole runs with start-up steps, history and filtering is a statement about sums over all components, levels and steps.", "anchors": ["sympl/_components/timesteppers.py:AdamsBashforth._call", "sympl/_components/timesteppers.py:Leapfrog._call", "sympl/_components/timesteppers.py:SSPRungeKutta._call", "sympl/_components/timesteppers.py:step_leapfrog", "sympl/_core/tendencystepper.py:TendencyStepper.__call__", "sympl/_core/state.py:copy_untouched_quantities"]}
{"id": "C79", "title": "Composites accept exactly the components they can call", "statement": "A composite can be constructed only from components of its kind: ImplicitTendencyComponentComposite takes any callable object with the interface of the tendency components, with or without a timestep argument; TendencyComponentComposite and DiagnosticComponentComposite take objects with the interface of their kind that can be called without a timestep. Otherwise the constructor raises TypeError.", "quantifier": "every object, described by its attributes, base classes and call signature; every list of components and declared properties", "why_tests_cant": "All combinations of attributes, base classes and call signatures.", "anchors": ["sympl/_core/composite.py:ensure_components_have_class", "sympl/_core/composite.py:ComponentComposite.__init__"]}
{"id": "C80", "title": "MonitorComposite stores with every monitor, in order", "statement": "MonitorComposite.store gives the state to each of its monitors in order; it succeeds exactly if they all do, and when one raises, the ones before it have stored the state, its error is propagated and the ones after it are not called.", "quantifier": "all lists of monitors, any effects and errors they have, all states", "why_tests_cant": "Any number of monitors, any of which may fail in any world the earlier ones leave behind.", "anchors": ["sympl/_core/composite.py:MonitorComposite.store"]}
{"id": "C81", "title": "A component is not run before its base class is initialised", "statement": "As long as no call of the base class's __init__ has completed, calling a component raises RuntimeError whatever the state, and array_call is not run; once one has completed, the object has every attribute its calls use, and the first __init__ of a new object has the effect described by the model of construction.", "quantifier": "all four base classes and TendencyStepper, all histories of __init__ calls on one object (with any arguments and declared properties, failing ones caught), all states and array_calls", "why_tests_cant": "Histories of failing and repeated __init__ calls are unbounded; tests only omit the call altogether.", "anchors": ["sympl/_core/base_components.py:Stepper.__init__", "sympl/_core/base_components.py:Stepper._check_self_is_initialized", "sympl/_core/tendencystepper.py:TendencyStepper.__call__"]}
{"id": "C82", "title": "Sympl's results do not depend on the backend's containers", "statement": "Under any backend that implements the StateBackend interface, i.e. whose containers stand for DataArrays and report and create the same dims, shapes and arrays, components, composites and time steppers applied to a state do what they do with the DataArrays it stands for: array_call gets the same arrays, the results stand for the same results, and the same exceptions are raised. Setting an object that is not a StateBackend raises TypeError and changes nothing.", "quantifier": "all container types, backends and representation relations, component classes, tracers, array_calls, states and timesteps; all sequences of set_backend calls", "why_tests_cant": "The quantifier ranges over backends that do not exist yet; the test suite has only the default one.", "anchors": ["sympl/_core/backend.py:StateBackend", "sympl/_core/backend.py:set_backend", "sympl/_core/get_np_arrays.py:get_numpy_arrays_with_properties", "sympl/_core/restore_dataarray.py:restore_data_arrays_with_properties", "sympl/_core/util.py:update_dict_by_adding_another", "sympl/_components/timesteppers.py:convert_tendencies_units_for_state"]}
{"id": "C83", "title": "Printing a component ends, shows it, and has no effect", "statement": "repr of a component or composite ends whatever its attributes refer to, also if they refer back to it. The text shows every object in full, except that an object shown inside of itself is only named. Printing does not change what any object prints afterwards, also if it raises.", "quantifier": "all finite sets of objects, all references between them, all sequences of objects printed", "why_tests_cant": "Object graphs with cycles are unbounded; tests print a few components without cycles.", "anchors": ["sympl/_core/base_components.py:Stepper.__repr__", "sympl/_core/base_components.py:TendencyComponent.__repr__", "sympl/_core/composite.py:ComponentComposite.__repr__", "sympl/_core/tendencystepper.py:TendencyStepper.__repr__"]}
{"id": "C84", "title": "Nesting composites makes no difference", "statement": "A composite accepts composites of its own kind as components, and ImplicitTendencyComponentComposite also TendencyComponentComposite. Replacing a run of components of a composite by a composite of them changes neither whether it can be constructed nor what it declares, neither whether its calls succeed nor what they return (tendencies physically, diagnostics exactly) nor what the components do.", "quantifier": "all lists of components, all groups of consecutive ones, all states and timesteps, all units and dims", "why_tests_cant": "Compares two composites over all component lists; tests construct a handful of composites and never nest them with mixed units, dims and wildcards.", "anchors": ["sympl/_core/composite.py:ComponentComposite.__init__", "sympl/_core/composite.py:TendencyComponentComposite.__call__", "sympl/_core/composite.py:ImplicitTendencyComponentComposite.__call__", "sympl/_core/composite.py:DiagnosticComponentComposite.__call__", "sympl/_core/combine_properties.py:combine_properties"]}
{"id": "C85", "title": "Time steppers remember states by value", "statement": "What a time stepper returns is determined by the contents of the states at the time they were passed to it and by what its components answered, whatever the caller does to arrays between the calls. A call changes no array that exists, except that Leapfrog changes the arrays of the stepped quantities of the state it is given.", "quantifier": "all sequences of calls, all states and arrays shared between states, components and caller, all changes to arrays by the caller between calls, all components", "why_tests_cant": "Aliasing bugs show only for particular sharing between states of different calls; tests do not change states after passing them.", "anchors": ["sympl/_components/timesteppers.py:AdamsBashforth._call", "sympl/_components/timesteppers.py:Leapfrog._call", "sympl/_components/timesteppers.py:step_leapfrog", "sympl/_core/state.py:copy_untouched_quantities"]}
{"id": "C86", "title": "Budgets of components add up", "statement": "A budget is a weighted sum of values of state quantities. If every component changes the budget at its own rate, in whatever units it returns its tendencies and whatever it remembers, then the composite changes it at the sum of the rates, and so does every run of an AdamsBashforth, Leapfrog or SSPRungeKutta stepper made of the components: after n steps of dt the budget has changed by n dt times the sum. In particular a quantity that every component conserves is conserved.", "quantifier": "all components with any memory, all numbers of components, all budgets, all units without offset, all orders and filter parameters, all numbers of steps", "why_tests_cant": "Tests sum two constant tendencies in one call; that budgets close over whole runs for any set of components in different units needs a proof.", "anchors": ["sympl/_core/composite.py:ImplicitTendencyComponentComposite.__call__", "sympl/_core/util.py:update_dict_by_adding_another", "sympl/_components/timesteppers.py:convert_tendencies_units_for_state", "sympl/_components/timesteppers.py:AdamsBashforth._call", "sympl/_components/timesteppers.py:Leapfrog._call", "sympl/_components/timesteppers.py:SSPRungeKutta._call"]}
{"id": "C87", "title": "Tendencies that depend on time are integrated to the order of the scheme", "statement": "In the usual loop, which advances state['time'] by the timestep after each step, a tendency that is a polynomial in time of degree less than the order of the scheme is integrated exactly once the stepper has its history: AdamsBashforth of order k for degree < k, Leapfrog without filter for degree < 2, SSPRungeKutta with k stages for degree < k.", "quantifier": "all polynomials at every grid point, all units, components and their memory, all timesteps, start times and numbers of steps", "why_tests_cant": "Tests use steady tendencies or one step; accuracy is a statement about all polynomials and whole runs.", "anchors": ["sympl/_components/timesteppers.py:AdamsBashforth._call", "sympl/_components/timesteppers.py:Leapfrog._call", "sympl/_components/timesteppers.py:SSPRungeKutta._step_3_stages", "sympl/_components/timesteppers.py:SSPRungeKutta._step_2_stages", "sympl/_core/state.py:add", "sympl/_core/state.py:multiply"]}
{"id": "C88", "title": "str of a component says what it declares", "statement": "str of a component always succeeds; two components with the same text are of the same kind and class and declare the same quantities in the same order; the text of a composite is the texts of its components in order.", "quantifier": "all component classes, all names in their property dictionaries (class texts without '(', names without quotes), all composites and composites of composites", "why_tests_cant": "Tests look at the text of a few components (or only that str does not fail); that a text determines what is declared is a statement about all pairs of components.", "anchors": ["sympl/_core/base_components.py:Stepper.__str__", "sympl/_core/base_components.py:TendencyComponent.__str__", "sympl/_core/base_components.py:ImplicitTendencyComponent.__str__", "sympl/_core/base_components.py:DiagnosticComponent.__str__", "sympl/_core/base_components.py:Monitor.__str__", "sympl/_core/composite.py:ComponentComposite.__str__", "sympl/_core/tendencystepper.py:TendencyStepper.__str__"]}
{"id": "C89", "title": "Coordinates: arithmetic by label, and time steppers keep them", "statement": "Adding or subtracting sympl DataArrays with coordinates combines values at equal labels and keeps the labels both have. Time steppers applied to states whose quantities have coordinates give the diagnostics and new state that they give without coordinates, with each quantity's coordinates kept, over whole runs. If labels change between calls, a stepper combines values at equal labels or raises.", "quantifier": "all DataArrays with any dims, shapes and distinct labels on any of their dims; all components, states, timesteps, orders, stages, filter parameters and numbers of steps", "why_tests_cant": "The test suite's states have no coordinates at all.", "anchors": ["sympl/_core/dataarray.py:DataArray.__add__", "sympl/_core/dataarray.py:DataArray.__sub__", "sympl/_core/dataarray.py:DataArray.to_units", "sympl/_components/timesteppers.py:AdamsBashforth._call", "sympl/_components/timesteppers.py:Leapfrog._call", "sympl/_components/timesteppers.py:step_leapfrog", "sympl/_components/timesteppers.py:SSPRungeKutta._call", "sympl/_core/tendencystepper.py:TendencyStepper.__call__", "sympl/_core/state.py:add", "sympl/_core/state.py:multiply"]}
{"id": "C90", "title": "Composites and TendencySteppers survive later tracer registrations", "statement": "A composite or TendencyStepper computes its property dictionaries on every access. Registering a tracer that its components do not mention adds the tracer to input_properties, with the units it was registered with, if some component uses tracers, and leaves every other declared quantity, the tendency properties, the diagnostic properties and the results of calls as they were.", "quantifier": "all components, all histories of registered tracers between two accesses, all states, timesteps and stepping schemes", "why_tests_cant": "The tests register tracers before they build components, and access the properties once.", "anchors": ["sympl/_core/composite.py:InputPropertiesCompositeMixin.input_properties", "sympl/_core/composite.py:DiagnosticPropertiesCompositeMixin.diagnostic_properties", "sympl/_core/composite.py:TendencyComponentComposite.tendency_properties", "sympl/_core/combine_properties.py:combine_component_properties", "sympl/_core/combine_properties.py:combine_properties", "sympl/_core/tendencystepper.py:TendencyStepper.input_properties", "sympl/_core/tendencystepper.py:TendencyStepper.output_properties", "sympl/_core/tendencystepper.py:TendencyStepper.__call__", "sympl/_core/tracers.py:register_tracer", "sympl/_core/tracers.py:get_tracer_input_properties"]}
{"id": "C91", "title": "Stepping a transposed, renamed or sliced state", "statement": "If the components of a time stepper work point by point, reordering the axes of the quantities, renaming their dimensions, or taking one position along a dimension that all quantities have, before a run of any length, gives the same final state as doing so afterwards, and the run fails in the one case exactly if it fails in the other. Composites of such components are such components.", "quantifier": "all states, all components (a relation of their results is assumed), all injective renamings, dimensions and positions, all orders, filter strengths and numbers of stages, with and without tendencies in diagnostics, all timesteps and numbers of steps", "why_tests_cant": "The tests step arrays of one dimension, or scalars, and never compare two layouts.", "anchors": ["sympl/_components/timesteppers.py:AdamsBashforth._call", "sympl/_components/timesteppers.py:Leapfrog._call", "sympl/_components/timesteppers.py:SSPRungeKutta._call", "sympl/_core/tendencystepper.py:TendencyStepper.__call__", "sympl/_core/tendencystepper.py:TendencyStepper._insert_tendencies_to_diagnostics", "sympl/_core/composite.py:ImplicitTendencyComponentComposite.__call__", "sympl/_core/util.py:update_dict_by_adding_another", "sympl/_core/dataarray.py:DataArray.__add__", "sympl/_core/dataarray.py:DataArray.__sub__", "sympl/_core/dataarray.py:DataArray.to_units"]}
{"id": "C92", "title": "Reading properties changes nothing", "statement": "Reading the property dictionaries that composites, time steppers and TimeDifferencingWrapper compute on access, any number of times and in any order, changes nothing: every component declares what it declared, every property reads as before, and as computed from those declarations. What is returned is the caller's own: changing it changes no component.", "quantifier": "all components and property dictionaries, as objects that may be shared between components, all sequences of accesses with any registered tracers, all changes to what is returned, all iteration orders of sets", "why_tests_cant": "The tests look at each property once, and never change what they get.", "anchors": ["sympl/_core/combine_properties.py:combine_properties", "sympl/_core/combine_properties.py:combine_component_properties", "sympl/_core/composite.py:InputPropertiesCompositeMixin.input_properties", "sympl/_core/composite.py:DiagnosticPropertiesCompositeMixin.diagnostic_properties", "sympl/_core/composite.py:TendencyComponentComposite.tendency_properties", "sympl/_core/tendencystepper.py:TendencyStepper.input_properties", "sympl/_core/tendencystepper.py:TendencyStepper.diagnostic_properties", "sympl/_core/tendencystepper.py:TendencyStepper.output_properties", "sympl/_core/tendencystepper.py:TendencyStepper._tendency_properties", "sympl/_components/basic.py:TimeDifferencingWrapper.tendency_properties"]}
{"id": "C93", "title": "Time steppers understand their arguments", "statement": "AdamsBashforth accepts as order every whole number from 1 to 4 and nothing else, SSPRungeKutta as stages 2 and 3 and nothing else, with TypeError or ValueError otherwise. Defaults are those documented. A keyword that is not documented is never ignored, the order of keywords makes no difference, components may be given one by one or as a list, and the three steppers accept the same components.", "quantifier": "all positional arguments (components or lists), all keyword dictionaries with values of any kind (ints, bools, floats, numpy integers, strings, None, other objects), all components and registered tracers", "why_tests_cant": "The tests construct steppers with a handful of orders, and with wrong arguments hardly at all.", "anchors": ["sympl/_components/timesteppers.py:SSPRungeKutta.__init__", "sympl/_components/timesteppers.py:AdamsBashforth.__init__", "sympl/_components/timesteppers.py:Leapfrog.__init__", "sympl/_core/tendencystepper.py:TendencyStepper.__init__", "sympl/_core/base_components.py:Stepper.__init__", "sympl/_core/composite.py:ensure_components_have_class"]}
{"id": "C94", "title": "A failed call leaves no trace", "statement": "When a driver catches the exception of a call and goes on, all other calls give what they would have given without the failed one. For AdamsBashforth and Leapfrog this holds for calls in which a component raised or a tendency could not be expressed in the units of its quantity, for SSPRungeKutta and UpdateFrequencyWrapper for calls that raised for any reason.", "quantifier": "all lists of attempts with one timestep, each with any state and with components that behave in any way during it, all orders, stages, filters and memories, with and without tendencies in diagnostics", "why_tests_cant": "No test calls a stepper again after an exception; which later calls are affected depends on the history and the stage at which a call failed.", "anchors": ["sympl/_components/timesteppers.py:AdamsBashforth._call", "sympl/_components/timesteppers.py:Leapfrog._call", "sympl/_components/timesteppers.py:SSPRungeKutta._call", "sympl/_core/tendencystepper.py:TendencyStepper.__call__", "sympl/_core/wrappers.py:UpdateFrequencyWrapper.__call__"]}
{"id": "C95", "title": "Attributes of wrapped components", "statement": "An attribute a wrapper does not have itself is that of the component it wraps, through any wrappers in any order and to any depth; own attributes come first, TimeDifferencingWrapper hides outputs and presents them as tendencies, a missing attribute is an AttributeError. Hence isinstance sees of a wrapper what it sees of the component. Wrappers can be copied like components.", "quantifier": "all components (any answer to any lookup, including exceptions), all nests of ScalingWrapper, UpdateFrequencyWrapper and TimeDifferencingWrapper, all attribute names, all recursion limits that leave room for the nest", "why_tests_cant": "The tests look at a few attributes of single wrappers; lookups through several wrappers, properties that raise and wrappers without their component are not tried.", "anchors": ["sympl/_core/wrappers.py:ScalingWrapper.__getattr__", "sympl/_core/wrappers.py:UpdateFrequencyWrapper.__getattr__", "sympl/_components/basic.py:TimeDifferencingWrapper.__getattr__", "sympl/_components/basic.py:TimeDifferencingWrapper.tendency_properties", "sympl/_core/base_components.py:ComponentMeta.__instancecheck__"]}
{"id": "C96", "title": "Dimensions of quantities during a run", "statement": "Stepping keeps the dimensions of a quantity: at the end of a run of any number of steps with AdamsBashforth, Leapfrog or SSPRungeKutta, every quantity has the dimensions it had at the start, in the same order and with the same lengths, followed only by dimensions of its tendencies that it did not have; if its tendencies have no others it has exactly its dimensions and shape, whatever the order of the axes of the tendencies. The condition on tendencies follows from the dims that a component declares, wildcards included, whatever its array_call computes, and composites inherit it from their members.", "quantifier": "all states in which every dimension has one length, all components (any world, any array_call), all lists of components in a composite, all numbers of steps, timesteps, orders, filter parameters and units", "why_tests_cant": "The tests step quantities whose tendencies have the same dimensions in the same order, with few steps; broadcasting and reordering in xarray arithmetic, in the history of AdamsBashforth and in the filter of Leapfrog are not tried.", "anchors": ["sympl/_components/timesteppers.py:AdamsBashforth._call", "sympl/_components/timesteppers.py:Leapfrog._call", "sympl/_components/timesteppers.py:SSPRungeKutta._call", "sympl/_core/tendencystepper.py:TendencyStepper.__call__", "sympl/_core/composite.py:ImplicitTendencyComponentComposite.__call__", "sympl/_core/restore_dataarray.py:restore_data_arrays_with_properties"]}
{"id": "C97", "title": "Columns are computed alone", "statement": "A component that works column by column, called with the same columns on another grid, changes the world the same way and returns for each column what it returned on the first grid, or raises the same exception. The other grid may select columns, repeat or reorder them, mirror or shift them, spread a list of columns over several dimensions or flatten several dimensions to one. Working column by column is a property of array_call alone: whichever columns it is given along the wildcard, in whichever order and however often, it returns for each the same. So a run of any number of steps, with any time stepper and any composite of such components, is in each column of the second grid the run on the first.", "quantifier": "all components without tracers whose array_call works column by column (steppers without tendencies in diagnostics), all pairs of states related by any map of columns, all numbers of dimensions and lengths, all units, timesteps, orders, filter parameters and numbers of steps", "why_tests_cant": "The tests call components with one or two small grids and compare with fixed arrays; that a model run with one column agrees with every column of a run on a grid is not tested at all.", "anchors": ["sympl/_core/get_np_arrays.py:get_numpy_arrays_with_properties", "sympl/_core/wildcard.py:get_wildcard_matches_and_dim_lengths", "sympl/_core/wildcard.py:flatten_wildcard_dims", "sympl/_core/restore_dataarray.py:restore_data_arrays_with_properties", "sympl/_core/base_components.py:TendencyComponent.__call__", "sympl/_core/base_components.py:Stepper.__call__", "sympl/_core/base_components.py:DiagnosticComponent.__call__"]}
{"id": "C98", "title": "A relaxed quantity approaches its equilibrium in runs", "statement": "In a run of any time stepper whose components include one RelaxationTendencyComponent for a quantity, the others changing other quantities, the distance of the quantity from its equilibrium at each place is after n steps the distance at the start times the factor that the scheme makes of timestep/timescale of that place, whatever units the quantity, the equilibrium and the timescale are given in and whatever dimensions they have. As the number of steps grows it tends to 0 if the timestep is less than 2, 1, 6/11, 1/20 timescales (AdamsBashforth of orders 1 to 4), 2 or 5/2 timescales (SSPRungeKutta with 2 or 3 stages), and for Leapfrog with filter strength nu and alpha if and only if the timestep is less than 2 nu / (2 - nu + 2 alpha nu) timescales, that is one twentieth of the timescale with the default filter; beyond that it grows without bound, without filter always. SSPRungeKutta with a timestep of at most the timescale never passes the equilibrium.", "quantifier": "all registries with a meaning of units per second, all states on a grid of any dimensions and lengths, all units, all places with a positive timescale, all other components that leave the quantity, its equilibrium and timescale alone, all timesteps, all numbers of steps", "why_tests_cant": "The tests of RelaxationTendencyComponent look at single tendencies, those of the steppers at one to four steps with constant tendencies; nothing runs a relaxation with a stepper, and limits for ever more steps cannot be tested.", "anchors": ["sympl/_components/basic.py:RelaxationTendencyComponent.array_call", "sympl/_components/timesteppers.py:AdamsBashforth._call", "sympl/_components/timesteppers.py:Leapfrog._call", "sympl/_components/timesteppers.py:step_leapfrog", "sympl/_components/timesteppers.py:SSPRungeKutta._call", "sympl/_core/composite.py:ImplicitTendencyComponentComposite.__call__", "sympl/_core/tendencystepper.py:TendencyStepper.__call__"]}
{"id": "C99", "title": "Runs of the time steppers do not raise if the components do not", "statement": "If the components of a TendencyStepper, for every state like the first one (the same quantities on the same grid with the same attributes, the quantities not stepped with the same values), return without raising and give tendencies to the same quantities of the state, with dimensions of the quantity and units that convert to those of the quantity per second (or none), then every number of steps of AdamsBashforth of any order, Leapfrog with any filter and SSPRungeKutta with two or three stages succeeds, with or without tendencies in diagnostics, and every state reached is like the first one. A composite of components which do so one by one does so, and so does a RelaxationTendencyComponent whose equilibrium and timescale have dimensions of the quantity.", "quantifier": "all registries, grids, states, sets of quantities, components with any memory, orders, filters, stages, timesteps and numbers of steps", "why_tests_cant": "Tests make a few steps with mocked components; that the memory of the steppers, the unit conversions, the sums in composites and the in-place additions never fail later in a run cannot be shown by running some steps.", "anchors": ["sympl/_components/timesteppers.py:AdamsBashforth._call", "sympl/_components/timesteppers.py:AdamsBashforth._perform_step", "sympl/_components/timesteppers.py:Leapfrog._call", "sympl/_components/timesteppers.py:SSPRungeKutta._call", "sympl/_components/timesteppers.py:convert_tendencies_units_for_state", "sympl/_core/state.py:add", "sympl/_core/state.py:multiply", "sympl/_core/tendencystepper.py:TendencyStepper.__call__", "sympl/_core/tendencystepper.py:TendencyStepper._insert_tendencies_to_diagnostics", "sympl/_core/composite.py:ImplicitTendencyComponentComposite.__call__", "sympl/_core/util.py:update_dict_by_adding_another"]}
{"id": "C100", "title": "The order in which components are given to a time stepper does not matter", "statement": "If the results of the components depend only on the quantities in the state (not on memory, nor on the order of keys or axes), and no two return diagnostics of one name, then a composite given the components in another order raises in both cases or returns, by name of quantity and axis, the same rates of change (possibly expressed in another unit) and the same diagnostics. Every run of AdamsBashforth of any order, of Leapfrog with any filter and of SSPRungeKutta with two or three stages, given the components in another order, then completes if and only if the other does, and ends with the same quantities with the same values and units. Tendency component classes without tracers, whose array_call has no memory and treats the positions of a wildcard alike, are such components. For components that share memory the claim is false.", "quantifier": "all registries, all components satisfying the condition, all permutations of them, all states, worlds, timesteps, orders, filters, stages and numbers of steps", "why_tests_cant": "Tests call composites of one or two mocked components in one order; that no permutation of any number of components, in mixed units and with axes in any order, changes a run of any length cannot be shown by examples.", "anchors": ["sympl/_core/composite.py:ImplicitTendencyComponentComposite.__call__", "sympl/_core/util.py:update_dict_by_adding_another", "sympl/_components/timesteppers.py:AdamsBashforth._call", "sympl/_components/timesteppers.py:Leapfrog._call", "sympl/_components/timesteppers.py:SSPRungeKutta._call", "sympl/_components/timesteppers.py:convert_tendencies_units_for_state", "sympl/_core/tendencystepper.py:TendencyStepper.__call__"]}
{"id": "C101", "title": "Component calls raise the documented exceptions", "statement": "Calling a component of any kind on a state it cannot use raises KeyError if a required quantity is missing from the state and InvalidStateError if the state is invalid for other reasons, and does not run array_call; a state without fault is accepted.", "quantifier": "all registries, component classes with dims and units declared, instances with or without tracers, histories of tracer calls, states of well-formed arrays, and array_call functions", "why_tests_cant": "The tests try single faults of single quantities; that each exception stands for a fault of its own kind, for every mixture of faults and every property dictionary, needs all states.", "anchors": ["sympl/_core/base_components.py:Stepper.__call__", "sympl/_core/base_components.py:TendencyComponent.__call__", "sympl/_core/base_components.py:ImplicitTendencyComponent.__call__", "sympl/_core/base_components.py:DiagnosticComponent.__call__", "sympl/_core/base_components.py:InputChecker.check_inputs", "sympl/_core/get_np_arrays.py:get_numpy_arrays_with_properties", "sympl/_core/wildcard.py:get_wildcard_matches_and_dim_lengths", "sympl/_core/backend.py:DataArrayBackend.get_array", "sympl/_core/tracers.py:TracerPacker.pack", "sympl/_core/exceptions.py:InvalidStateError"]}
{"id": "C102", "title": "Components that return what they declare do not fail, others fail for what they return", "statement": "Once array_call has returned, a component call raises only if what was returned has a fault, with an exception that tells which: ComponentMissingOutputError for a quantity that is not returned, ComponentExtraOutputError for one that is not declared, InvalidPropertyDictError for a shape that does not fit, and for the array of the tracers KeyError if there is none and IndexError if it has no position for a tracer. A component of any kind that returns each declared quantity under its alias or name with the lengths of its dims does not fail.", "quantifier": "all registries, component classes and instances with and without tracers, states of well-formed arrays for which array_call is reached, worlds, array_call functions and returned dictionaries", "why_tests_cant": "The tests return one wrong dictionary at a time from fixed mock components; that no combination of wildcards, aliases, inherited dims and dimensions the inputs do not have makes a correct component fail is a claim about all property dictionaries and states.", "anchors": ["sympl/_core/base_components.py:Stepper.__call__", "sympl/_core/base_components.py:TendencyComponent.__call__", "sympl/_core/base_components.py:ImplicitTendencyComponent.__call__", "sympl/_core/base_components.py:DiagnosticComponent.__call__", "sympl/_core/base_components.py:TendencyChecker.check_tendencies", "sympl/_core/base_components.py:DiagnosticChecker.check_diagnostics", "sympl/_core/base_components.py:OutputChecker.check_outputs", "sympl/_core/restore_dataarray.py:restore_data_arrays_with_properties", "sympl/_core/restore_dataarray.py:check_array_shape", "sympl/_core/restore_dataarray.py:get_alias_or_name", "sympl/_core/wildcard.py:fill_dims_wildcard", "sympl/_core/wildcard.py:expand_array_wildcard_dims", "sympl/_core/tracers.py:TracerPacker.unpack"]}
{"id": "C103", "title": "Runs follow the differential equation to the order of the scheme", "statement": "In a run of a time stepper whose components include one RelaxationTendencyComponent for a quantity, the others changing other quantities, the quantity differs at each place after n steps from the solution of y' = (equilibrium - y) / timescale at that time by at most a constant times the timestep (in timescales) to the power of the order of accuracy of the scheme: the documented order for AdamsBashforth, the number of stages for SSPRungeKutta, 2 for Leapfrog.", "quantifier": "all registries with a meaning of units per second, all states on a grid of any dimensions and lengths, all units, all places with a positive timescale, all other components that leave the quantity, its equilibrium and timescale alone, all timesteps up to a part of the timescale, all numbers of steps", "why_tests_cant": "The order of accuracy is a statement about all timesteps and all numbers of steps, and about the distance from a real function; the tests compare single steps with constant tendencies to the coefficients.", "anchors": ["sympl/_components/timesteppers.py:AdamsBashforth.__init__", "sympl/_components/timesteppers.py:AdamsBashforth._call", "sympl/_components/timesteppers.py:AdamsBashforth._perform_step", "sympl/_components/timesteppers.py:Leapfrog._call", "sympl/_components/timesteppers.py:step_leapfrog", "sympl/_components/timesteppers.py:SSPRungeKutta._call", "sympl/_components/basic.py:RelaxationTendencyComponent.array_call", "sympl/_core/composite.py:ImplicitTendencyComponentComposite.__call__"]}
{"id": "C104", "title": "A failed NetCDFMonitor call names its cause and loses no data", "statement": "If NetCDFMonitor.write raises, then nothing is stored (ValueError), the quantities differ between states or from the file or an attribute differs from the file (InvalidStateError), a dimension has another length or a variable other dims than in the file (IOError), a quantity is a scalar (IndexError) or no array (AttributeError, TypeError), or shapes do not fit (ValueError); without such a fault it succeeds. Whatever it raises, all states stay cached and the records of the file are unchanged, and if the fault is noticed before the times are appended the file is unchanged. If store raises, the state has an empty name or one made empty by an alias (ValueError) or no usable time (KeyError, TypeError) and the monitor is unchanged, or the write it made raised.", "quantifier": "all monitors with or without an existing file, all sequences of store and write calls before (with or without exceptions), all states with any quantities, dims, shapes, attributes and aliases", "why_tests_cant": "Faults combine with the contents of the file and with other states stored before; tests store a few states with one fault each and look at InvalidStateError only.", "anchors": ["sympl/_components/netcdf.py:NetCDFMonitor.store", "sympl/_components/netcdf.py:NetCDFMonitor.write", "sympl/_components/netcdf.py:NetCDFMonitor._ensure_cached_state_keys_compatible_with_dataset", "sympl/_components/netcdf.py:NetCDFMonitor._ensure_cached_states_have_same_keys", "sympl/_components/netcdf.py:NetCDFMonitor._ensure_time_exists", "sympl/_components/netcdf.py:combine_states", "sympl/_components/netcdf.py:ensure_variable_exists", "sympl/_components/netcdf.py:create_variable", "sympl/_components/netcdf.py:ensure_variable_is_compatible", "sympl/_components/netcdf.py:ensure_dimension_exists"]}
{"id": "C105", "title": "get_tracer_names and get_tracer_unit_dict describe the tracer arrays", "statement": "get_tracer_names lists the registered tracers in the order in which they appear in the tracer arrays of components that prepend none, and get_tracer_unit_dict has exactly these names as keys, with the units registered for them.", "quantifier": "all sequences of register_tracer, component creations and resets, with or without exceptions, all names, units and unit registries", "why_tests_cant": "The lists are kept separately from the packers that build the arrays and go apart only after particular sequences of calls; tests register two or three different tracers.", "anchors": ["sympl/_core/tracers.py:get_tracer_names", "sympl/_core/tracers.py:get_tracer_unit_dict", "sympl/_core/tracers.py:register_tracer", "sympl/_core/tracers.py:TracerPacker.tracer_names"]}
{"id": "C106", "title": "Runs continue from a restart file as if they had not been interrupted", "statement": "If a run stores its states with RestartMonitor and is interrupted at any point after a store returned, even during a later store, the state a new process loads is one the run stored, and continuing from it with new components and a new time stepper ends in the same state as the uninterrupted run.", "quantifier": "all component lists whose outputs do not depend on hidden state, all initial states, numbers of steps, time steps, sequences of complete and interrupted stores, earlier disk contents and unit registries; both SSPRungeKutta variants and AdamsBashforth of order 1 (and, for the weaker claim, all orders and Leapfrog)", "why_tests_cant": "The claim compares whole runs through files and over crashes at every point; the tests store one state and load it again, and never continue a run.", "anchors": ["sympl/_components/netcdf.py:RestartMonitor.store", "sympl/_components/netcdf.py:RestartMonitor.load", "sympl/_components/timesteppers.py:SSPRungeKutta._call", "sympl/_components/timesteppers.py:AdamsBashforth._call", "sympl/_components/timesteppers.py:Leapfrog._call"]}
{"id": "C107", "title": "UpdateFrequencyWrapper only delays the components it wraps", "statement": "In a run of a time stepper with some components in UpdateFrequencyWrappers, every step is the step of the components in which each wrapped one is given the state of the last step whose number is a multiple of the timesteps in its interval (rounded up), and the others the present state.  In particular wrappers with intervals of at most the timestep change nothing.", "quantifier": "all component lists, all choices of which are wrapped, all intervals and timesteps, initial states, numbers of steps, orders of AdamsBashforth and parameters of Leapfrog, with or without tendencies in diagnostics, and all unit registries", "why_tests_cant": "The tests call a wrapper alone, with a counter as the component; no test runs a time stepper with wrapped components, and the claim is about runs of any length.", "anchors": ["sympl/_core/wrappers.py:UpdateFrequencyWrapper.__call__", "sympl/_components/timesteppers.py:AdamsBashforth._call", "sympl/_components/timesteppers.py:Leapfrog._call", "sympl/_components/timesteppers.py:SSPRungeKutta._call"]}
{"id": "C108", "title": "NetCDF files have the states that a run stored", "statement": "In a program that steps a model with a time stepper and stores states in a NetCDFMonitor, each before or after its step, and writes the file at any times, every call returns or raises and the file has what it would if store had copied the values of the state. In particular the file does not depend on when it is written.", "quantifier": "all sequences of steps, stores and writes, all monitor configurations, initial states with arrays shared in any way, component lists that change no array that exists, timesteps, orders of AdamsBashforth, numbers of stages of SSPRungeKutta and parameters of Leapfrog", "why_tests_cant": "The tests of the monitor store states no stepper touches, and the tests of the steppers use no monitor; that they share arrays matters only in programs with both, and only for some orders of the calls.", "anchors": ["sympl/_components/netcdf.py:NetCDFMonitor.store", "sympl/_components/netcdf.py:NetCDFMonitor.write", "sympl/_components/timesteppers.py:AdamsBashforth._call", "sympl/_components/timesteppers.py:Leapfrog._call", "sympl/_components/timesteppers.py:SSPRungeKutta._call", "sympl/_components/timesteppers.py:step_leapfrog"]}
{"id": "C109", "title": "Quantities that are not stepped keep their values to the last bit", "statement": "A quantity of the state for which no component gives a tendency has exactly the same values after any number of steps, also in floating-point arithmetic.", "quantifier": "all component lists, states, timesteps, numbers of steps, orders of AdamsBashforth, parameters of Leapfrog and numbers of stages of SSPRungeKutta; for AdamsBashforth and Leapfrog all arithmetics, for SSPRungeKutta all arithmetics that round to a fixed number of binary digits", "why_tests_cant": "Tests compare with a tolerance or use numbers for which no operation rounds; which numbers are rounded in the stages of SSPRungeKutta depends on their digits.", "anchors": ["sympl/_core/state.py:copy_untouched_quantities", "sympl/_core/state.py:add", "sympl/_core/state.py:multiply", "sympl/_components/timesteppers.py:SSPRungeKutta._step_2_stages", "sympl/_components/timesteppers.py:SSPRungeKutta._step_3_stages", "sympl/_components/timesteppers.py:AdamsBashforth._call", "sympl/_components/timesteppers.py:Leapfrog._call", "sympl/_core/tendencystepper.py:TendencyStepper.__call__"]}
{"id": "C110", "title": "Rounding errors of Adams-Bashforth steps and runs are bounded", "statement": "In floating-point arithmetic, a step of AdamsBashforth of order m gives every element within ((1 + u)^(m + 4) - 1) (|x| + |dt| sum |coefficient| |tendency|) of the exact step, exactly the old value if the tendencies are zero, and n steps end within a bound that is proportional to the rounding of single steps and of the components, with the growth of earlier errors by the Lipschitz constant of the components, of the run in exact arithmetic.", "quantifier": "all orders, numbers of steps, timesteps, states and component lists with any Lipschitz constant and any accuracy, all roundings that change a number by at most the part u of it, all choices of elements and of scales of the quantities", "why_tests_cant": "Tests compare a few steps of single configurations with a tolerance; that errors of longer runs stay in proportion to the number of steps, and that they do grow with it, is not visible in a few steps.", "anchors": ["sympl/_components/timesteppers.py:AdamsBashforth._call", "sympl/_components/timesteppers.py:AdamsBashforth._perform_step", "sympl/_components/timesteppers.py:step_forward_euler", "sympl/_components/timesteppers.py:second_bashforth", "sympl/_components/timesteppers.py:third_bashforth", "sympl/_components/timesteppers.py:fourth_bashforth", "sympl/_core/tendencystepper.py:TendencyStepper.__call__"]}
{"id": "C111", "title": "When a NetCDFMonitor is written makes no difference", "statement": "If a program stores, for every time, the same quantities with the same dims, shapes and attributes, and nothing for a time up to those already written, then whenever it writes, by write or with write_on_store, no call raises except a write with nothing to write and the store of a state that is invalid by itself, and after a last write the file has one record per time, in order of time, with what was stored last for it; so the file does not depend on when it was written.", "quantifier": "all new monitors (with any units of time, names, aliases, write_on_store or not), all programs of store and write calls, all states with arrays of one or more dimensions", "why_tests_cant": "Tests write once, after one or a few stores; the file depends on all batches written before (times, reference time, rows and dimensions), and equality of files is between all ways to distribute the writes.", "anchors": ["sympl/_components/netcdf.py:NetCDFMonitor.store", "sympl/_components/netcdf.py:NetCDFMonitor.write", "sympl/_components/netcdf.py:append_times_to_dataset", "sympl/_components/netcdf.py:combine_states", "sympl/_components/netcdf.py:ensure_variable_exists"]}
{"id": "C112", "title": "The main loop of the documentation writes the run it makes", "statement": "Take the main loop of the documentation (step, update the state with the diagnostics, store it in a NetCDFMonitor, set the time of the next state), from a state at t0 until a later time stop. With AdamsBashforth, Leapfrog or SSPRungeKutta, a positive timestep, and components which for states like the first one do not raise, give tendencies that fit and always the same diagnostics, the loop ends without an exception after the least number k of steps with t0 + k*dt >= stop; and after a write the file has exactly k records, record i being for the time t0 + i*dt and having every quantity of the i-th state of the run and every diagnostic of the i-th step, with values, dims and attributes. If the timestep is not positive the loop never ends.", "quantifier": "all components, states, start and stop times, positive timesteps, orders, filters and stages, all new monitors that store all quantities, with or without write_on_store; the general theorem is for any way of stepping whose calls go on succeeding", "why_tests_cant": "It is a statement about whole runs of any length, over all components; tests call steppers and monitors separately, with mocks, and never look at a file after a run.", "anchors": ["sympl/_core/tendencystepper.py:TendencyStepper.__call__", "sympl/_components/timesteppers.py:AdamsBashforth._call", "sympl/_components/timesteppers.py:Leapfrog._call", "sympl/_components/timesteppers.py:SSPRungeKutta._call", "sympl/_components/netcdf.py:NetCDFMonitor.store", "sympl/_components/netcdf.py:NetCDFMonitor.write"]}
{"id": "C113", "title": "Continuing a run with new UpdateFrequencyWrappers", "statement": "Some components of a TendencyStepper are in UpdateFrequencyWrappers. A run is stopped after r steps and continued from the state it reached with new wrappers, as after a restart. The states are those of the uninterrupted run.", "quantifier": "all components that are a TendencyComponent or an ImplicitTendencyComponent and do not remember anything, any of them in wrappers with any intervals, all states, timesteps and numbers of steps before and after; AdamsBashforth of any order and Leapfrog with their memory kept, a one-step AdamsBashforth also with a new one", "why_tests_cant": "It compares whole runs, interrupted at any step; the wrapper's tests call a single wrapper with a mock a few times, and none makes a second wrapper that takes over.", "anchors": ["sympl/_core/wrappers.py:UpdateFrequencyWrapper.__call__", "sympl/_core/wrappers.py:UpdateFrequencyWrapper.__init__", "sympl/_components/timesteppers.py:AdamsBashforth._call", "sympl/_components/timesteppers.py:Leapfrog._call", "sympl/_core/composite.py:ImplicitTendencyComponentComposite.__call__"]}
{"id": "C114", "title": "Rounding errors of SSPRungeKutta runs", "statement": "A run of an SSPRungeKutta in floating-point arithmetic stays within a bound of the run in exact arithmetic: k^n E + (1 + k + ... + k^(n-1)) g after n steps from states at most E apart. k is the Taylor polynomial of exp(dt L) of degree 2 (two stages) or 3 (three stages), for tendencies with Lipschitz constant L; g is made of the errors with which tendencies are computed, of five roundings per stage and of three roundings per mean of states. In exact arithmetic, two runs from states at most E apart stay within k^n E.", "quantifier": "all roundings with a relative error of at most u, all components (computed with any arithmetic, within L E + e of exact ones), all states with values of at most X, all timesteps and numbers of steps, two or three stages, with or without tendencies in diagnostics", "why_tests_cant": "A test compares one step with hand-made numbers to some tolerance; it cannot say how errors accumulate over arbitrarily many steps of arbitrary components.", "anchors": ["sympl/_components/timesteppers.py:SSPRungeKutta._call", "sympl/_components/timesteppers.py:SSPRungeKutta._step_2_stages", "sympl/_components/timesteppers.py:SSPRungeKutta._step_3_stages", "sympl/_core/state.py:add", "sympl/_core/state.py:multiply", "sympl/_core/tendencystepper.py:TendencyStepper.__call__"]}
{"id": "C115", "title": "AdamsBashforth runs follow the differential equation of any components", "statement": "Let the components compute the right hand side of a differential equation: on states within E of a smooth solution they give tendencies within L E + e of its derivative. Then a run of n steps of a new AdamsBashforth of order 1 to 4, in floating-point or exact arithmetic, ends within K^n times (the initial error + the sum over the steps of truncation and rounding errors) of the solution at that time, K = 1 + 20/3 dt L; step i has the truncation error of the scheme of order min(order, i + 1), of power order + 1 in the timestep. In exact arithmetic, over a fixed time span, order 1 has an error of first and order 2 of second order in the timestep, however many steps are taken.", "quantifier": "for all components (with any world), solutions with bounded derivatives, states, orders, timesteps of either sign, numbers of steps, floating-point roundings of relative error u, unit conversions, input and output properties, and operations between the steps that leave the quantities alone", "why_tests_cant": "Tests compare a few steps with numbers for fixed components. That the states of the stepper approach the solution of the equation, for every right hand side and with a bound that holds for every timestep and number of steps, is a statement of analysis.", "anchors": ["sympl/_components/timesteppers.py:AdamsBashforth._call", "sympl/_components/timesteppers.py:AdamsBashforth._perform_step", "sympl/_components/timesteppers.py:step_forward_euler", "sympl/_components/timesteppers.py:second_bashforth", "sympl/_components/timesteppers.py:third_bashforth", "sympl/_components/timesteppers.py:fourth_bashforth"]}
{"id": "C116", "title": "SSPRungeKutta runs follow the differential equation of any components", "statement": "Let the components compute the right hand side of an autonomous differential equation with Lipschitz constant L: on states within E of a smooth solution they give tendencies within L E of its derivative. Then a run of n steps of an SSPRungeKutta with two or three stages ends within k^n E + (1 + k + ... + k^(n-1)) g of the solution, if it begins within E of it, where k is the Taylor polynomial of exp(dt L) of degree 2 or 3 and g is of third order in the timestep. From exact initial values over a time T the error is at most exp(L T) T dt^2 times a constant of the solution, however many steps are taken.", "quantifier": "for all components (with any world), solutions with bounded derivatives up to the third, states, timesteps of either sign, numbers of steps, unit registries, input and output properties, and operations between the steps that leave the quantities alone", "why_tests_cant": "Tests check single steps for fixed tendencies. That the combination of stages approaches the solution with second order, for every right hand side, timestep and number of steps, is a statement of analysis.", "anchors": ["sympl/_components/timesteppers.py:SSPRungeKutta._call", "sympl/_components/timesteppers.py:SSPRungeKutta._step_2_stages", "sympl/_components/timesteppers.py:SSPRungeKutta._step_3_stages", "sympl/_components/timesteppers.py:step_forward_euler"]}
{"id": "C117", "title": "Leapfrog runs follow the differential equation of any components", "statement": "Let the components compute the right hand side of a differential equation with Lipschitz constant L: on states within E of a smooth solution they give tendencies within L E + e of its derivative. Then a run of n steps of a new Leapfrog, with the asselin_strength nu and Williams' alpha between 0 and 1, in exact or rounded arithmetic, ends within (1 + 2 dt L)^n times (the initial error plus the sum of the errors of the steps) of the solution. Exact runs from exact values over a time T have an error of at most exp(2 L T) times a constant of the solution times (dt^2 + nu dt): second order without the filter, first order with a general one. With the default alpha = 1/2, which keeps the sums of the values alone, the error is of second order in spite of the filter as long as 2 dt L is at most nu.", "quantifier": "for all components (with any world), solutions with bounded derivatives up to the third, initial states, timesteps of either sign, numbers of steps, filter strengths and alphas in [0,1], rounding functions of any relative accuracy, unit conversions, input and output properties, and operations between the steps that leave the quantities alone", "why_tests_cant": "Tests check single steps for fixed tendencies. That leapfrog steps started by one Euler step and filtered every step approach the solution, with an order that depends on alpha, for every right hand side, timestep and number of steps, is a statement of analysis.", "anchors": ["sympl/_components/timesteppers.py:Leapfrog._call", "sympl/_components/timesteppers.py:step_leapfrog", "sympl/_components/timesteppers.py:step_forward_euler"]}
{"id": "C118", "title": "AdamsBashforth runs with a component in an UpdateFrequencyWrapper follow its differential equation", "statement": "Let a component compute the right hand side of a differential equation as in C115, and let it be given to a new AdamsBashforth in a new UpdateFrequencyWrapper with the time delta between updates. Then a run of n steps in exact or rounded arithmetic ends within the bound of C115 with the additional error D2 delta in the tendencies, D2 a bound for the second derivative of the solution. Exact runs of order 1 or 2 from exact values over a time T have an error of at most exp(20/3 L T) times (that of C115 + 20/3 D2 T delta): of first order in delta, however many steps are taken. More generally the theorem of C115 holds for components that remember things, as long as what they remember is good enough.", "quantifier": "for all components (with or without timestep argument, with any world), solutions with bounded derivatives, initial states, timesteps and update times (not negative), numbers of steps, rounding functions of any relative accuracy, unit conversions, input and output properties, and operations between the steps that advance the time and leave the quantities and units alone", "why_tests_cant": "Tests check which calls reach the wrapped component. That the delayed output only costs accuracy in proportion to the delay, for every component and number of steps, needs the analysis of the run together with the wrapper's memory.", "anchors": ["sympl/_core/wrappers.py:UpdateFrequencyWrapper.__call__", "sympl/_components/timesteppers.py:AdamsBashforth._call", "sympl/_components/timesteppers.py:convert_tendencies_units_for_state"]}
{"id": "C119", "title": "What array_call changes in the state", "statement": "The arrays a component's array_call receives are views of the state exactly for quantities given in the requested units, whose missing requested dims all have length 1, and for which numpy need not copy to merge the dims matched by a wildcard; changing an element of such an array changes the value of the quantity at the named coordinates of the element and nothing else, changes of other arrays and of the tracer array stay out of the state, and what the call returns does not depend on changes made in place.", "quantifier": "every registry, state (also with quantities that share an array), property dictionary, component, list of changes and array_call", "why_tests_cant": "Dims, orders, wildcards, lengths and the sequence of changes are arbitrary; whether memory is shared depends on their combination.", "anchors": ["sympl/_core/get_np_arrays.py:get_numpy_arrays_with_properties", "sympl/_core/backend.py:DataArrayBackend._get_numpy_array", "sympl/_core/wildcard.py:flatten_wildcard_dims", "sympl/_core/units.py:data_array_to_units", "sympl/_core/tracers.py:TracerPacker.pack", "sympl/_core/base_components.py:Stepper.__call__", "sympl/_core/base_components.py:Stepper._insert_tendencies_to_diagnostics", "sympl/_components/basic.py:TimeDifferencingWrapper.__call__"]}
{"id": "C120", "title": "Rounding errors of Leapfrog runs", "statement": "A run of a Leapfrog in floating-point arithmetic stays within a bound of the run in exact arithmetic: k^n E + (1 + k + ... + k^(n-1)) g after n steps from states at most E apart, where k = 1 + 2 dt L for tendencies with Lipschitz constant L, and g is made of the errors with which tendencies are computed and of eleven roundings per step. In exact arithmetic, two runs from states at most E apart stay within k^n E.", "quantifier": "all roundings with a relative error of at most u, all components (computed with any arithmetic, within L E + e of exact ones), all states with values of at most X and tendencies of at most T, all timesteps and numbers of steps, filter strengths and alphas in [0,1], with or without tendencies in diagnostics", "why_tests_cant": "The error of a run is the sum of errors made at every step and multiplied by every later one; a test sees one run with one rounding.", "anchors": ["sympl/_components/timesteppers.py:Leapfrog._call", "sympl/_components/timesteppers.py:step_leapfrog", "sympl/_core/tendencystepper.py:TendencyStepper.__call__"]}
{"id": "C121", "title": "The mean of an ensemble of runs is the run of the mean", "statement": "If the components turn means into means (as those do whose tendencies are affine functions of the state), then a run of AdamsBashforth, SSPRungeKutta or Leapfrog from the weighted mean of several states gives after every number of steps the same weighted mean of the runs from these states: new states, what the stepper remembers, and exceptions. A composite turns means into means if its components do, and a component class if its array_call does, with unit conversions, axes in any order, wildcards and tracers; so do Steppers and DiagnosticComponents.", "quantifier": "all finite ensembles, all weights with sum 1 (negative ones too), all components that turn means into means, all unit registries (conversions with offsets too), orders, filter strengths, alphas, timesteps and numbers of steps, with or without tendencies in diagnostics", "why_tests_cant": "A test compares one ensemble with one mean, after a few steps; a term that is not linear (a filter applied to the wrong state, a unit offset added twice) may vanish for it.", "anchors": ["sympl/_core/tendencystepper.py:TendencyStepper.__call__", "sympl/_components/timesteppers.py:AdamsBashforth._call", "sympl/_components/timesteppers.py:SSPRungeKutta._call", "sympl/_components/timesteppers.py:Leapfrog._call", "sympl/_core/composite.py:ImplicitTendencyComponentComposite.__call__", "sympl/_core/util.py:update_dict_by_adding_another", "sympl/_core/base_components.py:TendencyComponent.__call__", "sympl/_core/base_components.py:Stepper.__call__", "sympl/_core/base_components.py:DiagnosticComponent.__call__"]}
{"id": "C122", "title": "NaN and other bad values stay in their grid cells, and do not go away", "statement": "Time steppers carry nothing from one point of the grid to another: if two states agree outside a region and the components carry nothing out of it, then after any number of steps of AdamsBashforth, SSPRungeKutta or Leapfrog the states, diagnostics and memories agree outside it, or both runs end with the same exception, whatever the elements of the arrays are and whatever the operations on them do (rounding, overflow, infinities, NaN). Composites of such components, and such components in an UpdateFrequencyWrapper, ScalingWrapper or TimeDifferencingWrapper, carry nothing out of it either. And a value such as NaN that every operation hands on is, after any number of steps, at every point of every quantity where it was, whatever the components do.", "quantifier": "all types of elements with all operations on them, all regions of the grid, all components that carry nothing out of the region (for the second part: all components), all states, orders, filter strengths, alphas, timesteps and numbers of steps, with or without tendencies in diagnostics", "why_tests_cant": "Tests use finite numbers and compare whole arrays; that no element influences another one, for every shape, broadcast and number of steps, and for numbers that are rounded, is a statement about all pairs of runs.", "anchors": ["sympl/_core/tendencystepper.py:TendencyStepper.__call__", "sympl/_components/timesteppers.py:AdamsBashforth._call", "sympl/_components/timesteppers.py:SSPRungeKutta._call", "sympl/_components/timesteppers.py:Leapfrog._call", "sympl/_core/dataarray.py:DataArray.__add__", "sympl/_core/dataarray.py:DataArray.__sub__", "sympl/_core/dataarray.py:DataArray.to_units", "sympl/_core/units.py:data_array_to_units", "sympl/_core/wrappers.py:ScalingWrapper.__call__", "sympl/_core/wrappers.py:UpdateFrequencyWrapper.__call__", "sympl/_components/basic.py:TimeDifferencingWrapper.__call__"]}
{"id": "C123", "title": "Runs do not depend on the date on which they start", "statement": "If the date does not matter to the components, a run of AdamsBashforth, SSPRungeKutta or Leapfrog that starts at another time takes the same steps: after any number of steps the state is that of the other run with its time moved, the stepper remembers the same, or both runs end with the same exception. The date does not matter to composites of such components, nor to such components in a ScalingWrapper, such Steppers in a TimeDifferencingWrapper, nor such components in an UpdateFrequencyWrapper, whose time of the last update is moved as well.", "quantifier": "all kinds of arrays and arithmetic, all differences of time (negative ones too), all components to which the date does not matter, all states, orders, filter strengths, alphas, intervals of UpdateFrequencyWrappers, timesteps, numbers of steps and stages of a run, with or without tendencies in diagnostics", "why_tests_cant": "Tests start at one date; whether some step compares times absolutely instead of with the last update, or keeps an old time, shows only in a comparison of two runs.", "anchors": ["sympl/_core/tendencystepper.py:TendencyStepper.__call__", "sympl/_components/timesteppers.py:AdamsBashforth._call", "sympl/_components/timesteppers.py:SSPRungeKutta._call", "sympl/_components/timesteppers.py:Leapfrog._call", "sympl/_core/composite.py:ImplicitTendencyComponentComposite.__call__", "sympl/_core/wrappers.py:UpdateFrequencyWrapper.__call__", "sympl/_core/wrappers.py:ScalingWrapper.__call__", "sympl/_components/basic.py:TimeDifferencingWrapper.__call__"]}
{"id": "C124", "title": "Time steppers raise the documented exceptions", "statement": "Every exception of a call of AdamsBashforth, SSPRungeKutta or Leapfrog was raised by one of its components, or is InvalidStateError (tendencies of one quantity without units), UndefinedUnitError (pint), KeyError, ValueError (a changed timestep, units, lengths), AttributeError or RuntimeError (a diagnostic of the name of a tendency), and Leapfrog raises SharedKeyError if a diagnostic is in the state at the start of the timestep.", "quantifier": "all components, states, memories of the stepper, timesteps, types of elements, with or without tendencies in diagnostics", "why_tests_cant": "A list of exceptions is complete only if no input leads to another one; tests provoke one exception at a time.", "anchors": ["sympl/_components/timesteppers.py:AdamsBashforth._call", "sympl/_components/timesteppers.py:Leapfrog._call", "sympl/_components/timesteppers.py:SSPRungeKutta._call", "sympl/_core/tendencystepper.py:TendencyStepper.__call__", "sympl/_core/composite.py:ImplicitTendencyComponentComposite.__call__", "sympl/_core/util.py:update_dict_by_adding_another"]}
{"id": "C125", "title": "Passive quantities influence nothing", "statement": "If the components take the tendencies and diagnostics of all other quantities without looking at some quantities (a dye, a passive tracer, a diagnostic kept in the state), then those quantities have no influence on the others in runs of AdamsBashforth, SSPRungeKutta and Leapfrog: two runs that start from states which differ only in their values have, after any number of steps, the same values of all other quantities, the same memories of them, and the same tendencies of them in the diagnostics, or both end with the same exception. Composites of such components, and such components in an UpdateFrequencyWrapper, ScalingWrapper or TimeDifferencingWrapper, do not look at them either.", "quantifier": "all sets of names of passive quantities (with the names of their tendencies), all types of elements with all operations on them, all components for which they are passive, all states, orders, filter strengths, alphas, timesteps and numbers of steps, with or without tendencies in diagnostics", "why_tests_cant": "Non-interference compares two runs for every value of the passive quantities; a test that runs one state cannot see a stepper mixing the entries of dictionaries, and one that compares two runs sees it for one pair only.", "anchors": ["sympl/_core/tendencystepper.py:TendencyStepper.__call__", "sympl/_core/tendencystepper.py:TendencyStepper._insert_tendencies_to_diagnostics", "sympl/_components/timesteppers.py:AdamsBashforth._call", "sympl/_components/timesteppers.py:SSPRungeKutta._call", "sympl/_components/timesteppers.py:Leapfrog._call", "sympl/_core/composite.py:ImplicitTendencyComponentComposite.__call__", "sympl/_core/wrappers.py:UpdateFrequencyWrapper.__call__", "sympl/_core/wrappers.py:ScalingWrapper.__call__", "sympl/_components/basic.py:TimeDifferencingWrapper.__call__"]}
{"id": "C126", "title": "Leapfrog runs with components in UpdateFrequencyWrappers follow the differential equation", "statement": "If the components of a Leapfrog compute the right hand side of a differential equation with Lipschitz constant L, and are in an UpdateFrequencyWrapper with the time delta between updates, then runs of n steps from exact values, in exact arithmetic over the time T, stay within exp(2 L T) (nu D2/2 T dt + (D2/2 + D3/3 T) dt^2 + 2 D2 T delta) of the solution, where D2 and D3 bound its second and third derivatives: the error of Leapfrog without the wrapper (C117), and an error of first order in delta. In rounded arithmetic the same holds with the rounding errors of C117.", "quantifier": "all components (explicit or implicit), solutions with bounded derivatives up to the third, timesteps, times between updates, numbers of steps, filter strengths and alphas in [0,1], roundings of any relative accuracy, unit conversions, and operations between the steps that advance the time and leave the quantities and their units alone", "why_tests_cant": "Tests of the wrapper count calls. That tendencies held for a while between leapfrog steps lead to an error which does not grow with the number of steps, for every right hand side, is a statement of analysis on all runs.", "anchors": ["sympl/_core/wrappers.py:UpdateFrequencyWrapper.__call__", "sympl/_components/timesteppers.py:Leapfrog._call", "sympl/_components/timesteppers.py:step_leapfrog", "sympl/_core/tendencystepper.py:TendencyStepper.__call__"]}
{"id": "C127", "title": "SSPRungeKutta with components in an UpdateFrequencyWrapper takes Euler steps", "statement": "A call of an SSPRungeKutta with two or three stages whose components are in an UpdateFrequencyWrapper with a positive time between updates calls them at most once, in its first stage, because the stages have the same time: it returns the diagnostics of that stage and, in exact arithmetic, the values of a step of Euler's method, whatever the number of stages. Runs of n steps over the time T with a component that computes the right hand side of a differential equation with Lipschitz constant L end within exp(L T) D2 T (dt/2 + delta) of the solution, where D2 bounds its second derivative: first order in the timestep and in the time delta between updates.", "quantifier": "all components (explicit or implicit), states, caches, timesteps, times between updates, both numbers of stages, solutions with a bounded second derivative, numbers of steps, unit conversions, with or without tendencies in diagnostics, and operations between the steps that advance the time and leave the quantities and their units alone", "why_tests_cant": "Tests of the wrapper and of the stepper are separate. That their combination lowers the order to one for every component and state, and still follows the solution, is a statement on all runs of both.", "anchors": ["sympl/_core/wrappers.py:UpdateFrequencyWrapper.__call__", "sympl/_components/timesteppers.py:SSPRungeKutta._call", "sympl/_components/timesteppers.py:SSPRungeKutta._step_2_stages", "sympl/_components/timesteppers.py:SSPRungeKutta._step_3_stages"]}
{"id": "C128", "title": "Components of one run may be updated at different frequencies", "statement": "Let a time stepper (AdamsBashforth of order 1 or 2, or Leapfrog) have several components, each in an UpdateFrequencyWrapper of its own with the time delta_i between its updates (0: updated in every step). If each component computes its part of the right hand side of a differential equation, with Lipschitz constant L_i, and the parts add up to the derivative of the solution, then runs from exact values over the time T in exact arithmetic stay within exp(c T sum L_i) (e + c T sum D_i2 delta_i) of the solution, where e is the error of the stepper without wrappers (C115, C117), D_i2 bounds the derivative of the i-th part and c is 20/3 for AdamsBashforth and 2 for Leapfrog: each component adds an error of first order in its own delta, and those updated in every step add none. AdamsBashforth of any order stays within the bound of C115 with the additional error sum D_i2 delta_i in the tendencies. The components may return tendencies in any units of the same dimensions.", "quantifier": "all numbers of components, explicit and implicit, with any memory of their own; all solutions and parts with bounded derivatives, timesteps, times between updates, numbers of steps, filter strengths and alphas in [0,1], unit registries in which units per second have no offset, and operations between the steps that advance the time and leave the quantities and their units alone", "why_tests_cant": "Tests of the wrapper count calls of one component. How tendencies of different ages, added up by the composite in different units, influence the accuracy of the run is a statement on all runs of all components.", "anchors": ["sympl/_core/wrappers.py:UpdateFrequencyWrapper.__call__", "sympl/_core/composite.py:ImplicitTendencyComponentComposite.__call__", "sympl/_components/timesteppers.py:AdamsBashforth._call", "sympl/_components/timesteppers.py:Leapfrog._call"]}
{"id": "C129", "title": "SSPRungeKutta is of first order when tendencies depend on the time", "statement": "SSPRungeKutta computes all stages of a step for the time at which the step begins. Let the components compute the right hand side of a differential equation that may depend on the time: on states within E of a smooth solution at the time of the state they give tendencies within L E of its derivative at that time. Then runs with two or three stages from exact values over a time T, in exact arithmetic, end within exp(L T) T dt (D2/2 + L D1 (1/2 + dt L/6)) of the solution, D1 and D2 bounding its first and second derivatives. No better order holds: with tendencies that depend on the time alone SSPRungeKutta is the rectangle rule, every step adding the timestep times the tendency at its beginning, and with the tendency 2 t every run succeeds and is off the solution T^2 by exactly T dt.", "quantifier": "all components, solutions with two bounded derivatives, timesteps, numbers of steps, both numbers of stages, unit registries, and operations between the steps that advance the time and leave the quantities alone", "why_tests_cant": "Tests of Runge-Kutta steppers use right hand sides that depend on the state only, for which the order is that of the scheme (C116); that the order drops to one with, say, a diurnal cycle shows only in the limit of short timesteps.", "anchors": ["sympl/_components/timesteppers.py:SSPRungeKutta._call", "sympl/_components/timesteppers.py:SSPRungeKutta._step_2_stages", "sympl/_components/timesteppers.py:SSPRungeKutta._step_3_stages", "sympl/_core/tendencystepper.py:TendencyStepper.__call__"]}
{"id": "C130", "title": "SSPRungeKutta with components updated at different frequencies", "statement": "Let any number of components, each in its own UpdateFrequencyWrapper with its own time delta_i between updates (zero for components that are not wrapped), compute parts of the right hand side of a differential equation, which may depend on the time: on states within E of a smooth solution at the time of the state, component i gives tendencies within L_i E of the derivative of its part, and the derivatives of the parts add up to that of the solution. Then a run of a new SSPRungeKutta with two or three stages from exact values over a time T, in exact arithmetic, ends within exp(L T) T (dt (D2/2 + L D1 (1/2 + dt L/6)) + (1 + dt L/2 + (dt L)^2/6) sum_i D2_i delta_i) of the solution, where L is the sum of the L_i and D2_i bounds the second derivative of part i: the error without wrappers (C129) and for each component an error of first order in its own time between updates. Components with a time between updates that is not zero give the tendencies of the first stage in the later stages of a step; the others are computed for every stage.", "quantifier": "all finite collections of components, their parts, times between updates, solutions with two bounded derivatives, timesteps, numbers of steps, both numbers of stages, unit registries, and operations between the steps that advance the time and leave the quantities alone", "why_tests_cant": "The caches of the wrappers are shared between the stages of a step and between steps, and are filled from states of different accuracy; a stage state must not stay in the cache of a component that is held over several steps. Tests compare a few runs with fixed frequencies.", "anchors": ["sympl/_components/timesteppers.py:SSPRungeKutta._call", "sympl/_core/wrappers.py:UpdateFrequencyWrapper.__call__", "sympl/_core/composite.py:ImplicitTendencyComponentComposite.__call__"]}
{"id": "C131", "title": "The delay by UpdateFrequencyWrapper is an error of first order, and no less", "statement": "The bounds of C126, C127, C128 and C130 for runs with components in UpdateFrequencyWrappers, which are of first order in the time between updates, cannot be of a better order, however short the timestep: with AdamsBashforth of order 1 or SSPRungeKutta with two or three stages, and a component with the tendency 2 t in a wrapper whose time between updates delta is m timesteps, from 0 at the time 0, every run over N intervals succeeds and ends at T^2 - T delta, T = N delta, which is off the solution T^2 by exactly T delta, for every m. The same holds of Leapfrog without filter for every even m.", "quantifier": "all timesteps greater than zero, numbers m >= 1 of timesteps between updates (even ones for Leapfrog), numbers of intervals, the four steppers, and unit registries", "why_tests_cant": "That shorter timesteps do not reduce the error is a statement about the limit; a test has a few timesteps.", "anchors": ["sympl/_core/wrappers.py:UpdateFrequencyWrapper.__call__", "sympl/_components/timesteppers.py:AdamsBashforth._call", "sympl/_components/timesteppers.py:SSPRungeKutta._step_2_stages", "sympl/_components/timesteppers.py:SSPRungeKutta._step_3_stages", "sympl/_components/timesteppers.py:Leapfrog._call"]}
