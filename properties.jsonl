{"id": "C01", "title": "Sync lazy field: one successful build per empty period", "statement": "For a lazy field of a sync struct shared by any number of threads, the user's builder never runs while the field holds a value and never runs twice at the same time; between two builder runs that returned a value there is always a clear that emptied the field.", "quantifier": "every number of threads, every mix of accessor / get_mut / setter / writer / clearer / predicate / clone calls, every interleaving, every builder outcome (value, Err, panic)", "why_tests_cant": "the race window is a few instructions between the emptiness check, the lock upgrade and the second check; a test samples a handful of schedules", "anchors": ["fieldx/src/sync/fxproxy.rs: FXProxySync::read_or_init", "fieldx/src/sync/fxproxy.rs: FXProxySync::clear_with_lock", "fieldx/src/sync/fxproxy.rs: FXWrLockGuardSync::store"]}
{"id": "C02", "title": "Sync lazy field is linearizable, including the lock-free predicate", "statement": "Every concurrent history of calls on a sync lazy field gives the answers some one-at-a-time order of those calls would give on a plain optional cell with build-on-read, and in that order each call sits between its start and its return. This includes the predicate, which takes no lock.", "quantifier": "every concurrent execution of unbounded length with an unbounded number of calls", "why_tests_cant": "linearizability is a statement about all interleavings; the predicate reads an atomic flag which for a moment disagrees with the stored value inside a writer's critical section", "anchors": ["fieldx/src/sync/fxproxy.rs: FXProxySync::{read,read_mut,try_read,try_read_mut,lazy_init,write,clear,is_set}", "fieldx/src/sync/fxproxy.rs: FXWrLockGuardSync::{store,clear}"]}
{"id": "C03", "title": "Sync predicate agrees with the value", "statement": "Whenever no call is inside an exclusive section of the field, the predicate answers true exactly if the field holds a value; while anyone holds a read guard the predicate answers true.", "quantifier": "every reachable state of every concurrent execution", "why_tests_cant": "the flag and the value are two separate memory cells updated in different orders by build, store and clear", "anchors": ["fieldx/src/sync/fxproxy.rs: FXProxySync::is_set", "fieldx/src/sync/fxproxy.rs: FXProxySync::new_default", "fieldx/src/sync/fxproxy.rs: FXProxySync::clear_with_lock", "fieldx/src/sync/fxproxy.rs: FXWrLockGuardSync::store"]}
{"id": "C04", "title": "A read guard shows one value", "statement": "From the moment an accessor of a sync lazy field returns a guard until the guard is dropped, every dereference yields the same value, and that value is the one the field held when the guard was obtained; no exclusive guard coexists with it.", "quantifier": "every execution, every guard, every pair of dereferences", "why_tests_cant": "needs every interleaving of other threads between the two dereferences", "anchors": ["fieldx/src/sync/fxproxy.rs: FXProxySync::read", "fieldx/src/sync/fxproxy.rs: FXProxySync::try_read", "fieldx/src/sync/fxproxy.rs: FXProxySync::read_or_init"]}
{"id": "C05", "title": "A failed or panicking builder leaves no trace", "statement": "If the builder of a sync lazy field returns Err or panics, the field is still empty, the predicate is false, no lock stays held by that call, and a later accessor runs the builder again.", "quantifier": "every execution and every point of failure", "why_tests_cant": "a crash point inside a critical section combined with arbitrary concurrent calls", "anchors": ["fieldx/src/sync/fxproxy.rs: FXProxySync::read_or_init", "fieldx/src/sync/fxproxy.rs: FXProxySync::{try_read,try_read_mut,read,read_mut}"]}
{"id": "C06", "title": "Errors of fallible accessors come from this call's own builder run", "statement": "A fallible accessor returns Err(e) only if the builder, run by this very call, returned Err(e); one call runs the builder at most once; a call that finds a value returns it without running the builder.", "quantifier": "every execution, every call, every error value", "why_tests_cant": "another thread may build, fail, clear or set between this call's check and its build", "anchors": ["fieldx/src/sync/fxproxy.rs: FXProxySync::{read_or_init,try_read,try_read_mut}", "fieldx/src/sync/fxproxy.rs: FXBuilderFallible::invoke"]}
{"id": "C07", "title": "Writer, setter, clearer, predicate and clone never run the builder", "statement": "Obtaining the writer guard, storing through it, calling the setter, the clearer, the predicate, comparing or cloning never invokes the lazy builder of the field, whatever its state.", "quantifier": "every execution and every call of those kinds", "why_tests_cant": "holds for all states and interleavings, not for the sampled ones", "anchors": ["fieldx/src/sync/fxproxy.rs: FXProxySync::{write,clear,is_set,clone,eq}", "fieldx/src/sync/fxproxy.rs: FXWrLockGuardSync::{store,clear}", "fieldx_derive/src/codegen/sync.rs: field_setter/field_clearer/field_predicate"]}
{"id": "C08", "title": "A sync lazy field cannot wedge", "statement": "If no user guard on the field is outstanding and no builder is running, then any unfinished calls on the field can take a step; and without new calls every schedule of those steps finishes all of them after a bounded number of steps.", "quantifier": "every reachable state, every schedule of the remaining calls", "why_tests_cant": "absence of deadlock and livelock over all states cannot be observed by running", "anchors": ["fieldx/src/sync/fxproxy.rs: FXProxySync::read_or_init (upgrade/downgrade)", "fieldx/src/sync/fxproxy.rs: FXProxySync::{read,read_mut,write,clear}"]}
{"id": "C09", "title": "Values are neither lost nor duplicated", "statement": "Each value that a builder produced or a setter stored into a sync lazy field is at any time in exactly one place: still in the field, or handed out once as the result of a clear or of the store that replaced it (or overwritten in place through a get_mut guard).", "quantifier": "every concurrent execution", "why_tests_cant": "conservation across all interleavings of store, clear and build", "anchors": ["fieldx/src/sync/fxproxy.rs: FXWrLockGuardSync::{store,clear}", "fieldx/src/sync/fxproxy.rs: FXProxySync::{clear,read_or_init}"]}
{"id": "C10", "title": "Clone is a consistent snapshot", "statement": "Cloning a sync lazy field concurrently with writers gives a container whose predicate agrees with its content, whose content is a value the original held at some moment during the clone call, and later operations on either do not affect the other.", "quantifier": "every concurrent execution", "why_tests_cant": "clone copies two cells in two steps", "anchors": ["fieldx/src/sync/fxproxy.rs: impl Clone for FXProxySync"]}
{"id": "C11", "title": "Async lazy field: single initialisation under cancellation", "statement": "For an async lazy field, whatever tasks run and wherever any of them is cancelled (dropped at an await point), the builder never runs while a value is present, no two builder runs overlap, and between two completed builds there is a clear.", "quantifier": "every number of tasks, every schedule, every set of cancellation points, every builder outcome", "why_tests_cant": "the product of schedules and cancellation points is infinite", "anchors": ["fieldx/src/async/fxproxy.rs: FXProxyAsync::read_or_init", "fieldx/src/async/fxproxy.rs: FXProxyAsync::{write,clear}"]}
{"id": "C12", "title": "Async lazy field is linearizable under cancellation", "statement": "Every concurrent history of calls on an async lazy field, with any of them cancelled at any await point, matches a one-at-a-time order on an optional cell with build-on-read where a cancelled call either took effect completely or not at all.", "quantifier": "every execution with arbitrary cancellations", "why_tests_cant": "same as above", "anchors": ["fieldx/src/async/fxproxy.rs: FXProxyAsync::*", "fieldx/src/async/fxproxy.rs: FXWrLockGuardAsync::{store,clear}"]}
{"id": "C13", "title": "Cancelled, failed or panicked async build leaves no trace", "statement": "If the task running an async builder is cancelled, or the builder returns Err or panics, the field stays empty, the predicate stays false, the lock is free of that task, and the next accessor runs the builder again.", "quantifier": "every execution, every cancellation point", "why_tests_cant": "crash points times schedules", "anchors": ["fieldx/src/async/fxproxy.rs: FXProxyAsync::read_or_init"]}
{"id": "C14", "title": "Reading a field again while holding its read guard", "statement": "While a task or thread holds the guard returned by the accessor of an initialised lazy field and nobody is waiting to write, another accessor call on that field can complete. (True for sync fields. False for async fields: the accessor always takes the write lock first, so a second read in the same task blocks for ever.)", "quantifier": "every reachable state with outstanding read guards and a set value", "why_tests_cant": "a hang is not observable as a failed assertion and depends on what else holds a guard", "anchors": ["fieldx/src/sync/fxproxy.rs: FXProxySync::read_or_init", "fieldx/src/async/fxproxy.rs: FXProxyAsync::read_or_init", "fieldx/src/async/fxproxy.rs: FXProxyAsync::read"]}
{"id": "C15", "title": "Acyclic lazy dependencies never deadlock", "statement": "In a sync struct whose lazy builders read other fields of the same object, if the dependencies have no cycle and no guard is kept while another field is read, then no set of threads calling accessors, clearers, setters and get_mut can deadlock. Keeping a guard of one field while reading another can deadlock even with acyclic dependencies, and a builder that reads its own field blocks for ever.", "quantifier": "every struct with any number of lazy fields, every acyclic dependency relation, any number of threads, every schedule", "why_tests_cant": "deadlock needs particular overlaps of builder runs on several threads", "anchors": ["fieldx/src/sync/fxproxy.rs: FXProxySync::read_or_init (builder invoked under the write lock)", "fieldx_derive/src/codegen/sync/impl_sync.rs: lazy_builder/lazy_wrapper_fn"]}
{"id": "C16", "title": "Lazy values do not depend on the schedule", "statement": "If lazy builders are deterministic functions of the fields they read, the dependencies are acyclic and nobody sets or clears, then whatever threads read whichever fields in whatever interleaving, each field ends up with the value a single-threaded evaluation gives, and each builder runs at most once.", "quantifier": "every dependency graph, every builder function, every schedule", "why_tests_cant": "determinism over all schedules", "anchors": ["fieldx/src/sync/fxproxy.rs: FXProxySync::read_or_init", "fieldx_derive/src/codegen/sync.rs: field_reader_method"]}
{"id": "C17", "title": "Plain lazy field behaves as build-on-read optional cell", "statement": "For a lazy field of a plain struct, any sequence of accessor, get_mut, setter, clearer and predicate calls gives the results of an optional cell with build-on-read: the setter and the clearer return the previous content, the predicate tells whether there is content, an Err of the builder leaves the cell empty.", "quantifier": "every finite sequence of calls, every builder behaviour over time", "why_tests_cant": "unbounded histories", "anchors": ["fieldx_derive/src/codegen/plain.rs: field_accessor/field_accessor_mut/field_setter/field_clearer/field_predicate/field_lazy_initializer"]}
{"id": "C18", "title": "Plain and sync structs agree on sequential programs", "statement": "A program that uses a lazy field from one thread, not keeping guards, observes the same results whether the struct is declared plain, sync or async.", "quantifier": "every sequence of calls, every builder behaviour", "why_tests_cant": "unbounded histories; three different container implementations", "anchors": ["fieldx_derive/src/codegen/plain.rs", "fieldx_derive/src/codegen/sync.rs", "fieldx/src/sync/fxproxy.rs", "fieldx/src/async/fxproxy.rs"]}
{"id": "C19", "title": "Inner-mutability borrows: panic exactly on conflict", "statement": "For an inner_mut field of a plain struct, a helper call panics exactly if it needs exclusive access while some guard is alive, or shared access while a mutable guard is alive; otherwise the helpers act on an ordinary cell, and after a panic the field is unchanged.", "quantifier": "every sequence of helper calls and guard drops", "why_tests_cant": "unbounded histories of overlapping guards", "anchors": ["fieldx_derive/src/codegen/plain.rs: field_accessor/field_accessor_mut/field_setter/field_clearer/field_predicate (RefCell)"]}
{"id": "C20", "title": "Field-level arguments override struct-level ones", "statement": "For each helper, an argument given on the field decides whether and how the helper is generated; otherwise the struct-level argument decides; otherwise the documented default. In particular field-level off disables and field-level presence enables regardless of the struct.", "quantifier": "every combination of field-level and struct-level arguments", "why_tests_cant": "the space of argument combinations is a large product; tests sample a few structs", "anchors": ["fieldx_derive/src/ctx/field.rs: FXFieldCtx::needs_*", "fieldx_derive/src/fields.rs: FXFieldReceiver::needs_*", "fieldx_derive/src/util/args.rs: FXSArgs::needs_*", "fieldx_derive/src/util.rs: needs_helper!"]}
{"id": "C21", "title": "Copy and clone modes of accessors are resolved consistently", "statement": "An accessor is never both in copy and in clone mode, and the plain and the sync generators choose the same mode for the same arguments.", "quantifier": "every combination of copy/clone/get(copy|clone|as_ref) at both levels", "why_tests_cant": "product of argument combinations", "anchors": ["fieldx_derive/src/ctx/field.rs: FXFieldCtx::{is_copy,is_clone,accessor_mode}", "fieldx_aux/src/accessor_helper.rs: FXAccessorHelper::mode"]}
{"id": "C22", "title": "Field mode resolution", "statement": "A field declared with a mode of its own (sync, async or plain) is generated in that mode whatever the struct says; a field without one follows the struct.", "quantifier": "every combination of mode arguments at both levels", "why_tests_cant": "product of argument combinations", "anchors": ["fieldx_derive/src/ctx/field.rs: FXFieldCtx::{is_sync,is_async}", "fieldx_derive/src/fields.rs: FXFieldReceiver::{is_sync,is_async,is_plain}", "fieldx_derive/src/util/args.rs: FXSArgs::{is_sync,is_async}", "fieldx_derive/src/codegen.rs: FXRewriter::field_codegen"]}
{"id": "C23", "title": "Declared container type matches every generated initializer", "statement": "For each field the type written into the struct declaration and the expressions generated for Default, for the builder, and for conversion from the serde shadow describe the same wrapping, so that accepted attribute combinations produce code that type-checks.", "quantifier": "every combination of field attributes (lazy, optional, inner_mut, lock, skip, default, builder, required; plain, sync, async)", "why_tests_cant": "thousands of combinations; an ill-typed one shows only when somebody writes it", "anchors": ["fieldx_derive/src/codegen/plain.rs: type_tokens/field_value_wrap/field_builder_setter", "fieldx_derive/src/codegen/sync.rs: type_tokens/field_value_wrap/field_builder_setter", "fieldx_derive/src/codegen/codegen_trait.rs: field_default_value/field_builder_value_for_set"]}
{"id": "C24", "title": "Generated helpers obey the cell laws in every configuration", "statement": "For every accepted combination of attributes, after the setter stored v the accessor yields v; the setter returns the previous content; the clearer returns the content and empties the field; the predicate is true exactly if there is content.", "quantifier": "every accepted attribute combination, every state of the field, every value", "why_tests_cant": "thousands of combinations times all states", "anchors": ["fieldx_derive/src/codegen/plain.rs", "fieldx_derive/src/codegen/sync.rs"]}
{"id": "C25", "title": "The predicate reports presence", "statement": "The generated predicate of an optional or lazy field is true exactly if the field holds a value.", "quantifier": "every accepted attribute combination and every state", "why_tests_cant": "depends on attributes that have nothing to do with the predicate, such as a struct-level fallible", "anchors": ["fieldx_derive/src/codegen/sync.rs: field_predicate/read_method_name", "fieldx_derive/src/codegen/plain.rs: field_predicate"]}
{"id": "C26", "title": "Boolean shorthand of helpers keeps its meaning", "statement": "Turning a boolean into a helper argument and back is the identity, so implied helpers are enabled when implied and disabled when not.", "quantifier": "both booleans and every use", "why_tests_cant": "a conversion used implicitly; its result shows only through generated code", "anchors": ["fieldx_aux/src/base_helper.rs: impl From<bool> for FXBaseHelper", "fieldx_derive/src/fields.rs: FXFieldReceiver::mark_implicitly"]}
{"id": "C27", "title": "build() fails exactly on a missing required field", "statement": "build() returns an error exactly if some required field has no value; the error names the first such field in declaration order; and the failed build leaves everything already set in the builder, so that adding the missing values makes it succeed.", "quantifier": "every struct (any number of fields), every set of builder calls", "why_tests_cant": "unbounded number of fields and of histories", "anchors": ["fieldx_derive/src/codegen.rs: FXRewriter::builder_impl", "fieldx_derive/src/codegen/codegen_trait.rs: field_builder_value_required"]}
{"id": "C28", "title": "Built object contains what was set", "statement": "After a successful build each field holds the last value given to its setter, or else its declared default, or else is empty (lazy, optional); setters of different fields commute and the order of calls is irrelevant apart from the last-wins rule.", "quantifier": "every struct, every sequence of builder calls", "why_tests_cant": "unbounded sequences and structs", "anchors": ["fieldx_derive/src/codegen/plain.rs: field_builder_setter", "fieldx_derive/src/codegen/sync.rs: field_builder_setter", "fieldx_derive/src/codegen/codegen_trait.rs: field_builder/field_builder_value_for_set"]}
{"id": "C29", "title": "Using a builder again", "statement": "build() moves the values out: a second build() without new values fails if the struct has a required field, and otherwise gives an object made of defaults and empty fields only.", "quantifier": "every struct and history", "why_tests_cant": "unbounded histories", "anchors": ["fieldx_derive/src/codegen.rs: builder_impl (build(&mut self) with take())"]}
{"id": "C30", "title": "build() never panics", "statement": "Whatever was or was not set in the builder, build() returns Ok or Err and does not panic.", "quantifier": "every accepted attribute combination, every struct, every builder state", "why_tests_cant": "attribute combinations", "anchors": ["fieldx_derive/src/codegen/codegen_trait.rs: field_builder_value_for_set (take().unwrap())/field_builder_value_required", "fieldx_derive/src/ctx/field.rs: forced_builder/needs_builder"]}
{"id": "C31", "title": "A required field can be supplied", "statement": "For every struct with a builder there is a sequence of builder calls after which build() succeeds: each field whose absence is an error has a setter.", "quantifier": "every accepted attribute combination and struct", "why_tests_cant": "attribute combinations", "anchors": ["fieldx_derive/src/ctx/field.rs: is_builder_required/needs_builder/forced_builder", "fieldx_derive/src/codegen/codegen_trait.rs: field_builder"]}
{"id": "C32", "title": "Serde round trip", "statement": "Serialising an object and deserialising the result gives an object where every field that is both serialised and deserialised has the content it had after serialisation (lazy fields included, which serialisation initialises), and every other field has its default.", "quantifier": "every struct (any number of fields), every combination of serde attributes, every content", "why_tests_cant": "unbounded", "anchors": ["fieldx_derive/src/codegen/serde.rs: serde_struct_from_shadow/serde_struct_into_shadow", "fieldx_derive/src/codegen/plain.rs: field_from_shadow/field_from_struct", "fieldx_derive/src/codegen/sync.rs: field_from_shadow/field_from_struct"]}
{"id": "C33", "title": "Serialisation initialises lazy fields before the move", "statement": "The serialised form contains for each serialised lazy field its content or, if empty, what its builder gives when run on the object with all fields still in place; builders see no moved-out field.", "quantifier": "every struct, every dependency between builders", "why_tests_cant": "depends on the order of statements for all field orders", "anchors": ["fieldx_derive/src/codegen/serde.rs: serde_struct_into_shadow"]}
{"id": "C34", "title": "Serialisation of a failing lazy field", "statement": "If a fallible lazy builder fails during serialisation the failure is not lost.", "quantifier": "every object with a fallible lazy field", "why_tests_cant": "error path inside generated conversion", "anchors": ["fieldx_derive/src/codegen/serde.rs: serde_struct_into_shadow", "fieldx/src/sync/fxproxy.rs: FXProxySync::lazy_init"]}
{"id": "C35", "title": "Field missing from the input takes its default on deserialisation", "statement": "When a deserialisable field is missing from the input, it gets its serde default if there is one, else its declared default, else (lazy/optional) is empty; the same for plain and sync structs.", "quantifier": "every struct and every set of present keys", "why_tests_cant": "product of attributes and key subsets", "anchors": ["fieldx_derive/src/codegen/serde.rs: serde_shadow_field_default/serde_field_attribute/serde_shadow_default_fn", "fieldx_derive/src/codegen/plain.rs: field_from_shadow", "fieldx_derive/src/codegen/sync.rs: field_from_shadow"]}
{"id": "C36", "title": "Helper names: no accidental clash for one kind", "statement": "Names generated for the same helper kind of two fields with different base names are different unless an explicit name is given; the name is prefix + base name + suffix with the documented precedence.", "quantifier": "every pair of fields, every struct-level prefix", "why_tests_cant": "all strings", "anchors": ["fieldx_derive/src/codegen/codegen_trait.rs: helper_name", "fieldx_derive/src/helper.rs: FXHelperKind::{default_prefix,default_suffix}"]}
{"id": "C37", "title": "Generated methods of one struct have distinct names", "statement": "Two different generated methods of one struct never have the same name unless the user chose the names explicitly.", "quantifier": "every set of field names and enabled helpers", "why_tests_cant": "all field name pairs, e.g. a field named like another field's helper", "anchors": ["fieldx_derive/src/codegen/codegen_trait.rs: helper_name", "fieldx_derive/src/helper.rs"]}
{"id": "C38", "title": "Visibility of helpers", "statement": "The visibility of a generated helper is decided by the first of: the helper's own argument, the field's argument, the struct-level helper argument, the struct-level argument, the declared visibility; and private wins over public inside one argument. A helper's own visibility argument is always honoured.", "quantifier": "every combination of visibility arguments and helper kinds", "why_tests_cant": "product", "anchors": ["fieldx_derive/src/ctx/field.rs: vis_tok", "fieldx_aux/src/util.rs: public_mode", "fieldx_derive/src/codegen/sync.rs: field_accessor_mut"]}
{"id": "C39", "title": "Conflicting arguments are rejected, compatible ones accepted", "statement": "An argument list is rejected exactly if it sets arguments from two alternatives declared exclusive.", "quantifier": "every set of arguments, every table of exclusive groups", "why_tests_cant": "all subsets", "anchors": ["fieldx_aux/src/util.rs: validate_exclusives!", "fieldx_derive/src/fields.rs: validate_exclusives! use", "fieldx_derive/src/util/args.rs: validate_exclusives! use"]}
{"id": "C40", "title": "Self in default expressions is replaced everywhere", "statement": "After rewriting, a default expression contains no Self at any depth of grouping, all other tokens are kept in order, and expressions without Self are unchanged.", "quantifier": "every token tree", "why_tests_cant": "unbounded nesting", "anchors": ["fieldx_derive/src/codegen/codegen_trait.rs: fixup_self_type"]}
{"id": "C41", "title": "Attribute list splitting", "statement": "A comma separated attribute list is split into exactly its items, each with its tokens in order.", "quantifier": "every token sequence", "why_tests_cant": "all token sequences", "anchors": ["fieldx_aux/src/attributes.rs: FXAttributes parsing"]}
{"id": "C42", "title": "Derives come first, order otherwise kept", "statement": "The attributes of the generated struct are a permutation of the given ones with all derive attributes first and the relative order otherwise kept.", "quantifier": "every list of attributes", "why_tests_cant": "all lists", "anchors": ["fieldx_derive/src/ctx/codegen.rs: FXCodeGenCtx::all_attrs"]}
{"id": "C43", "title": "Generated identifiers are fresh", "statement": "Identifiers that the generator invents within one struct are pairwise different.", "quantifier": "every sequence of requests", "why_tests_cant": "unbounded sequences", "anchors": ["fieldx_derive/src/ctx/codegen.rs: unique_ident_pfx"]}
{"id": "C44", "title": "Reference counted objects know themselves", "statement": "For an rc struct, on any object obtained from new() or build() and reached through a live reference the self reference yields that same object, and lazy accessors do not panic for want of it; a clone or Default-made object does not have this guarantee.", "quantifier": "every history of creating, cloning references and dropping", "why_tests_cant": "unbounded histories of reference counts", "anchors": ["fieldx_derive/src/codegen/codegen_trait.rs: maybe_ref_counted_create/maybe_ref_counted_self", "fieldx_derive/src/codegen.rs: myself_methods/struct_extras"]}
{"id": "C45", "title": "Async: predicate agrees with the value", "statement": "For an async lazy field, whenever nobody has the write lock the lock-free predicate says whether a value is present, and while anyone holds a read or read_mut guard it is true.", "quantifier": "every execution with cancellation", "why_tests_cant": "the predicate is written separately from the value; windows only open under particular interleavings", "anchors": ["fieldx/src/async/fxproxy.rs: FXProxyAsync", "fieldx/src/async/fxproxy.rs: FXWrLockGuardAsync"]}
{"id": "C46", "title": "Async: a read guard shows one value", "statement": "From the return of an async accessor to the drop of its read guard no other call changes the field, every dereference shows the value returned, and no exclusive guard coexists.", "quantifier": "every execution with cancellation, every guard life time", "why_tests_cant": "unbounded interleavings", "anchors": ["fieldx/src/async/fxproxy.rs: FXProxyAsync", "fieldx/src/async/fxproxy.rs: FXWrLockGuardAsync"]}
{"id": "C47", "title": "Async: errors come from this call's own builder run", "statement": "One async accessor call runs the builder at most once; it answers Err(e) only if its own run returned Err(e); a value it returns was found or built by itself in that one run.", "quantifier": "every execution with cancellation", "why_tests_cant": "unbounded interleavings, cancelled neighbours", "anchors": ["fieldx/src/async/fxproxy.rs: FXProxyAsync", "fieldx/src/async/fxproxy.rs: FXWrLockGuardAsync"]}
{"id": "C48", "title": "Async: writers, setters, clearers, predicates and clones never run the builder", "statement": "No call other than an accessor of an async lazy field starts the builder.", "quantifier": "every execution", "why_tests_cant": "absence over all executions", "anchors": ["fieldx/src/async/fxproxy.rs: FXProxyAsync", "fieldx/src/async/fxproxy.rs: FXWrLockGuardAsync"]}
{"id": "C49", "title": "Async: an unused field cannot wedge", "statement": "As long as users drop their guards and builders return or are cancelled, every call on an async lazy field finishes, after a bounded number of steps, whoever is cancelled meanwhile.", "quantifier": "every reachable state, every schedule", "why_tests_cant": "liveness over all schedules", "anchors": ["fieldx/src/async/fxproxy.rs: FXProxyAsync", "fieldx/src/async/fxproxy.rs: FXWrLockGuardAsync"]}
{"id": "C50", "title": "Async: values are neither lost nor duplicated", "statement": "With no call under way the multiset of values put in (initial, built, set, stored, assigned) equals the multiset handed out (cleared, replaced) plus the one inside; cancelled calls neither lose nor duplicate a value.", "quantifier": "every execution with cancellation", "why_tests_cant": "unbounded histories", "anchors": ["fieldx/src/async/fxproxy.rs: FXProxyAsync", "fieldx/src/async/fxproxy.rs: FXWrLockGuardAsync"]}
{"id": "C51", "title": "Async: clone is a consistent snapshot", "statement": "Cloning an async lazy container gives a container equal to a fresh one with the content the original had at one moment between call and return.", "quantifier": "every execution with cancellation", "why_tests_cant": "value and flag are read separately", "anchors": ["fieldx/src/async/fxproxy.rs: FXProxyAsync", "fieldx/src/async/fxproxy.rs: FXWrLockGuardAsync"]}
{"id": "C52", "title": "Self in a default expression denotes the struct", "statement": "Wherever the generator writes a field's default expression - Default of the struct, build(), the conversion from the serde shadow, Default of the shadow - Self in it denotes the user's struct.", "quantifier": "every attribute combination of a field", "why_tests_cant": "the expression is copied into impls of three different types; only some mode/argument combinations go wrong", "anchors": ["fieldx_derive/src/codegen/codegen_trait.rs: fixup_self_type", "fieldx_derive/src/codegen/sync.rs: field_builder_setter/field_default_wrap", "fieldx_derive/src/codegen/plain.rs: field_default_wrap"]}
{"id": "C53", "title": "build() initialises every field of the struct", "statement": "The struct expression written into build() names every field of the struct, so that it compiles.", "quantifier": "every struct with a builder, any fields and attributes", "why_tests_cant": "unbounded lists of fields and attributes", "anchors": ["fieldx_derive/src/codegen.rs: builder_impl", "fieldx_derive/src/codegen/codegen_trait.rs: field_methods/maybe_ref_counted_create"]}
{"id": "C54", "title": "Generated helpers type-check", "statement": "Every helper method written for a field of accepted attributes has a body that type-checks against its own signature and the declared type of the field, provided the bounds the attributes ask for (Copy, Clone, Default) hold.", "quantifier": "every attribute combination of field and struct", "why_tests_cant": "the combinations number in the hundred thousands; the test suite compiles a few dozen", "anchors": ["fieldx_derive/src/codegen/plain.rs", "fieldx_derive/src/codegen/sync.rs", "fieldx_derive/src/codegen/codegen_trait.rs: field_methods"]}
{"id": "C55", "title": "Default::default() contains what was declared", "statement": "The generated Default gives every field, in declaration order and with its declared type, its declared default; a lazy or optional field without one is empty, any other field holds T::default(). It never panics. A builder on which no setter was called builds the same contents, if it builds at all.", "quantifier": "every list of fields, every attribute combination, skipped fields included", "why_tests_cant": "unbounded lists of fields and attributes; wrapping differs with mode, laziness, optionality, lock and inner_mut", "anchors": ["fieldx_derive/src/codegen.rs: default_impl/prepare_field", "fieldx_derive/src/codegen/codegen_trait.rs: field_default/field_default_value", "fieldx_derive/src/codegen/sync.rs: field_default_wrap", "fieldx_derive/src/codegen/plain.rs: field_default_wrap"]}
{"id": "C56", "title": "Which constructor exists, and what it calls exists", "statement": "A constructor function is written exactly when the struct asks for default, or does not switch it off and either does not say no_new, or has a field with a default, or is sync and has a lazy field. It is called new, or __fieldx_new under no_new. The Default implementation it calls is always written with it.", "quantifier": "every struct, any list of fields", "why_tests_cant": "unbounded lists of fields, interplay of default, no_new, mode and lazy fields", "anchors": ["fieldx_derive/src/codegen.rs: struct_extras/default_impl", "fieldx_derive/src/ctx/codegen.rs: needs_default", "fieldx_derive/src/util/args.rs: needs_new"]}
{"id": "C57", "title": "Fields have the documented types", "statement": "Every field gets the type the README's table gives: skipped fields keep theirs; lazy ones become OnceCell, FXProxySync, FXProxyAsync by mode; optional ones Option, in a lock where there is one; locked ones a lock; inner_mut ones of plain structs a RefCell.", "quantifier": "every attribute combination of field and struct", "why_tests_cant": "hundreds of thousands of combinations; precedence of struct and field arguments", "anchors": ["fieldx_derive/src/codegen/plain.rs: type_tokens", "fieldx_derive/src/codegen/sync.rs: type_tokens/maybe_optional_ty/maybe_locked_ty", "fieldx_derive/src/codegen.rs: field_codegen", "README.md: The Inner Workings"]}
{"id": "C58", "title": "Helpers have the documented signatures", "statement": "Receiver, asyncness and return type of every generated helper follow from the type of the field, the accessor mode and fallible alone: &mut self exactly where the field has no interior mutability, async fn exactly where a task has to wait, Result exactly for initialising access to fallible lazy fields, values for copy and clone, Option<&T> for as_ref, guards or references otherwise, the previous content for setters and clearers, bool for predicates.", "quantifier": "every attribute combination of field and struct, every kind of helper", "why_tests_cant": "hundreds of thousands of combinations; return types are assembled from tokens in some thirty branches", "anchors": ["fieldx_derive/src/codegen/plain.rs", "fieldx_derive/src/codegen/sync.rs", "fieldx_derive/src/codegen/codegen_trait.rs: fallible_return_type/maybe_optional", "fieldx_derive/src/lib.rs: documentation of get, get_mut, set, reader, writer, clearer, predicate"]}
{"id": "C59", "title": "Lock-protected fields together behave like plain variables", "statement": "Reading, replacing, comparing, and reading or writing through guards, on any set of lock fields from any number of threads, is linearizable with respect to plain variables; a comparison of two lock fields answers with the equality of two contents that were there at the same time. A panic in user code (clone, eq) affects only the call it happens in.", "quantifier": "every set of lock fields, every number of threads and every interleaving", "why_tests_cant": "interleavings; comparison holds two locks at once", "anchors": ["fieldx/src/sync/fxlock.rs", "fieldx_derive/src/codegen/sync.rs: field_accessor/field_setter/field_reader/field_writer"]}
{"id": "C60", "title": "A guard of a lock field pins its content", "statement": "As long as a thread keeps a reading guard of a lock field, no call of any thread changes the content; a writing guard excludes all other guards of the field, and only its owner changes the content.", "quantifier": "every reachable state, every step of every thread", "why_tests_cant": "needs all interleavings, with guards kept across other calls", "anchors": ["fieldx/src/sync/fxlock.rs", "fieldx_derive/src/codegen/sync.rs: field_reader/field_writer/field_accessor_mut"]}
{"id": "C61", "title": "Calls on lock fields always complete", "statement": "Threads calling accessors, setters, comparisons, readers and writers of lock fields never block each other for ever, as long as every guard that was handed out is dropped.", "quantifier": "every set of lock fields, every number of threads and every interleaving", "why_tests_cant": "deadlocks need unlucky interleavings of a comparison and a waiting setter", "anchors": ["fieldx/src/sync/fxlock.rs: PartialEq/Clone", "fieldx_derive/src/codegen/sync.rs: field_accessor/field_setter"]}
{"id": "C62", "title": "Fields have the documented names in documents", "statement": "In serialised documents a field appears under the name given in its serde argument, else under the name given by rename, else under its own, and is read from there.", "quantifier": "every list of fields and attributes, every content, every document", "why_tests_cant": "unbounded lists of fields; two sources for the name", "anchors": ["fieldx_derive/src/codegen/serde.rs: serde_shadow_struct (field attributes)", "fieldx_derive/src/lib.rs: documentation of rename and serde", "fieldx_aux/src/serde_helper.rs"]}
{"id": "C63", "title": "Order and splitting of arguments mean nothing", "statement": "Reordering the arguments of an attribute, or sub-arguments at any depth, or spreading the arguments of a field over several #[fieldx] attributes, never changes what the attribute means or whether it is accepted. Exceptions are only the sub-arguments with a meaning by position (default, error, attribute lists).", "quantifier": "every list of arguments, any nesting", "why_tests_cant": "arguments nest without bound; readers handle literals, flags and lists along separate paths", "anchors": ["fieldx_derive/src/fields.rs: FXField::from_field/FXFieldReceiver", "fieldx_derive/src/util/args.rs: FXSArgs", "fieldx_aux/src/nesting_attr.rs: extract_literals/from_meta"]}
{"id": "C64", "title": "Attributes are accepted exactly if the grammar allows them", "statement": "An attribute is accepted exactly if each of its arguments has a form allowed for its name, no argument is given twice, and no two arguments that exclude each other are used together. The same holds for sub-arguments. Nothing else is refused, nothing else is let through.", "quantifier": "every syntax tree of arguments", "why_tests_cant": "unbounded trees; checks are spread over a dozen readers and two kinds of exclusion", "anchors": ["fieldx_derive/src/fields.rs", "fieldx_derive/src/util/args.rs", "fieldx_aux/src/nesting_attr.rs", "fieldx_aux/src/value.rs", "fieldx_aux/src/syn_value.rs", "fieldx_aux/src/default_arg.rs", "fieldx_derive_support/src/lib.rs"]}
{"id": "C65", "title": "All settings can be written, and reading gives them back", "statement": "Every combination of settings that passes the checks can be written as an attribute, and reading it gives exactly these settings. Settings that do not pass the checks are refused however they are written.", "quantifier": "every record of settings of a field or a struct", "why_tests_cant": "unbounded: names, paths, attribute lists; about fifty arguments and sub-arguments in combination", "anchors": ["fieldx_derive/src/fields.rs", "fieldx_derive/src/util/args.rs", "fieldx_aux/src/*_helper.rs", "fieldx_aux/src/nesting_attr.rs"]}
{"id": "C66", "title": "What is written is what is read", "statement": "An accepted attribute is read as exactly what it says: an argument that is not there sets nothing, a switch is on unless it says off, a string literal in a helper is its name (and wins over name(..)), lists keep their order, and every setting goes to the argument it was written for. A bare #[fieldx] adds only its mark.", "quantifier": "every syntax tree of arguments", "why_tests_cant": "unbounded trees; a setting read from the wrong argument shows only with the right combination", "anchors": ["fieldx_derive/src/fields.rs: from_field/mark_implicitly", "fieldx_derive/src/util/args.rs", "fieldx_aux/src/nesting_attr.rs", "fieldx_aux/src/value.rs", "fieldx_aux/src/util.rs: set_literals"]}
{"id": "C67", "title": "The documented syntax is accepted", "statement": "Every form of argument and sub-argument that the documentation of the macro lists is accepted, alone and together with others it does not exclude.", "quantifier": "every combination of documented forms, with any names, paths and texts", "why_tests_cant": "unbounded combinations; the documentation is not tested against the readers", "anchors": ["fieldx_derive/src/lib.rs: documentation", "fieldx_aux/src/lib.rs: FXPubMode", "fieldx_aux/src/builder_helper.rs: validate", "fieldx_aux/src/attributes.rs"]}
{"id": "C68", "title": "Generic structs get correct headers everywhere", "statement": "Every item generated for a generic struct (the struct, its impls, the builder and its impls, the shadow struct and the conversions) declares the parameters of the struct with their bounds, repeats the where clause, gives defaults only where the language allows them, and applies the types of the struct, its builder and its shadow to the names of the parameters in order.", "quantifier": "every list of generic parameters (lifetimes, types, consts; bounds, defaults), every where clause, every set of arguments and fields", "why_tests_cant": "the tests use only bare parameters with a where clause; parameter lists are unbounded", "anchors": ["fieldx_derive/src/ctx/codegen.rs: struct_generics/where_clause", "fieldx_derive/src/codegen.rs: builder_struct/builder_trait_impl/finalize", "fieldx_derive/src/codegen/serde.rs: serde_shadow_struct/serde_struct_from_shadow/serde_shadow_from_struct", "fieldx_derive/src/input_receiver.rs: generic_param_idents"]}
{"id": "C69", "title": "Struct expressions name the right fields", "statement": "Every struct expression in the generated code (Default, new, Builder::new, build, Default of the serde shadow, both conversions) names only fields of its struct, none twice, and all of them unless the rest comes from a Default that is there.", "quantifier": "every set of struct arguments, every list of fields with distinct names", "why_tests_cant": "unbounded lists of fields; seven expressions with their own selection of fields each", "anchors": ["fieldx_derive/src/codegen.rs: struct_extras/default_impl/builder_impl/builder_struct", "fieldx_derive/src/codegen/codegen_trait.rs", "fieldx_derive/src/codegen/serde.rs"]}
{"id": "C70", "title": "The hidden self reference is a plain Weak", "statement": "In a reference counted struct the hidden self reference field is declared with the type Weak<Self>, whatever the struct arguments say about its other fields, and its default value has that type.", "quantifier": "every set of struct arguments", "why_tests_cant": "struct level arguments fall through to the hidden field in combination", "anchors": ["fieldx_derive/src/codegen.rs: prepare_ref_counted", "fieldx_derive/src/ctx/codegen.rs: myself_field", "fieldx_derive/src/codegen/plain.rs: type_tokens", "fieldx_derive/src/codegen/sync.rs: type_tokens/field_default_wrap"]}
{"id": "C71", "title": "Copy is demanded exactly where it is needed", "statement": "The generated Copy check names a field exactly if the field has an accessor that compiles only for Copy types.", "quantifier": "every set of struct arguments, every list of fields", "why_tests_cant": "the check and the accessors resolve copy along separate paths", "anchors": ["fieldx_derive/src/codegen.rs: prepare_field/finalize", "fieldx_derive/src/ctx/codegen.rs: add_for_copy_trait_check", "fieldx_derive/src/ctx/field.rs: is_copy/accessor_mode"]}
{"id": "C72", "title": "Generated structs use all their parameters", "statement": "If the fields of the user's struct use all its generic parameters, so do the fields of the struct as rewritten, of the builder and of the serde shadow.", "quantifier": "every list of parameters, every list of fields and the parameters their types mention", "why_tests_cant": "unbounded lists; the tests mention each parameter in ordinary fields", "anchors": ["fieldx_derive/src/codegen.rs: builder_struct", "fieldx_derive/src/codegen/serde.rs: serde_shadow_struct", "fieldx_derive/src/codegen/codegen_trait.rs: field_builder_field"]}
{"id": "C73", "title": "Acyclic async lazy dependencies never deadlock", "statement": "In an async struct whose lazy builders await other fields of the same object, if the dependencies have no cycle and no guard is kept while another field is awaited, then no set of tasks can deadlock although the lock is granted in order of arrival, whichever futures are dropped at whichever await; once nothing new begins every task gets out within a bounded number of steps. Cyclic builders, a guard kept while another field is awaited, and a builder that awaits its own field do block, the last until it is dropped.", "quantifier": "every struct with any number of async lazy fields, every acyclic dependency relation, any number of tasks, every schedule, every cancellation", "why_tests_cant": "deadlock needs particular overlaps of builder runs and queues on several tasks; cancellation points multiply the schedules", "anchors": ["fieldx/src/async/fxproxy.rs: FXProxyAsync::read_or_init (builder awaited under the write lock)", "fieldx_derive/src/codegen/sync/impl_async.rs"]}
{"id": "C74", "title": "Dropping a task releases everything it holds", "statement": "When a task that is suspended inside any number of nested async accessors, builders and guards is dropped, every lock it holds or waits for is given up, no field changes its content or flag, and no other task is touched.", "quantifier": "every reachable state, every depth of nesting, every suspended task", "why_tests_cant": "cancellation at unbounded nesting depth", "anchors": ["fieldx/src/async/fxproxy.rs: FXProxyAsync::read_or_init/write", "fieldx/src/async/fxproxy.rs: FXWrLockGuardAsync"]}
{"id": "C75", "title": "Async lazy values do not depend on the schedule or on cancellation", "statement": "If async lazy builders are deterministic functions of the fields they await, the dependencies are acyclic and nobody sets or clears, then whatever tasks read whichever fields in whatever interleaving and whichever futures are dropped, each field which has a value has the one a single-threaded evaluation gives, each builder completes at most once, and reading ends unless futures are dropped for ever.", "quantifier": "every dependency graph, every builder function, every schedule, every cancellation", "why_tests_cant": "determinism over all schedules and cancellation points", "anchors": ["fieldx/src/async/fxproxy.rs: FXProxyAsync::read_or_init", "fieldx_derive/src/codegen/sync.rs: field_reader_method"]}
{"id": "C76", "title": "build() compiles with every combination of post_build, error and rc", "statement": "If the post-build method has the documented signature (self to Self, or to Result<Self, ErrorType> with error(ErrorType)) and the error type has the documented conversion or variant, the generated build() function type checks.", "quantifier": "every set of struct arguments, every list of fields, every set of user methods and error types", "why_tests_cant": "the tests try some of the combinations of the arguments", "anchors": ["fieldx_derive/src/codegen/codegen_trait.rs: maybe_ref_counted_create/field_builder_value_required", "fieldx_derive/src/codegen.rs: builder_impl", "fieldx_derive/src/ctx/codegen.rs: builder_post_build_ident/builder_error_type/builder_error_variant"]}
{"id": "C77", "title": "post_build is the last step of build(), taken once and only on a finished object", "statement": "build() reports the first mandatory field without a value in the error the arguments ask for, and then calls nothing. Otherwise it makes the object as without post_build, calls the named method exactly once on it before it is wrapped in the counting pointer, and returns what the method returned, object or error.", "quantifier": "every set of struct arguments, every list of fields, every builder state, every user method", "why_tests_cant": "user methods and builder states are unbounded", "anchors": ["fieldx_derive/src/codegen.rs: builder_impl", "fieldx_derive/src/codegen/codegen_trait.rs: maybe_ref_counted_create/field_builder_value_required"]}
{"id": "C78", "title": "A build() that returned an error leaves the builder as it was", "statement": "If build() returns an error, the builder still holds every value given to it, so that build() can be tried again.", "quantifier": "every set of struct arguments, every list of fields, every builder state, every user method", "why_tests_cant": "needs a failing method after a complete set of values", "anchors": ["fieldx_derive/src/codegen.rs: builder_impl", "fieldx_derive/src/codegen/codegen_trait.rs: field_builder_value_for_set"]}
{"id": "C79", "title": "Attributes given as arguments are written where the documentation says", "statement": "Each generated item carries exactly the attributes of the most specific documented argument that is there: the implementation those of attributes_impl; builder struct, its implementation, fields and setters those of builder with the documented fallbacks; the serde shadow struct those of serde, falling back on the struct's attributes; a shadow field those of the field's serde.", "quantifier": "every set of struct and field arguments, every item", "why_tests_cant": "combinations of arguments and fallbacks are not enumerable by hand", "anchors": ["fieldx_derive/src/codegen.rs: builder_struct/builder_impl/struct_extras", "fieldx_derive/src/codegen/serde.rs: serde_shadow_struct/serde_shadow_field", "fieldx_derive/src/codegen/codegen_trait.rs: field_builder_field/field_builder_setter", "fieldx_derive/src/util/args.rs: builder_attributes/builder_impl_attributes"]}
{"id": "C80", "title": "The user's own attributes stay on struct and fields, and reach the shadow only if listed", "statement": "Attributes on the struct stay there, derives first and otherwise in order; attributes on a field stay on the field; a shadow field gets exactly those which are serde attributes or listed in the forward_attrs of the field or else of the struct; no other generated item gets any.", "quantifier": "every set of arguments, all attributes on struct and fields", "why_tests_cant": "lists of attributes are unbounded", "anchors": ["fieldx_derive/src/codegen/serde.rs: filter_shadow_attributes/serde_shadow_field", "fieldx_aux/src/serde_helper.rs: accepts_attr", "fieldx_derive/src/ctx/codegen.rs: all_attrs"]}
{"id": "C81", "title": "Code that needs a crate feature is refused without it", "statement": "If the macro accepts a struct with a given set of features of fieldx, the generated code names only modules of fieldx that exist with these features.", "quantifier": "every set of features, every set of struct arguments, every list of fields", "why_tests_cant": "the tests are built with all features on", "anchors": ["fieldx_derive/src/util.rs: feature_required", "fieldx_derive/src/util/args.rs: validate", "fieldx_derive/src/fields.rs: validate", "fieldx_derive/src/codegen/sync/impl_sync.rs", "fieldx_derive/src/codegen/sync/impl_async.rs", "fieldx/src/lib.rs: mod sync, mod r#async"]}
{"id": "C82", "title": "Generated code needs no crate besides fieldx", "statement": "With the features it needs, the generated code compiles in a crate which depends on fieldx only; it names other crates exactly when some helper returns one of their guards.", "quantifier": "every set of features and dependencies, every set of struct arguments, every list of fields", "why_tests_cant": "the test crates depend on parking_lot and tokio themselves", "anchors": ["fieldx_derive/src/codegen/sync/impl_sync.rs: rwlock_read_guard/rwlock_mapped_read_guard", "fieldx_derive/src/codegen/sync/impl_async.rs", "fieldx_derive/src/codegen/sync.rs: field_reader_method/field_accessor_mut/field_writer"]}
{"id": "C83", "title": "Every mistake in the arguments is reported once, and nothing else is", "statement": "On accepted input the macro never panics; the errors it writes after the code name exactly the fields whose error type is needed and not known, and the struct if its serde default cannot be used, each once. Input which is not accepted is refused.", "quantifier": "every set of struct arguments, every list of fields with distinct names, all literals", "why_tests_cant": "the run goes on after an error, through generators that may fail again or panic", "anchors": ["fieldx_derive/src/lib.rs: fxstruct", "fieldx_derive/src/codegen.rs: rewrite/prepare_struct/prepare_field/builder_impl", "fieldx_derive/src/ctx/codegen.rs: ok_or_record/exec_or_record/ok_or_empty/finalize", "fieldx_derive/src/codegen/serde.rs: serde_struct_from_shadow/serde_shadow_default_fn"]}
{"id": "C84", "title": "An expansion without errors is complete", "statement": "If the macro reports no error, the struct, the builder and the serde shadow have the fields the arguments ask for in order, every method, setter, check and conversion entry asked for is written, once, and every struct expression is the one of the declarative models (C69).", "quantifier": "every set of struct arguments, every list of fields with distinct names", "why_tests_cant": "pieces are collected by mutation from generators called in sequence", "anchors": ["fieldx_derive/src/codegen.rs: rewrite/prepare_field/default_impl/builder_impl/builder_struct/finalize", "fieldx_derive/src/codegen/codegen_trait.rs: field_methods/field_decl/field_default", "fieldx_derive/src/codegen/serde.rs", "fieldx_derive/src/ctx/codegen.rs: add_method_decl/add_field_decl/add_defaults_decl"]}
{"id": "C85", "title": "An error about one field leaves the struct whole", "statement": "If the macro reports errors, the struct it writes still has all of its fields, so that no follow-up errors about missing fields come up.", "quantifier": "every set of struct arguments, every list of fields with distinct names", "why_tests_cant": "needs an invalid struct, which no passing test contains", "anchors": ["fieldx_derive/src/codegen.rs: prepare_field/finalize", "fieldx_derive/src/codegen/codegen_trait.rs: field_decl", "fieldx_derive/src/ctx/codegen.rs: exec_or_record"]}
{"id": "C86", "title": "Results of lazy fields do not depend on the schedule, failures included", "statement": "If field dependencies are acyclic, every answer of an entry point of a lazy field - value, error, or panic - is the one of single-threaded evaluation, in every interleaving, also when builders fail, catch the failures of the fields they read, and are run again. A failing field never gets a value, a builder which comes to a value runs once, and every call ends.", "quantifier": "every number of threads, fields and builder programs, every schedule", "why_tests_cant": "needs failing builders that depend on each other under all interleavings", "anchors": ["fieldx/src/sync/fxproxy.rs: read_or_init/read/read_mut/try_read/try_read_mut/lazy_init", "fieldx_derive/src/codegen/sync.rs: field_accessor/field_accessor_mut/field_lazy_builder_wrapper"]}
{"id": "C87", "title": "Results of async lazy fields do not depend on the schedule or on cancellation, failures included", "statement": "If field dependencies are acyclic, every answer of an entry point of an async lazy field - value, error, or panic - is the one of single-threaded evaluation, in every interleaving and whichever futures are dropped, also when builders fail, catch the failures of the fields they read, and are run again. A failing field never gets a value, a builder which comes to a value completes once and all its other runs were dropped, and every call ends unless futures are dropped for ever.", "quantifier": "every number of tasks, fields and builder programs, every schedule, every cancellation", "why_tests_cant": "needs failing builders that depend on each other under all interleavings and cancellation points", "anchors": ["fieldx/src/async/fxproxy.rs: read_or_init/read/read_mut/try_read/try_read_mut/lazy_init", "fieldx_derive/src/codegen/sync.rs: field_accessor/field_accessor_mut/field_lazy_builder_wrapper"]}
{"id": "C88", "title": "Lazy and lock-protected fields together deadlock exactly if they are used in a cyclic order", "statement": "Let threads use lazy fields and fields with lock of any number of sync structs, keep guards of both kinds and drop them in any order, and let builders do the same; let a relation say which container may be called while in a call on, or while keeping a guard of, which other. If the relation has no cycle then no deadlock is possible, every thread that waits does so through a chain of waiting threads for one that can move, and once nothing new is begun all calls end after a bounded number of steps; each container stays linearizable. If it has a cycle then some schedule deadlocks, whatever the contents.", "quantifier": "every number of containers, structs, threads and guards, every relation, every schedule", "why_tests_cant": "interactions of guards, builders, setters and comparisons over several fields and threads", "anchors": ["fieldx/src/sync/fxproxy.rs: read_or_init/read/read_mut/write/clear/store", "fieldx/src/sync/fxlock.rs", "fieldx_derive/src/codegen/sync.rs"]}
{"id": "C89", "title": "The lazy containers are correct without a global order of memory accesses", "statement": "Let loads of the `is_set` flag see any store which coherence allows, and let threads know of each other only through the lock, the flag, and synchronisation elsewhere. Then in every run the calls on a lazy container can be put in one order which explains all answers and agrees with happens-before, and any two conflicting accesses to the value are ordered by happens-before. In particular if a `set` happens before an `is_set` and nobody clears, the answer is `true`. Without happens-before `is_set` may be behind.", "quantifier": "every number of threads or tasks, every schedule, every choice of the loads, any synchronisation elsewhere", "why_tests_cant": "weak-memory behaviour does not show on common hardware, and tests join their threads first", "anchors": ["fieldx/src/sync/fxproxy.rs: is_set/read_or_init/clear_with_lock/store/clone", "fieldx/src/async/fxproxy.rs: is_set/read_or_init/clear_with_lock/store/clone"]}
{"id": "C90", "title": "Lock-protected fields of async structs together are linearizable, whichever futures are dropped", "statement": "The calls on any number of `FXRwLockAsync` containers by any number of tasks - accessors, setters, clearers, comparisons, guards and what is done through them - explain themselves as calls on plain memory, one after another; a comparison looks at both sides at the same time. A call whose future was dropped did nothing. While a reading guard is kept the content does not change; while a writing guard is kept nobody else has a guard and only its holder changes the content.", "quantifier": "every number of containers, tasks and guards, every schedule, every cancellation, panics of user code included", "why_tests_cant": "needs all interleavings and all cancellation points", "anchors": ["fieldx/src/async/fxlock.rs: FXRwLockAsync", "fieldx_derive/src/codegen/sync.rs: field_reader/field_writer/field_setter/field_clearer/field_predicate"]}
{"id": "C91", "title": "Lock-protected fields of async structs are served in order of arrival, and deadlock exactly if they are used in a cyclic order", "statement": "While a task waits for a container nobody gets a guard of it who neither had one nor waited for one when the task came. Let a relation say which container may be waited for while which other is held. If it has no cycle then no deadlock is possible, every task that waits does so through a chain of waiting tasks for one that can move, and once nothing new is begun all calls end after a bounded number of steps. If it has a cycle then some schedule deadlocks.", "quantifier": "every number of containers, tasks and guards, every relation, every schedule, every cancellation", "why_tests_cant": "interactions of guards, setters and comparisons over several fields and tasks", "anchors": ["fieldx/src/async/fxlock.rs: FXRwLockAsync", "fieldx_derive/src/codegen/sync.rs"]}
{"id": "C92", "title": "Lazy and lock-protected fields of async structs together deadlock exactly if they are used in a cyclic order, joined branches included", "statement": "Let tasks use lazy fields and fields with lock of any number of async structs, keep guards of both kinds and drop them in any order, await several branches at once which hand their guards over when they return, and drop calls at any await; let builders do the same. Let a relation say which container may be waited for while which other is in hand, by the same task or by one which awaits it. If the relation has no cycle then no deadlock is possible, every task that waits does so through a chain of waiting tasks for one that can move, and once nothing new is begun all calls end after a bounded number of steps. If it has a cycle then some schedule deadlocks, whatever the contents. Each container stays linearizable and is served in order of arrival.", "quantifier": "every number of containers, structs, tasks, branches and guards, every relation, every schedule, every cancellation", "why_tests_cant": "interactions of guards, builders and joined futures over several fields and tasks; needs all interleavings and all cancellation points", "anchors": ["fieldx/src/async/fxproxy.rs: read_or_init/read/read_mut/write/clear/store", "fieldx/src/async/fxlock.rs: FXRwLockAsync", "fieldx_derive/src/codegen/sync.rs"]}
{"id": "C93", "title": "Every name the macro makes can be used", "statement": "A name given as a string is taken as it is spelled, `r#` included, and the macro panics exactly if it spells no identifier. If no names are given then no name made for a method, a builder, a shadow struct or a hidden function makes the macro panic, and none is a keyword.", "quantifier": "every struct and field identifier of Rust, raw ones included, every set of arguments, any set of letters beyond ASCII", "why_tests_cant": "tests have no raw identifiers; names are put together from up to three places", "anchors": ["fieldx_derive/src/codegen/codegen_trait.rs: helper_name", "fieldx_derive/src/fields.rs: base_name", "fieldx_derive/src/ctx/field.rs: helper_base_name/default_fn_ident", "fieldx_derive/src/ctx/codegen.rs: builder_ident/shadow_ident/myself_names/myself_field/unique_ident_pfx", "fieldx_derive/src/codegen/sync/impl_async.rs: lazy_wrapper_name"]}
{"id": "C94", "title": "An ordinary struct expands to code that passes every check, with exact conditions for any other struct", "statement": "An expansion without errors has well-typed helpers, initialisers, conversions and `build()`, complete struct expressions, right headers, used parameters, existing paths and usable names exactly under a list of conditions on the arguments. Every struct without given names, `fallible`, `async`, `inner_mut`, `skip`, `optional`, `as_ref`, `lock(off)`, bare `default` and `r#`, with bare generic parameters, is accepted, expands without errors and meets them all, and no two of its methods have the same name.", "quantifier": "all arguments of struct and fields, any number of fields, any generics, names, user methods and features", "why_tests_cant": "each check of the compiler depends on a different set of arguments; tests cover some combinations", "anchors": ["fieldx_derive/src/codegen.rs: rewrite/finalize/prepare_struct", "fieldx_derive/src/codegen/codegen_trait.rs: field_methods/field_decl", "fieldx_derive/src/codegen/serde.rs: serde_prepare_struct/serde_rewrite_struct", "fieldx_derive/src/codegen/sync.rs: field_accessor/field_reader/field_writer", "fieldx_derive/src/codegen/plain.rs: field_accessor"]}
{"id": "C95", "title": "Visibility of all generated items, and from where they can be used", "statement": "The struct and `builder()` are as visible as declared; the builder, its `new()` and `build()` as the `builder` argument says or else as declared; the shadow and the methods of `rc` as their argument says or else private; helpers as C38 says. Every item can be named where it stands. `Foo::builder().a(..).build()` can be written wherever `Foo` can be named.", "quantifier": "every declared visibility, every place of the struct, every module of any crate, all arguments", "why_tests_cant": "tests are single files where everything is visible", "anchors": ["fieldx_derive/src/codegen.rs: rewrite_struct/struct_extras/myself_methods/builder_struct_visibility/builder_impl/builder_struct", "fieldx_derive/src/codegen/serde.rs: serde_shadow_struct", "fieldx_derive/src/ctx/field.rs: vis_tok", "fieldx_aux/src/lib.rs: FXPubMode to_tokens"]}
{"id": "C96", "title": "Generated helpers of a lazy sync field are linearizable and never wedge", "statement": "The calls of accessor, mutable accessor, reader, writer, setter, clearer and predicate of one field, and of the guards they return, each take effect at one moment between begin and end as the one operation of the lazy cell it stands for, also if the user's `clone`, conversion or builder panics or fails. A call that is over leaves no lock held unless it returns a guard. Without new calls every run ends after a bounded number of steps with nobody inside.", "quantifier": "any number of threads, calls and schedules, every lazy sync field with any arguments and any of its helpers, every outcome of builder, clone and conversion", "why_tests_cant": "needs interleavings inside helper bodies of two and more threads, with panics at given points", "anchors": ["fieldx_derive/src/codegen/sync.rs: field_accessor/field_accessor_mut/field_reader_method/field_writer/field_setter/field_clearer/field_predicate", "fieldx/src/sync/fxproxy.rs: read_or_init/write/clear/is_set/store"]}
{"id": "C97", "title": "Generated helpers of lock-protected sync fields are linearizable and leave only the guards they give", "statement": "The calls of accessor, mutable accessor, reader, writer, setter, clearer and predicate of any number of fields with a lock, and of the guards they return, each take effect at one moment between begin and end as the one operation on plain memory it stands for, also if the user's `clone` or conversion panics, which changes nothing. A call that is over leaves its caller with the guards from before and the one it returns. A helper waits only for its lock. If guards are collected in an order without cycles then no deadlock is possible, and without new calls every run ends after a bounded number of steps. The predicate of a fallible field is left out (C25).", "quantifier": "any number of fields, threads, guards, calls and schedules, every sync field with a lock and any arguments and any of its helpers", "why_tests_cant": "needs interleavings inside helper bodies of two and more threads, with panics at given points", "anchors": ["fieldx_derive/src/codegen/sync.rs: field_accessor/field_accessor_mut/field_reader_method/field_writer/field_setter/field_clearer/field_predicate", "fieldx/src/sync/fxlock.rs: FXRwLockSync"]}
{"id": "C98", "title": "Generated helpers of a lazy async field are linearizable under cancellation", "statement": "The calls of accessor, mutable accessor, reader, writer, setter, clearer and predicate of one field, and of the guards they return, each take effect at one moment between begin and end as the one operation of the lazy cell it stands for, also if the user's `clone`, conversion or builder panics or fails. A task may be cancelled wherever a helper awaits: then all calls fit together as if that call had never been made, value and predicate stay as they are, and it holds no lock. A call that is over leaves no lock held unless it returns a guard. Without new calls every run, cancelled or not, ends after a bounded number of steps with nobody inside.", "quantifier": "any number of tasks, calls and schedules, cancellation at any await point, every lazy async field with any arguments and any of its helpers, every outcome of builder, clone and conversion", "why_tests_cant": "needs interleavings inside helper bodies of two and more tasks, with tasks dropped at given await points", "anchors": ["fieldx_derive/src/codegen/sync.rs: field_accessor/field_accessor_mut/field_reader_method/field_writer/field_setter/field_clearer/field_predicate", "fieldx_derive/src/codegen/sync/impl_async.rs: await_call/async_decl", "fieldx/src/async/fxproxy.rs: read_or_init/write/clear/is_set/store"]}
{"id": "C99", "title": "Generated helpers of lock-protected async fields are linearizable under cancellation and leave only the guards they give", "statement": "The calls of accessor, reader, writer, setter, clearer and predicate of any number of fields with a lock, and of the guards they return, each take effect at one moment between begin and end as the one operation on plain memory it stands for, also if the user's conversion panics, which changes nothing. A task may be cancelled wherever a helper awaits: then all calls fit together as if that call had never been made, contents and guards stay as they are, and it waits in no queue. A call that is over leaves its caller with the guards from before, and the one it returns if it was not cancelled. A helper waits only for its lock. If guards are collected in an order without cycles then no deadlock is possible, and without new calls every run, cancelled or not, ends after a bounded number of steps.", "quantifier": "any number of fields, tasks, guards, calls and schedules, cancellation at any await point, every async field with a lock and any arguments and any of its helpers which the compiler accepts", "why_tests_cant": "needs interleavings inside helper bodies of two and more tasks, with tasks dropped at given await points", "anchors": ["fieldx_derive/src/codegen/sync.rs: field_accessor/field_reader_method/field_writer/field_setter/field_clearer/field_predicate", "fieldx_derive/src/codegen/sync/impl_async.rs: await_call/async_decl", "fieldx/src/async/fxlock.rs: FXRwLockAsync"]}
{"id": "C100", "title": "All fields of all objects together are linearizable", "statement": "Let threads or tasks use lazy and lock-protected fields of any number of objects, keep guards of both kinds, and let builders do the same while they run. There is one order of all calls, on whichever field, which explains every answer, agrees with what ended before something else began on any field, and when nobody is in a call on a lazy field or keeps a guard of one leads to the contents which all fields have. For async structs calls cancelled on the way take no part in it.", "quantifier": "any number of objects, fields, threads, nested builders and guards, every schedule, with or without a common order of use, every cancellation", "why_tests_cant": "needs histories over several fields and threads with builders nested in each other", "anchors": ["fieldx/src/sync/fxproxy.rs: read_or_init/read/read_mut/write/clear/store", "fieldx/src/async/fxproxy.rs: read_or_init/read/read_mut/write/clear/store", "fieldx/src/sync/fxlock.rs: FXRwLockSync", "fieldx/src/async/fxlock.rs: FXRwLockAsync"]}
{"id": "C101", "title": "Generated helpers of all sync fields together are linearizable, do not deadlock and complete", "statement": "Let threads call the generated helpers of lazy and lock-protected fields of any number of objects, keep guards of both kinds, and let builders do the same while they run. There is one order of all calls, helpers and uses of guards, on whichever field, which explains every answer, also if the user's `clone`, conversion or builder panics or fails, and which leads to the contents of all fields when nobody is in a helper of a lazy field or keeps a guard of one. If builders and guards are nested in an order of fields without cycles then a thread that cannot move waits for a thread that waits for a thread … that can, no deadlock is possible, and once nothing new is begun everybody is out after a bounded number of steps and no lock is held. Without the order two threads can wait for each other forever.", "quantifier": "any number of objects, fields, threads, nested builders and guards, every schedule, every sync field with any arguments and any of its helpers, every outcome of builder, clone and conversion, every order of fields", "why_tests_cant": "needs interleavings inside helper bodies over several fields and threads with builders nested in each other", "anchors": ["fieldx_derive/src/codegen/sync.rs: field_accessor/field_accessor_mut/field_reader_method/field_writer/field_setter/field_clearer/field_predicate/field_lazy_initializer", "fieldx/src/sync/fxproxy.rs: read_or_init/write/clear/is_set/store", "fieldx/src/sync/fxlock.rs: FXRwLockSync"]}
{"id": "C102", "title": "Conditional compilation leaves the expansion in one piece", "statement": "If `#[cfg(..)]` attributes, on a field or handed to `attributes`, `attributes_fn`, `attributes_impl` of the struct, the builder, serde or a helper, take items out of the expansion, then the code left names no field, type or function of the expansion which is gone. A `cfg` in `attributes_fn` takes out the helper it is for and nothing else.", "quantifier": "all arguments, any number of fields, every choice of the attributes that hold, every accepted struct without errors", "why_tests_cant": "tests have no cfg in attributes; it takes a build per set of features and combination of arguments", "anchors": ["fieldx_derive/src/lib.rs: attributes* family", "fieldx_derive/src/codegen/codegen_trait.rs: attributes_fn/field_decl/field_builder_field", "fieldx_derive/src/codegen.rs: default_impl/builder_impl/builder_struct/finalize", "fieldx_derive/src/codegen/serde.rs: serde_shadow_field/serde_shadow_struct/serde_struct_from_shadow/serde_struct_into_shadow"]}
{"id": "C103", "title": "Generated helpers of all async fields together are linearizable under cancellation, do not deadlock and complete", "statement": "Let tasks await the generated helpers of lazy and lock-protected fields of any number of objects, keep guards of both kinds, await several branches at once which hand their guards over when they return, and let builders do the same while they run; let any helper be dropped wherever it awaits. There is one order of all calls which were not dropped, helpers and uses of guards, on whichever field, which explains every answer, also if the user's `clone`, conversion or builder panics or fails, and which leads to the contents of all fields when nobody is in a helper of a lazy field or keeps a guard of one. Dropping a helper changes no content, answers to nobody and leaves nothing behind. If builders, branches and guards are nested in an order of fields without cycles then a task that cannot move waits for a task that waits for a task … that can, no deadlock is possible, and once nothing new is begun everybody is out after a bounded number of steps, without anybody being dropped, with no lock held and nobody in a queue. Without the order a single task can wait for itself forever, and so can two which join the same helpers.", "quantifier": "any number of objects, fields, tasks, branches, nested builders and guards, every schedule, every cancellation, every async field with any arguments and any of its helpers which the compiler accepts, every outcome of builder, clone and conversion, every order of fields", "why_tests_cant": "needs interleavings inside helper bodies over several fields and tasks with joined futures, nested builders and futures dropped at given await points", "anchors": ["fieldx_derive/src/codegen/sync.rs: field_accessor/field_accessor_mut/field_reader_method/field_writer/field_setter/field_clearer/field_predicate/field_lazy_initializer", "fieldx_derive/src/codegen/sync/impl_async.rs: await_call/async_decl", "fieldx/src/async/fxproxy.rs: read_or_init/write/clear/is_set/store", "fieldx/src/async/fxlock.rs: FXRwLockAsync"]}
{"id": "C104", "title": "Derives and attributes for serde agree with the conversions generated", "statement": "`Serialize` and `Deserialize` are derived for the struct exactly if its argument `serde` is there, not off and asks for that direction, and then the struct is written and read through the shadow, which derives the same and has the fields neither skipped nor switched off. A field of the shadow is written, and read, exactly as its argument says and under its documented name. Everything serde's derived code refers to is there: the conversions, the shadow with its derives, its `Default` and the functions for default values, if the user's struct is `Clone` when written and the types of fields with a bare default, or not read and without one, are `Default`. The struct's serde default may be an object of the struct itself.", "quantifier": "all arguments of the struct and its fields, any number of fields, every accepted struct without errors", "why_tests_cant": "needs a build per combination of directions, skips and defaults; tests have few of them", "anchors": ["fieldx_derive/src/codegen/serde.rs: serde_derive_traits/serde_struct_attribute/serde_field_attribute/serde_skip_toks/serde_field_default_fn/serde_shadow_struct/serde_struct_from_shadow/serde_struct_into_shadow/serde_shadow_default_fn", "fieldx_aux/src/serde_helper.rs: needs_serialize/needs_deserialize", "fieldx_derive/src/lib.rs: serde"]}
{"id": "C105", "title": "Calls, guards and builders are refused nothing, and wait for nothing but what the lock says", "statement": "In every reachable state a process outside of calls can begin every operation, and every helper there is, on every field; so can a builder, and a process which keeps guards. A guard can be dropped at any time and used for what it allows, and only for that. A builder that runs can end in any way, and user code which the library calls can panic. Code of the library goes on exactly if the lock it asks for has no holder in its way (and, in async structs, nobody before it in the queue); it is never stuck for another reason. In async structs a future can be dropped exactly where it awaits. The machines on which the other properties are stated therefore leave out no execution by being unable to take a step.", "quantifier": "every state reachable by any number of processes, fields, nested builders, guards and cancellations, for containers, locks, generated helpers, threads and tasks", "why_tests_cant": "tests see chosen schedules; that no state refuses a step needs a look at all of them", "anchors": ["fieldx/src/sync/fxproxy.rs: read_or_init/read/read_mut/write/clear/is_set/store", "fieldx/src/async/fxproxy.rs: read_or_init/read/read_mut/write/clear/is_set/store", "fieldx/src/sync/fxlock.rs: FXRwLockSync", "fieldx/src/async/fxlock.rs: FXRwLockAsync", "fieldx_derive/src/codegen/sync.rs: field_accessor/field_reader_method/field_writer/field_setter/field_clearer/field_predicate"]}
{"id": "C106", "title": "Guards alive on a field: which helpers wait, and that the others are not disturbed", "statement": "Let any number of shared guards, or an exclusive one, be alive on a sync or async field, kept by the caller or anybody else. A helper waits exactly if it needs the lock in a way the guards do not allow: beside an exclusive guard everything but predicates which do not lock; beside shared ones every setter, writer, clearer and mutable accessor, the initialising read of an empty lazy field, and every read of an async lazy field. So a caller which keeps such a guard itself waits for ever. While it waits it has changed nothing and run no builder. If it does not wait, its answer, the content left and the builder run are the same as without the guards, which stay alive.", "quantifier": "every sync and async field with any arguments, every helper the compiler accepts, any content, any number of guards, every outcome of the builder", "why_tests_cant": "a call which waits for ever hangs the test; needs one test per combination of arguments, helper and guards", "anchors": ["fieldx_derive/src/codegen/sync.rs: field_accessor/field_accessor_mut/field_reader_method/field_writer/field_setter/field_clearer/field_predicate", "fieldx/src/sync/fxproxy.rs: read_or_init/write/clear/is_set/store", "fieldx/src/async/fxproxy.rs: read_or_init/write/clear/is_set/store"]}
{"id": "C107", "title": "A sync struct is Send and Sync", "statement": "A sync struct whose fields have types that are `Send` and `Sync` is `Send` and `Sync`, counted or not; locks protect a field, so that only the safety of unprotected fields matters. In general a struct is `Send` exactly if all types written for its fields are, and `Sync` exactly if no field is a cell for one thread, types within locks are both and others `Sync`; counted it needs all of that for either, and an `Arc`. An async struct whose types are `Send` and `Sync` compiles. The futures of async helpers can be moved to other threads if the struct is `Sync`. The guard of a lazy field's writer cannot be shared; it can be moved to other threads if the field is async or the feature `send_guard` is on.", "quantifier": "all arguments, any number of fields, every choice of which types are `Send` and `Sync`, every field whose declaration is generated", "why_tests_cant": "what is not `Sync` does not compile where it is used; tests would need a build per combination of arguments and types", "anchors": ["fieldx/src/lib.rs: docs on sync structs, protected and unprotected fields, `lock(off)`, `send_guard`", "fieldx/src/sync/fxproxy.rs: FXProxySync/FXWrLockGuardSync/FXBuilderInfallible/FXBuilderFallible", "fieldx/src/async/fxproxy.rs: FXProxyAsync/FXBuilderWrapperAsync/FXWrLockGuardAsync/read_or_init", "fieldx/src/sync/fxlock.rs: FXRwLockSync", "fieldx/src/async/fxlock.rs: FXRwLockAsync", "fieldx_derive/src/codegen.rs: prepare_ref_counted"]}
{"id": "C108", "title": "A trait all types of a struct have can be derived for the struct where containers allow it", "statement": "If the types of all fields are `Clone` then `Clone` can be derived for the struct, as serialising it requires. In general a trait of `Clone`, `Copy`, `Debug`, `Default`, `PartialEq`, `Eq`, `PartialOrd`, `Ord`, `Hash` can be derived exactly if each field has it by what it was asked to be, and the hidden self reference has it.", "quantifier": "all arguments, any number of fields, every choice of what the types and error types implement, every field whose declaration is generated", "why_tests_cant": "needs a build per trait and combination of arguments; tests derive few", "anchors": ["fieldx/src/sync/fxproxy.rs: Clone/Debug/PartialEq/Eq for FXProxySync, derive(Clone) of the builder wrappers", "fieldx/src/async/fxproxy.rs: Clone/Debug for FXProxyAsync", "fieldx/src/sync/fxlock.rs: impls", "fieldx/src/async/fxlock.rs: impls", "fieldx/src/lib.rs: docs on serde and Clone", "fieldx_derive/src/codegen/serde.rs: serde_struct_attribute"]}
{"id": "C109", "title": "A copy of a whole object is the object at one moment", "statement": "A copy of a struct with lock-protected fields, made by a derived `clone` (as when a serialisable struct is turned into its shadow), is the object as it was at one moment during the copying, whatever other threads or tasks do. In general each field of the copy is what that field held at a moment between the beginning and the end of its own copying, and these moments come in the order of the fields; the copy is the object at one moment if nobody is in a call that changes one of its fields while it is made. The same is expected of a derived comparison.", "quantifier": "any number of fields, threads and tasks, every schedule, every history whose calls can be ordered", "why_tests_cant": "a setter has to run between the copies of two fields; tests do not control that", "anchors": ["fieldx/src/sync/fxlock.rs: Clone/PartialEq for FXRwLockSync", "fieldx/src/async/fxlock.rs: Clone/PartialEq for FXRwLockAsync", "fieldx_derive/src/codegen/serde.rs: serde_struct_attribute", "fieldx/src/lib.rs: docs on serde and Clone"]}
{"id": "C110", "title": "The macro's own bookkeeping does not panic and does not forget", "statement": "While a struct is expanded no cell of the macro's context is borrowed in conflict with another borrow or initialised twice, and none remains borrowed. What the context remembers (whether the struct is rather sync, needs a builder, needs `Default`, whether builders are opt-in as far as fields are concerned) is what follows from the arguments alone, whenever it is first asked for and whatever is asked or added before. The context given for a field is that field's own, all contexts which the builder asks for by name exist, and an accessor that copies or clones finds the argument which says so.", "quantifier": "all arguments, any number of fields, every sequence of calls on the context which the generators may make in each phase", "why_tests_cant": "a conflict needs a particular combination of helpers and order of calls; each test is one combination", "anchors": ["fieldx_derive/src/ctx/codegen.rs: FXCodeGenCtx", "fieldx_derive/src/ctx/field.rs: FXFieldCtx", "fieldx_derive/src/codegen.rs: rewrite/prepare_struct/rewrite_struct/finalize/builder_field_ctxs", "fieldx_derive/src/codegen/serde.rs: serde_shadow_struct/serde_prepare_struct", "fieldx_derive/src/codegen/sync.rs: field_accessor"]}
{"id": "C111", "title": "Objects can be cloned, printed, compared and serialised wherever they are used", "statement": "Deriving `Clone`, `Debug`, `PartialEq` or asking for `serde` gives operations which return wherever an object is used: no field makes them wait or panic. Equality says yes exactly if all fields are equal and no exactly if some field differs.", "quantifier": "all structs and fields, all sets of guards others hold on either object, inside and outside of an async runtime, all answers of the user's eq", "why_tests_cant": "tests print and clone objects outside of tasks and with no guards alive", "anchors": ["fieldx/src/sync/fxlock.rs: PartialEq/Clone/Debug", "fieldx/src/sync/fxproxy.rs: Debug/Clone/PartialEq", "fieldx/src/async/fxlock.rs: PartialEq/Clone/Debug", "fieldx/src/async/fxproxy.rs: Debug/Clone", "fieldx_derive/src/codegen/serde.rs: serde_prepare_struct"]}
{"id": "C112", "title": "The user's code inside helpers", "statement": "Helpers call the user's code (conversions of setters, `clone`, builders) at most once each, and only where it was asked for. If it panics the field is as before and no guard is left. Meanwhile the user's code can use the field it is called for like any other.", "quantifier": "all fields and helpers, all states of the field without guards, all outcomes of the builder, all helpers called from inside", "why_tests_cant": "tests use conversions and clones which neither panic nor touch the object", "anchors": ["fieldx_derive/src/codegen/plain.rs: setters", "fieldx_derive/src/codegen/sync.rs: setters", "fieldx_derive/src/codegen/plain.rs: accessors", "fieldx/src/sync/fxproxy.rs", "fieldx/src/async/fxproxy.rs"]}
{"id": "C113", "title": "Lazy fields of plain structs whose builders use each other", "statement": "Reading a lazy field of a plain struct whose builder reads other lazy fields returns, and gives the same value, error or panic whatever was read before and in which order; the same as in a sync or async struct with the same builders. A builder which comes to a value runs once. Nothing panics unless a builder does.", "quantifier": "all sets of fields and builders, all contents of the object, all sequences of reads, all sizes of the stack", "why_tests_cant": "tests use one or two lazy fields which do not need each other in a cycle", "anchors": ["fieldx_derive/src/codegen/plain.rs: field_lazy_initializer", "fieldx_derive/src/codegen/plain.rs: field_accessor", "fieldx/src/lib.rs: pub use once_cell::unsync::OnceCell"]}
{"id": "C114", "title": "Argument types of fieldx_aux read what their documentation shows", "statement": "The argument types which fieldx_aux offers to authors of macros (`FXValue`, `FXBool`, `FXSynValue`, `FXSynTuple`, `FXPunctuated`, `set_literals!`) read the forms their documentation shows, with the values written, and nothing else: no literal is dropped, numbers fit their type, bounds on the number of elements are kept, and `value()` never panics.", "quantifier": "all arguments, all element types and parsers, all bounds, all lists of literals", "why_tests_cant": "fieldx uses three of these types and only with strings, flags and paths; the examples of the documentation are not compiled", "anchors": ["fieldx_aux/src/value.rs: FXValueArg", "fieldx_aux/src/syn_value.rs: FXSynValueArg", "fieldx_aux/src/syn_value.rs: FXSynTupleArg", "fieldx_aux/src/syn_value.rs: FXPunctuated", "fieldx_aux/src/util.rs: set_literals!", "fieldx_aux/src/nesting_attr.rs: FXNestingAttr"]}
{"id": "C115", "title": "Helper structs made by fxhelper accept their arguments exactly if no group has two of them", "statement": "For every struct `#[fxhelper]` is applied to, the generated check accepts an object exactly if no two arguments of one group are given (`public` and `private` always form one) and the validation function given accepts it; an error names one group and exactly the arguments of it which are given, in order of declaration, and is the same in every build; the macro refuses a struct only for a type it cannot test. The checks of the four helper structs are those of the model of reading.", "quantifier": "all helper structs, all objects, all orders of the hash map of groups", "why_tests_cant": "fieldx has four such structs, only one with two groups, and no test gives conflicting arguments in two groups", "anchors": ["fieldx_derive_support/src/lib.rs: fxhelper", "fieldx_aux/src/base_helper.rs: FXBaseHelper", "fieldx_aux/src/accessor_helper.rs: FXAccessorHelper", "fieldx_aux/src/setter_helper.rs: FXSetterHelper", "fieldx_aux/src/builder_helper.rs: FXBuilderHelper"]}
{"id": "C116", "title": "Local variables of generated functions refer to variables of those functions", "statement": "For every struct, whatever contexts its attributes and arguments come from (as when a `macro_rules!` macro writes the struct and its user gives some of the attributes), each use of `self`, `value` and of the other local variables in a generated function has the name and the context of a variable of that function. Exactly: all functions but those which may run the builder of a lazy field, the setter of an `inner_mut` field and `build` are right in any contexts; those are right exactly if the argument for the helper (or else the attribute of the field, or else the argument of the struct) is of the context of the macro call.", "quantifier": "all structs, all field arguments, all assignments of contexts to attributes and arguments", "why_tests_cant": "no test of fieldx makes a struct by a macro_rules macro, and in all other programs there is one context only", "anchors": ["fieldx_derive/src/codegen/codegen_trait.rs: helper_span, maybe_ref_counted_self, field_builder_value_for_set, field_builder_value_required", "fieldx_derive/src/codegen/plain.rs: field_accessor, field_setter, field_builder_setter", "fieldx_derive/src/codegen/sync.rs: field_reader_method, field_accessor_mut, field_builder_setter", "fieldx_derive/src/codegen.rs: builder_impl, myself_methods", "fieldx_derive/src/codegen/serde.rs: serde_struct_from_shadow, serde_struct_into_shadow"]}
{"id": "C117", "title": "Names written in generated code lead to the items they are there for", "statement": "Whatever the module of a struct defines and imports, each item named in the generated code is the one of the standard library, of fieldx or of serde which the macro means. Exactly: of the items it does not define itself the code names by a single word those its arguments ask for, among `Ok`, `Some`, `None`, `Default`, `Copy`, `Sized`, `Send`, `bool`, `FXStruct` and the derives `Serialize` and `Deserialize`; all names are right exactly if the module has none of these words for anything else, and imports the derives asked for.", "quantifier": "all structs, all field arguments, all modules", "why_tests_cant": "tests live in modules which import the usual things; a module which has its own Ok or Send is not among them", "anchors": ["fieldx_derive/src/codegen.rs: default_impl, builder_impl, finalize", "fieldx_derive/src/codegen/serde.rs: serde_derive_traits", "fieldx_derive/src/codegen/plain.rs: field_accessor, field_accessor_mut, field_setter, field_predicate", "fieldx_derive/src/codegen/sync.rs: field_accessor, field_predicate", "fieldx_derive/src/codegen/sync/impl_async.rs", "fieldx_derive/src/ctx/field.rs: fallible_ok_return"]}
{"id": "C118", "title": "A default expression means the same wherever the macro puts it", "statement": "Each name in the default expression of a field means what it means in the module of the struct, in every function of the expansion the expression is put into. Exactly: the names which come to mean a local variable of the macro are `self`, and `me` if the struct is reference counted, for a field which is in the builder; and `__shadow` for a plain optional or lazy field which is deserialised.", "quantifier": "all structs, all fields, all names", "why_tests_cant": "tests have a handful of defaults, none of which uses the name of a local variable of the expansion", "anchors": ["fieldx_derive/src/codegen/codegen_trait.rs: maybe_ref_counted_create, field_builder_value_for_set, field_default_value", "fieldx_derive/src/codegen.rs: default_impl, builder_impl", "fieldx_derive/src/codegen/plain.rs: field_builder_setter, field_from_shadow", "fieldx_derive/src/codegen/sync.rs: field_builder_setter", "fieldx_derive/src/codegen/serde.rs: serde_struct_from_shadow, serde_shadow_field_default, serde_field_default_fn"]}
{"id": "C119", "title": "Self::default() in generated code is the default of Default", "statement": "Wherever generated code calls `Self::default()` - in `new`, and in the conversion from the serde shadow - it calls the function of `std::default::Default`. Exactly: it does unless the struct needs `Default` and has, by the user or by the macro, a function of its own called `default`; if the user gives no names to helpers, the macro makes one exactly if a field called `default` has an accessor.", "quantifier": "all structs, all fields, all functions the user gives the struct", "why_tests_cant": "no test has a field called default; any such struct with an accessor fails to compile, since `new` is made by default", "anchors": ["fieldx_derive/src/codegen.rs: struct_extras, default_impl", "fieldx_derive/src/codegen/serde.rs: serde_struct_from_shadow", "fieldx_derive/src/codegen/codegen_trait.rs: helper_name"]}
{"id": "C120", "title": "A default value means what is written", "statement": "The value of `default(expr)` on a field, and of `serde(default(expr))` on a field or a struct, is that of the expression as written (on a struct: converted into the shadow), and the same text means the same in `default` and in `serde(default)`. Exactly: all this holds unless the expression is a string literal. `default(\"..\")` is a `String` and compiles for no other type; in `serde(default(\"..\"))` the string names a function. The macro rejects assignments and strings which are no paths, but only on structs. A default is switched off exactly by `default(off, value)`; `default(off)` is the value `off`.", "quantifier": "all items of attributes, all field types, all meanings of literals, constants, calls and conversions", "why_tests_cant": "the tests have strings only for fields of type String; no test has default(off)", "anchors": ["fieldx_aux/src/default_arg.rs", "fieldx_derive/src/codegen/codegen_trait.rs: field_default_value", "fieldx_derive/src/codegen/serde.rs: serde_field_attribute, serde_field_default_fn, serde_shadow_default_fn"]}
{"id": "C121", "title": "Arguments of a skipped field have no effect", "statement": "The documentation of `skip` says the only other argument respected is `default`. So the code generated for a struct, every field and error included, stays the same if other arguments of its skipped fields are left out. Exactly: `attributes_fn`, `lazy`, `rename`, `get_mut`, `set`, `optional`, `public`, `private`, `into` and `serde` are ignored in every struct; each of the other fourteen arguments changes the code of some struct. A skipped field keeps its type unless it is a plain `inner_mut` one, or a sync fallible one with no error type; it starts with its default unless that is put into a lock or a cell.", "quantifier": "all structs, all lists of fields, all sets of arguments, all choices of skipped fields", "why_tests_cant": "the tests have one skipped field with other arguments (lazy, get, set, predicate, clearer), in one struct", "anchors": ["fieldx_derive/src/lib.rs 470-474", "fieldx_derive/src/codegen.rs: prepare_field", "fieldx_derive/src/fields.rs", "fieldx_derive/src/ctx/codegen.rs", "fieldx_derive/src/codegen/plain.rs: type_tokens", "fieldx_derive/src/codegen/sync.rs: type_tokens"]}
{"id": "C122", "title": "An argument of the struct may be written at its fields instead", "statement": "The documentation calls the arguments of fxstruct defaults for the fields. So an argument given for the struct, as a keyword alone or with `off`, can be moved to each field which has none of its own, and all code stays the same: pieces, errors, types, initialisers, bodies, visibilities, attributes, conversions. Exactly: this holds in every struct without `rc` for `fallible`, `get`, `get_mut`, `set`, `clearer`, `predicate`, `optional`; with `rc` for `get_mut`, `set`, `optional`; for each other argument some struct is a counterexample. `lazy` may be moved if `default` is given or `no_new` is not; `into` if `set` and `builder` of the struct do not say it too; `clone` and `copy` if nothing else says how values are returned; `reader`, `writer` and `lock` in `sync` structs (`lock` if no field speaks of `inner_mut`); `inner_mut` where nothing else is said of the mode.", "quantifier": "all structs, all lists of fields, all such arguments", "why_tests_cant": "the tests have one form of each struct and never compare the two", "anchors": ["README.md 46, 118", "fieldx_derive/src/lib.rs 160, 177, 255, 349, 375", "fieldx_derive/src/ctx/field.rs", "fieldx_derive/src/ctx/codegen.rs: needs_default, is_rather_sync", "fieldx_derive/src/util/args.rs", "fieldx_derive/src/fields.rs"]}
{"id": "C123", "title": "`lock` of a struct is `reader` and `writer` without their methods", "statement": "If `reader` and `writer` of a struct, given by the keyword alone, are replaced by `lock`, then the expansion has the same pieces and errors but for the methods `reader` and `writer`, and each field, the hidden one of a reference counted struct included, has the same type, initialisers, bodies, visibilities, attributes and conversions, unless a field switches `reader` or `writer` off. With `lock` exactly the fields which ask themselves have such a method. `writer` beside `reader(off)` has no effect in a struct which says nothing more of its mode.", "quantifier": "all structs with reader or writer, all lists of fields, all literals", "why_tests_cant": "the tests have few structs with reader, writer or lock as their argument, and compare no two forms", "anchors": ["fieldx_derive/src/lib.rs 345-350", "fieldx_derive/src/util/args.rs 108-119, 234-237", "fieldx_derive/src/ctx/field.rs: needs_lock, needs_reader", "fieldx_derive/src/codegen/sync.rs"]}
{"id": "C124", "title": "`mode(..)` of a struct is another way to write `sync` and `r#async`", "statement": "In a struct which says nothing else by these arguments, `mode(sync)` and `sync`, and `mode(async)` and `r#async`, are refused alike, and otherwise give the same pieces, errors, types, initialisers, bodies, visibilities, attributes and conversions. `mode(plain)` makes every field plain which does not say otherwise itself; it may be left out without any change where the struct has no `inner_mut` and would not be taken for sync.", "quantifier": "all structs without another mode argument, all lists of fields, all literals", "why_tests_cant": "the tests use one of the two forms for each struct and compare none", "anchors": ["fieldx_derive/src/lib.rs 127-154", "fieldx_derive/src/util/args.rs 79-127", "fieldx_derive/src/ctx/codegen.rs: is_rather_sync", "fieldx_derive/src/ctx/field.rs: is_sync, is_async"]}
{"id": "C125", "title": "`fallible(off, error(E))` of a struct only sets the error type of fallible fields", "statement": "`fallible(off, error(E))` of a struct is the same as `error(E)` written in `fallible` of each field which is fallible itself and names no error type: the same structs are refused, and the pieces, errors, types, initialisers, bodies, visibilities, attributes and conversions are the same. A field with a result writes the error type it names, and otherwise E; no field becomes fallible by it; no error about an unknown error type remains.", "quantifier": "all structs without another fallible, all lists of fields, all literals, all error types", "why_tests_cant": "the tests use one common error type in one struct, and compare no two forms", "anchors": ["fieldx_derive/src/lib.rs 162-171, 505-516", "fieldx_derive/src/ctx/field.rs: fallible_error, is_fallible", "fieldx_derive/src/fields.rs: fallible_error", "fieldx_derive/src/util/args.rs: fallible_error", "fieldx_derive/src/codegen/codegen_trait.rs: fallible_return_type", "fieldx_derive/src/codegen/sync.rs: builder_wrapper_type"]}
{"id": "C126", "title": "A clearer or predicate makes a field optional unless it is lazy", "statement": "A field for which a clearer or a predicate is asked, by itself or by the struct, is optional unless it is lazy or skipped, if nothing is said of `optional`. Then `optional` may be written at these fields or left out: in an accepted struct all pieces, errors, types, initialisers, bodies, visibilities, attributes and conversions of all fields are the same, exactly if none of these fields is fallible, with which `optional` is refused. `optional(off)` comes before it.", "quantifier": "all structs, all lists of fields, all literals", "why_tests_cant": "the tests have some fields with clearers or predicates, and compare no two forms", "anchors": ["fieldx_derive/src/lib.rs 351-378", "fieldx_derive/src/ctx/field.rs: is_optional, needs_lock", "fieldx_derive/src/fields.rs 128-136: exclusive arguments"]}
{"id": "C127", "title": "`into` is a default for `set` and `builder`", "statement": "Where a field, or a struct, says `into` and has both `set` and `builder`, `into` may be written in these two instead, as far as they do not say it themselves: the same structs are refused, and the pieces, errors, types, initialisers, bodies, visibilities, attributes and conversions of all fields are the same. No helper is generated because of `into`.", "quantifier": "all structs, all lists of fields, all literals", "why_tests_cant": "the tests use into in a few places and compare no two forms", "anchors": ["fieldx_derive/src/lib.rs 208-211, 296-298, 570-574", "fieldx_derive/src/ctx/field.rs: is_setter_into, is_builder_into", "fieldx_derive/src/fields.rs 249-262", "fieldx_derive/src/util/args.rs 139-142, 176-184"]}
{"id": "C128", "title": "`clone` and `copy` are defaults for `get`", "statement": "Where a field, or a struct, has `get` and one of the keywords `clone` and `copy`, the keyword may be written inside `get` instead, or left out if `get` says itself how to return the value: the same structs are refused, and the pieces, errors, types, initialisers, bodies, visibilities, attributes and conversions of all fields are the same.", "quantifier": "all structs, all lists of fields, all literals", "why_tests_cant": "the tests use clone and copy in a few places and compare no two forms", "anchors": ["fieldx_derive/src/lib.rs 257-262, 382-384", "fieldx_derive/src/ctx/field.rs: is_copy, is_clone, accessor_mode", "fieldx_derive/src/fields.rs 264-292, 342-344", "fieldx_derive/src/util/args.rs 144-174, 249-252"]}
{"id": "C129", "title": "`opt_in` of `builder`: only fields with `builder` of their own", "statement": "`builder(opt_in, ..)` of a struct is the same as `builder(..)` there and `builder(off)` at each field which says nothing of `builder`; and in a struct without `builder`, some field of which says `builder`, `builder(opt_in)` may be written or left out. In both cases the same structs are refused, and the pieces, errors, types, initialisers, bodies, visibilities, attributes and conversions of all fields, the hidden one of a reference counted struct included, are the same. With `opt_in` a field can be set by the builder exactly if it says `builder` itself, not switched off or with a name for the setter (C20).", "quantifier": "all structs, all lists of fields, all literals", "why_tests_cant": "the tests have two structs with opt_in and compare no two forms", "anchors": ["fieldx_derive/src/lib.rs 212", "fieldx_derive/src/ctx/codegen.rs 251-275", "fieldx_derive/src/ctx/field.rs 113-123", "fieldx_derive/src/codegen.rs 137-155"]}
{"id": "C130", "title": "Fields have an accessor without `get` if they are lazy, clearable, have a predicate or interior mutability", "statement": "Where neither a field nor its struct says anything of `get`, a field which is not skipped has an accessor exactly if a clearer, a predicate, `lazy` or `inner_mut` is asked for it, by itself or by the struct; `get` and `get(off)` come before that. So `get`, or `get(off)`, may be written at each field which says nothing of it: the same structs are refused, and the pieces, errors, types, initialisers, bodies, visibilities, attributes and conversions of all fields are the same.", "quantifier": "all structs, all lists of fields, all literals", "why_tests_cant": "the tests use a few such fields and compare no two forms", "anchors": ["fieldx_derive/src/ctx/field.rs 105-111", "fieldx_derive/src/lib.rs 255", "README.md 12-41"]}
