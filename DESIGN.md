# Formal model of fieldx: design

Source: vrurg/fieldx, pinned checkout in /repo (read as text, never built or run). Model: Lean 4.33.0 in `lean/`,
core library plus single Mathlib modules where noted in a file's imports.

## 1. Trusted base

* The Lean 4 kernel and the axioms each theorem depends on: at most `propext`, `Classical.choice`, `Quot.sound`
  (`lean/Verif/Axioms.lean` prints them for every theorem named in MANIFEST.json). No axioms of our own, no `sorry`,
  no `native_decide`, no `bv_decide`.
* That the model says what the Rust text says. Every definition cites file and lines in /repo. Nothing was executed.
* Third-party behaviour taken as given (documented behaviour of the crates, read into the model by hand):
  * `parking_lot::RwLock`: shared / upgradable / exclusive modes. The exclusive bit is claimed first and then the claimer
    waits for the shared holders to leave; a claimed bit blocks new shared and upgradable acquisitions; `upgrade` turns
    the upgradable hold into the claimed bit; `downgrade*` never blocks. No poisoning: a panic drops the guard.
    Which of several waiting calls is granted next is left open (any).
  * `tokio::sync::RwLock`: shared / exclusive; dropping a pending acquisition leaves the lock unchanged; downgrade never
    blocks. Order of grants is left open for one container (C11–C14); for several (C73–C75) it is first come, first
    served, as its documentation promises: whoever waits stands in a queue and only the first may take the lock.
  * `AtomicBool`: in `Model/Sync` and `Model/Async` a load gives the last store of the interleaving. In `Model/Weak` (C89) it
    may give any store which coherence allows: one not older than the newest store the thread can know of. One store uses
    `Release`, every other access is `SeqCst`; whether a load synchronises with the store it sees is left open, so any
    orderings would do. Locks synchronise: who
    takes the lock knows what earlier exclusive holders knew, who takes it exclusively also what shared holders knew.
  * `once_cell::unsync::OnceCell`, `Option`, `RefCell`, `Rc/Arc/Weak` as documented.
  * Which traits these types, the locks, their guards and atomics implement, as documented; auto traits are coinductive (C107,
    C108). A derived `clone` or `==` treats the fields one after another (C109).
  * `syn`, `quote`, `proc_macro2`: the text of an attribute is split into words, values, lists and literals.
  * `darling`: a derived reader takes a list of named arguments, refuses unknown names, names given twice and literals,
    hands each argument to the reader of its field, and runs `and_then` last. The readers themselves are modelled.
  * `serde`/`serde_json`: modelled as a list of keys and values with serde's `default`/`skip` rules; unknown keys are
    ignored, a repeated key of a field which is read is an error.

## 2. What is modelled, and how

| Layer | Files in /repo | Lean module |
|---|---|---|
| Specifications: optional cell with build-on-read, linearizability, precedence of arguments, typing of generated code, cell with guards, round trip, dependent fields, documented types | none (specification) | `Verif/Spec/*` |
| Lock semantics | third party | `Verif/Model/RwLock` |
| Sync lazy container, small-step, any number of concurrent calls | `fieldx/src/sync/fxproxy.rs` | `Verif/Model/Sync` |
| Async lazy container with cancellation | `fieldx/src/async/fxproxy.rs` | `Verif/Model/Async` |
| Several lazy fields whose builders read each other, threads with call stacks | the same plus generated accessors | `Verif/Model/Multi` |
| The same for async fields, tasks, queues of the locks, cancellation at any depth | `fieldx/src/async/fxproxy.rs` plus generated accessors | `Verif/Model/AsyncMulti` |
| Reading of attribute syntax into argument records | `fieldx_aux/src/*.rs`, `fieldx_derive/src/{fields,util/args}.rs`, `fieldx_derive_support/src/lib.rs` | `Verif/Model/Parse` |
| Argument records, as written by the user and as resolved | `fieldx_derive/src/{fields,util/args,ctx/field,ctx/codegen}.rs`, `fieldx_aux` helpers | `Verif/Model/Args` |
| Which helpers are written | `codegen_trait.rs`, `codegen/{plain,sync}.rs` | `Verif/Model/Emit` |
| Container types, initialisers, builder values, as data with an evaluator | `codegen/{plain,sync,codegen_trait}.rs` | `Verif/Model/Init` |
| Error type of a fallible field | `ctx/field.rs`, `codegen/{sync,codegen_trait}.rs` | `Verif/Model/ErrorType` |
| Bodies of the helper methods, as data with an evaluator; guards and panics | `codegen/{plain,sync}.rs` | `Verif/Model/Method` |
| Builder struct and `build()` over any list of fields | `codegen.rs`, `codegen_trait.rs` | `Verif/Model/Builder` |
| `build()` with its checks, error type and `post_build`, as data with typing and an evaluator | `codegen.rs`, `codegen_trait.rs`, `ctx/codegen.rs` | `Verif/Model/Build` |
| Attributes of the generated items: from arguments, made by fieldx, forwarded | `codegen.rs`, `codegen/serde.rs`, `codegen_trait.rs`, `util/args.rs`, `ctx/codegen.rs`, `serde_helper.rs` | `Verif/Model/Attrs` |
| Features: what is refused without them, what generated code names | `util.rs`, `util/args.rs`, `fields.rs`, `codegen/sync/impl_*.rs` | `Verif/Model/Features` |
| The run of the macro: generators in sequence, pieces collected, errors recorded | `lib.rs`, `codegen.rs`, `codegen_trait.rs`, `codegen/serde.rs`, `ctx/codegen.rs` | `Verif/Model/Expand` |
| Several lazy fields with builders which may fail, as programs | `sync/fxproxy.rs` | `Verif/Model/Fallible` |
| Several async lazy fields with builders which may fail | `async/fxproxy.rs` | `Verif/Model/AsyncFallible` |
| Lazy and lock-protected fields together, guards kept | `sync/fxproxy.rs`, `sync/fxlock.rs`, `codegen/sync.rs` | `Verif/Model/Mixed` |
| The lazy containers without a global order of memory accesses: knowledge of threads, loads of older stores, accesses to the value | `sync/fxproxy.rs`, `async/fxproxy.rs` | `Verif/Model/Weak` |
| Lock-protected fields of async structs: several containers, queues, tasks keeping guards, comparison, dropped futures | `fieldx/src/async/fxlock.rs`, `codegen/sync.rs` | `Verif/Model/AsyncLocks` |
| Lazy and lock-protected fields of async structs together, tasks with joined branches | `fieldx/src/async/fxproxy.rs`, `fieldx/src/async/fxlock.rs`, `codegen/sync.rs` 124-134 | `Verif/Model/AsyncMixed` |
| Identifiers as tokens | `codegen/codegen_trait.rs` 102-145, `fields.rs` 196-203, `ctx/field.rs` 364-388, `ctx/codegen.rs` 81-90, 277-300, 374-384, 419-433, `codegen/sync/impl_async.rs` 12-16 | `Verif/Model/Idents` |
| Visibility of items | `fieldx_aux/src/lib.rs` 122-132, `ctx/field.rs` 305-326, `codegen.rs` 210-280, 308-316, 385-460, 505-511, `codegen/codegen_trait.rs` 357-378, `codegen/serde.rs` 290-335 | `Verif/Model/Visibility` |
| Helpers of a lazy sync field run by several threads | `codegen/sync.rs` 53-111, 212-370, 465-647, `fieldx/src/sync/fxproxy.rs` | `Verif/Model/Calls` |
| Helpers of lock-protected sync fields run by several threads | `codegen/sync.rs` 63-111, 212-370, 465-647, `fieldx/src/sync/fxlock.rs` | `Verif/Model/LockCalls` |
| Helpers of a lazy async field run by several tasks, with cancellation | `codegen/sync.rs` 53-111, 212-370, 465-647, `codegen/sync/impl_async.rs` 57-63, `fieldx/src/async/fxproxy.rs` | `Verif/Model/AsyncCalls` |
| Helpers of lock-protected async fields run by several tasks, with cancellation | `codegen/sync.rs` 63-111, 212-370, 465-647, `codegen/sync/impl_async.rs` 57-63, `fieldx/src/async/fxlock.rs` | `Verif/Model/AsyncLockCalls` |
| One history of all containers (bookkeeping on top of the two mixed models) | none | `Verif/Model/Whole` |
| Threads calling the helpers of all sync fields, builders calling helpers | `codegen/sync.rs` 53-111, 212-370, 465-647, `fieldx/src/sync/fxproxy.rs`, `fieldx/src/sync/fxlock.rs` | `Verif/Model/Threads` |
| Tasks awaiting the helpers of all async fields, with branches, cancellation, builders awaiting helpers | `codegen/sync.rs` 53-111, 212-370, 465-647, `codegen/sync/impl_async.rs` 57-63, `fieldx/src/async/fxproxy.rs`, `fieldx/src/async/fxlock.rs` | `Verif/Model/Tasks` |
| Items taken out by `#[cfg]`, and what names them | `codegen.rs` 226-251, 282-528, `codegen/serde.rs` 55-534, `codegen/codegen_trait.rs` 186-206, 287-300 | `Verif/Model/Conditional` |
| Derives and attributes for serde on struct, shadow and its fields | `codegen/serde.rs` 31-118, 225-336, 443-534, `util.rs` 8-15 | `Verif/Model/SerdeDerive` |
| Checks of the model against the tests of fieldx (no properties) | `fieldx/tests/**` | `Verif/Suite` |
| `Default` and the constructors | `codegen.rs`, `ctx/codegen.rs` | `Verif/Model/Default` |
| Serde shadow struct, documents | `codegen/serde.rs` | `Verif/Model/Serde` |
| Names, visibility | `helper.rs`, `codegen_trait.rs`, `ctx/*` | `Verif/Model/Names` |
| Exclusive arguments | `fieldx_aux/src/util.rs`, `fields.rs`, `input_receiver.rs` | `Verif/Model/Exclusive` |
| `Self` rewriting, attribute lists, order of derives, fresh identifiers | `codegen_trait.rs`, `fieldx_aux/src/attributes.rs`, `ctx/*` | `Verif/Model/Tokens` |
| Lock-protected fields: several containers, threads keeping guards, comparison | `fieldx/src/sync/fxlock.rs`, `codegen/sync.rs` | `Verif/Model/Locks` |
| Generic parameters in the headers of generated items | `codegen.rs`, `codegen/{serde,sync,codegen_trait}.rs`, `input_receiver.rs` | `Verif/Model/Generics` |
| The generated structs, their fields and struct expressions; the `Copy` check | `codegen.rs`, `codegen/{serde,codegen_trait}.rs` | `Verif/Model/Structs` |
| The macro's context: cells, borrows, remembered answers, field contexts | `ctx/{codegen,field}.rs`, `codegen.rs`, `codegen/serde.rs` | `Verif/Model/Context` |
| Derived `Clone`, `Debug`, `PartialEq` and serialisation under guards and in async code | `fieldx/src/{sync,async}/{fxlock,fxproxy}.rs`, `codegen.rs`, `codegen/serde.rs` | `Verif/Model/Derived` |
| The user's code which helpers call, and the state of the field meanwhile | `codegen/{plain,sync}.rs`, `fieldx/src/{sync,async}/fxproxy.rs` | `Verif/Model/User` |
| Lazy fields of plain structs whose builders use each other | `codegen/plain.rs`, once_cell's `unsync::OnceCell` | `Verif/Model/Plain` |
| Argument types for other macros | `fieldx_aux/src/{value,syn_value,nesting_attr,util}.rs` | `Verif/Model/AuxArgs` |
| Contexts of local variables | `codegen/codegen_trait.rs`, `codegen/plain.rs`, `codegen/sync.rs`, `codegen.rs`, `codegen/serde.rs` | `Verif/Model/Hygiene` |
| Names without a path | `codegen.rs`, `codegen/serde.rs`, `codegen/plain.rs`, `codegen/sync.rs`, `codegen/sync/impl_async.rs`, `ctx/field.rs` | `Verif/Model/Words` |
| Variables around default expressions | `codegen.rs`, `codegen/codegen_trait.rs`, `codegen/plain.rs`, `codegen/sync.rs`, `codegen/serde.rs` | `Verif/Model/Captures` |
| Calls of `Self::default()` | `codegen.rs`, `codegen/serde.rs` | `Verif/Model/SelfCalls` |
| Default values as written | `fieldx_aux/src/default_arg.rs`, `codegen/codegen_trait.rs`, `codegen/serde.rs` | `Verif/Model/DefaultText` |
| The macro which declares helper arguments | `fieldx_derive_support/src/lib.rs` | `Verif/Model/FxHelper` |
| Reference counting and the self reference | `codegen_trait.rs`, `codegen.rs` | `Verif/Model/Rc` |

Property theorems live in `Verif/Props/*`, one file per group, apart from helper lemmas (`Verif/Proof/*`).

## 3. Plan per property

* **C01–C07, C09, C10** – one small-step model of `FXProxySync`: unbounded processes, each performing any sequence of
  operations, the lock, the flag and the value as separate cells, builder outcome chosen freely, a log of invocation,
  linearization, response and builder events. One inductive invariant ties program counters, lock, flag, value and log
  together. C02 is stated with the textbook definition of linearizability (own file, no reference to the model); the
  others follow from the invariant and from the legality of the linearized log.
* **C08** – from the invariant: some internal step is enabled; every internal step decreases a measure.
* **C11–C13** – the same for `FXProxyAsync`, with a cancel step at each await point.
* **C14** – proved for sync; for async the negation with a concrete reachable state, and the `_partial` (no guard held).
* **C15** – threads with call stacks over many fields, rank function on fields; invariant "held locks have higher rank
  than the one waited for"; deadlock freedom by minimal rank. Negations by concrete reachable stuck states.
  Converse: one thread that goes along a cycle of builders deadlocks, from any initial values (`Props/Cycles`; for C73
  `Props/AsyncCycles`, for C61 in `Props/Mixed`).
* **C16** – invariant: every stored value equals the denotation by well-founded recursion on rank.
* **C17, C18** – simulation between container operations and the specification cell, lifted to operation lists.
* **C19** – RefCell borrow-state machine, exact characterisation of panic.
* **C20–C22** – argument structures with every optional argument; resolution functions transcribed; decision theorems for
  all argument values. Negations by witnesses where the code departs (C21 mode disagreement, C22 field-level
  `mode(async)`).
* **C23–C25** – container type and generated expressions as data; typing judgement; evaluator; theorem over all
  configurations with the exact side condition; negations for the configurations outside it.
* **C26** – negation (the conversion inverts).
* **C27–C31** – list of fields of arbitrary length; `build` as checkers then constructors; induction over the list.
  C30 and C31 are false in general: negation and `_partial`.
* **C32–C35** – shadow conversion over lists of fields. C34, C35 false in part: negation and `_partial`.
* **C36, C37** – names as strings; injectivity lemma; clash witness for C37, a sufficient condition, and the exact rule
  (`Clash`: five ways for two methods of fields to come to one name, and `Own`: the names of the macro itself).
* **C38** – decision function; witness for sync `get_mut`.
* **C39–C43** – list and tree functions; induction.
* **C44** – heap of reference counted objects, invariant over histories.
* **C45–C51** – the async counterparts of C03, C04, C06, C07, C08, C09, C10, from the invariant of C11–C13.
* **C52, C53** – from the initialiser and builder models: exact rules and witnesses.
* **C54** – typing judgement for method bodies (`Spec/MethodTy`), exact rule over all attribute combinations.
* **C55, C56** – contents of `Default`, existence of constructors, over lists of fields.
* **C59–C61** – several lock containers, small-step, threads keep guards in a multiset; invariant between lock state, program
  counters and kept guards; linearizability with respect to a memory (`Spec/Memory`); deadlock freedom by induction on a
  well-founded lock order, negations by concrete reachable deadlocks.
* **C62** – documented name of a field as a relation (`Spec/Serde`), compared with the documents written and read.
* **C57, C58** – documented types and signatures as inductive relations (`Spec/Signature`), compared with the generators.
* **C63–C67** – readers as functions on syntax trees. C63: reordering as an inductive relation, every reader is independent
  of it. C64: a grammar as data (`Spec/Grammar`), acceptance equals membership. C65: a writer (`Spec/Spelling`), reading
  inverts it. C66: what an argument says as relations (`Spec/Reading`), reading equals them. C67: the documentation as a
  second grammar (`Spec/Documented`), inclusion, and witnesses for the forms that are refused.
* **C68** – headers as token lists; grammar of parameter lists and argument lists as relations (`Spec/Generics`); exact rule over
  all parameter lists, negations for bounds, defaults and consts inside the angle brackets.
* **C69–C72** – struct expressions as lists of names against the fields declared (`Spec/Structs`); typing of the hidden field
  with the judgements of C23; the `Copy` check against typing of accessors with and without `Copy`; parameters used by the
  fields. Each is an exact rule over all lists of fields, with witnesses where the English property fails.
* **C73–C75** – as C15 and C16 over async containers, with a queue for each lock; invariant "in the queue exactly if waiting".
  C74: calls below the innermost are at the user, so they can be dropped one after the other; the container invariant says
  what is held afterwards. C75: the invariant of C16 with counts of builder runs started, ended and dropped.
* **C76–C78** – `build()` as an expression over the struct expression of C27–C31: call, `?`, closure of `new_cyclic`. Type
  safety by induction on typing; C76 exact by cases; C77 and C78 from the theorems on the struct expression, with a log of the
  calls of user methods.
* **C79, C80** – attributes of each item as a list of marks (the user's, from an argument, made); sources in documented order
  with the relation of C20 (`Spec/Placement`); the sort of derives by induction; exact rules for the serde shadow.
* **C81, C82** – the gated paths in the types, initialisers and signatures of C23–C39, collected by recursion; acceptance with the
  feature checks; which paths exist where (`Spec/Gated`). Exact by cases on the generators.
* **C83–C85** – the macro as a program in a state monad (pieces written, errors recorded, panics). An effect calculus (`Does`) gives
  the exact pieces and errors of each generator, loops by induction; faults are specified from the arguments alone
  (`Spec/Expansion`). C84 refines the run to the declarative models of C27–C36 and C69.
* **C86** – the object of C15 with builders as programs which see the answers of their calls (`Spec/Fallible`). Invariant: every
  container agrees with one solution of the equations "field = end of its builder", the rest of each running builder still
  comes to that end. Termination by a multiset order on the calls on all stacks; a failed run is charged to its caller.
* **C87** – C86 over async containers. A dropped call leaves the program of the builder below as it is; runs without dropped
  futures end by the order of C86, so an endless run drops futures again and again. Builder runs are counted as in C75.
* **C88** – C15 and C61 in one model, without the restriction on kept guards. Each thread has a stack of lazy calls and guards
  beside its lock guards. Invariants: every container by itself is a reachable state of its own model; what a thread asks
  for comes after all it has in hand. Deadlock freedom by well-founded induction over the containers asked for, which are
  finitely many. A cycle of any length is turned into a schedule that deadlocks, by induction along the cycle.
* **C89** – a layer over the small-step models of both containers, in the view-based presentation of release/acquire memory.
  The order of the calls is built along the run: each call belongs to a store of the flag; an `is_set` which sees an older
  store is put behind the calls of that store. The yardstick is linearizability and freedom from data races with
  happens-before in place of real time (`Spec/Ordered`).

* **C90, C91** – the lock containers over tokio's lock. Who waits stands in a queue, only the first may take the lock, a
  future dropped where it awaits leaves the queue. Invariant between lock, queue, program counters and kept guards; the log
  discipline of C59 with cancellation. Order of arrival: the queue is `pre ++ t :: post`, the latecomer is not in `pre`, and
  only the head gains a guard. Waiting as in C61, with one more edge, "stands before it in the queue".
  The well-founded order of C61 is not needed: only containers somebody waits for matter, these are finitely many, and on
  them an order without cycles is well founded. For the converse a cycle is cut down to one without repetitions; task `a`
  takes a writing guard of its `a`-th container and then asks for the next.

* **C92** – the containers of C12 and C90 side by side. A task is a stack of calls and guards and may fork into branches; a
  branch is a task with a parent and hands its guards over when it returns. The order is free: `C92_deadlock_iff` says that
  deadlocks are possible exactly if it has a cycle, where "in hand" includes what awaiting tasks have. Shape: invariants over
  all runs, well-founded descent along the order for chains, a measure for termination, a constructed schedule for the
  converse.
* **C93** – identifiers. `Spec/Lexical` has words, keywords and raw identifiers after the Rust reference, with the letters beyond
  ASCII left open. The model makes the tokens of every piece of an expansion, with a panic as a result. The exact rule for
  structs without given names is `C93_idents_iff` for any list of pieces, and `C93_clean_iff` by arguments, through C84.
* **C94** – all judgements on one expansion. `Props/Sound` collects them over the pieces of a run (`Sound`), gives the exact
  conditions on the arguments (`C94_sound_iff`, by the equivalences of the single properties) and shows that a class of
  structs which can be read off the attributes meets them (`C94_common`).
* **C95** – visibility. `Spec/Reach` has Rust's rules: how a visibility is spelled and from which modules an item is seen. The
  written tokens are compared with a relation that reads the arguments (`Wants`); reach is compared by depth in the module tree.
* **C96** – the bodies of C24 on the container of C02. `Spec/Calls` says which operation of the cell a call stands for and what
  a panic of user code does. The proof is a forward simulation: `Loc` ties the place in the body to the place in the container,
  the step which decides a call of the container decides the helper; the log of the helpers is then legal because the log of the
  container is. Progress comes from C08, the bound from a weight that counts what is left of the body.
* **C97** – the bodies of C24 on the locks of C59, several fields at once. A thread may keep any number of guards while it calls
  helpers. `Spec/LockCalls` is plain memory; a panic changes nothing. Proof as for C96, with the guards of the caller in `Loc`;
  no deadlock by C61.
* **C98** – C96 for async fields, with cancellation. The log marks dropped calls; `Spec/Cancel` takes them out of the history, and
  the rest is linearizable. Same simulation, on C12 and its invariants; dropping the future is possible only where the call of
  the container has not taken effect.
* **C99** – C97 for async fields, with cancellation as in C98, on the fair locks of C90. No deadlock by C91.
* **C100** – C88 and C92 in one history. Specification: lazy cells and plain memory side by side (`Verif/Spec/Whole`).
  `Verif/Proof/Weave` puts histories of single containers together; the process numbers of a call tell its container.
* **C101** – C96 and C97 under the threads of C88. Every field keeps the invariant of C96 or C97; in addition the calls of a
  thread are nested and their fields ordered. Waiting is that of the containers below (`containers`), so that the chain of C88
  applies. The steps left are bounded by 79 for each helper or guard on a lazy field (what C96 bounds for one process), 27 for
  the helper on a lock-protected field and one for each guard of those.
* **C102** – parts of the expansion of C83 with the attributes of C79, the names they declare and mention. Sound: no name left whose
  part is gone. The exact rule (`Spec/Conditional`) by cases on the parts.
* **C103** – C98 and C99 under the tasks of C92. Every field keeps the invariant of C98 or C99. The frames which are at work in
  their containers form a state of C92 (`proj`), whose invariants hold, so that its chain of waiting tasks applies. At most 64
  steps are left for each helper or guard.
* **C104** – what serde's derives refer to when they see the attributes (`Spec/SerdeDerive`) against the pieces of C83. The exact
  rule by cases on what is referred to; the attributes are those of C79 and the functions those of C68.
* **C105** – one equivalence per action of each machine: possible exactly where the place in the code and the lock say so. By
  cases on the place; the invariants of C01, C96–C103 rule out the places which would be stuck. It keeps the other properties
  from holding because a machine refuses steps.
* **C106** – calls of the evaluator of Method on fields with guards alive, against `Spec/Guards`, which says by kind of field and
  helper what is needed of the lock. By cases on the arguments.
* **C107** – types of fields, guards and futures made of those of std and the lock crates, with the auto traits of each. One round of
  the compiler's search is a monotone function, of which the struct's traits are the greatest fixpoint. The rule for one field
  by cases on its arguments (`wrap` in `Spec/Traits`).
* **C108** – the impls of the containers as a table, against a rule per trait in `Spec/Traits`. By cases on the arguments.
* **C109** – any history that can be linearized; the moment of a part is the prefix of the order before its call. For an undisturbed copy
  the calls between two such prefixes change none of the fields. Negations by a schedule each; for the copy over all orders of its calls.
* **C110** – the run of the macro as a program over borrow counts and remembered answers which may panic. A triple `Keeps` says that a
  part succeeds, restores the borrows and keeps an invariant: what is remembered or was answered is what `Model/Args` says. Closed
  under sequence, loop and scopes of borrows; what a phase may call is compared with what is borrowed around it.
* **C111** – by fields: what a container's trait method does under a guard is compared with what the field was asked to be (case
  analysis over the flags), then induction over the fields for the first one in the way, and for `==` the first one that differs.
* **C112** – by evaluation of the helper's chain for every combination of flags: the list of calls of the user's code with the state of the
  field at each; then C106 for what another helper does in that state.
* **C113** – comparison of reading with an evaluation that keeps nothing: its depth is a rank, a builder fills only fields of smaller rank,
  so not its own. Ranks below a field are all taken, so the number of empty fields bounds the stack.
* **C114** – case analysis over the shape of an argument, induction over elements and literals.
* **C115** – invariant of the loop over the fields (the map says which arguments are in which group), then lists without repetition.
* **Waiting (C61, C88, C91, C92, C101, C103)** – `Props/Waits`: in reachable states somebody is waited for exactly if the thread, or
  branch, can make no step. So the edges the deadlock theorems speak of are neither too many nor too few.
* **Accesses (C89)** – what a step counts as (write, read, store, load) is tied to what it does to the state and what it depends on.
* **C116** – the scoping judgement inverted constructor by constructor; cases of the predicates of the field; the text by the same cases
  as the other models.
* **C117** – membership of each piece in the expansion by C84 and its views; the words of a body by cases on the branches of its
  generator; lookup by cases on the words.
* **C118** – the scopes around the default in each initialiser by the branches of its generator; the places by C84 and its views.
* **C119** – the calls by C84; the names of methods by the characters they begin and end with, as for C37.
* **C120** – by cases on the item; a specification of its own says what items, code and serde's `default` mean.
* **C121** – the closed form of a run (proof of C83) compared for two lists of fields; a witness for each heeded argument.
* **C122** – fields which answer all getters alike are written alike (`Proof/Lower`); then answers before and after moving the argument.
* **C123** – as C122, with fields which answer all getters alike but those for `reader` and `writer`; the pieces are compared after
  these methods are filtered out.
* **C124** – as C122: the two forms answer all getters of all fields alike, and the check of exclusive arguments counts them alike.
* **C125** – as C122, where two fields need to know an error type alike only if they are fallible.
* **C126** – as C122; the check of exclusive arguments is split by groups to find when `optional` is refused.
* **C127** – as C122, for the two sub-arguments.
* **C128** – as C127, with the three getters for the accessor mode.
* **C129** – as C127, with `needs_builder`, `is_builder_opt_in` and `needs_builder_struct`.
* **C130** – as C126, with `needs_accessor`.

Nothing is planned as "not applicable".

## 4. Simplifications

* **Sync, Async.** One container. A thread holding several guards counts as several processes, so every real execution is
  covered. The lock around the builder is left out of Sync (only ever read-locked). Progress (C08, C49) is absence of
  wedged states plus a bound on steps; fairness of the lock is not modelled.
* **Multi.** One container for each lazy field, a fresh process number for each call. Non-lazy lock fields are not included.
  For C16 builders are infallible programs and a guard is dropped after the value has been copied.
* **Mixed.** Lifts both restrictions of Multi and that of Locks. Code of the user called from within a lock-protected container
  (`clone`, `eq` of the content) still calls no fields.
* **AsyncMulti.** As Multi; a builder awaits one call at a time, calls joined within one task count as tasks of their own.
  Every step between awaits is shown, so interleavings are those of a multi-threaded runtime.
* **Locks.** Sync locks only (for `FXRwLockAsync` see AsyncLocks). `.into()` of setters is not shown. User
  code (`clone`, `eq`) takes no locks itself, returns or panics.
* **Parse.** Errors are not told apart; a panic of the macro counts as one. Paths, identifiers and expressions are strings,
  attribute paths have one segment.
* **Method.** Copy and clone give the same observable value. `.into()` on arguments is not shown. Types are abstract: one
  type `T` per field, and the constructors the generators wrap around it. Lifetimes and trait bounds are not checked.
* **Init, Builder, Default, Serde.** User expressions (`default`, builders, `post_build`) are opaque values or functions.
* **Serde.** A document is a list of keys and values; formats and `Serialize` of the field's type are not modelled.
* **Generics.** A bound, the type of a const parameter and a default are one token each, the `where` clause is opaque.
* **Structs.** The types of the user's fields are given by the parameters they mention. The feature `serde` is on.
* **Names.** Identifiers are strings; raw identifiers and Unicode rules are not modelled.
* **Tokens.** Token trees with idents, puncts, literals and groups; spans are left out.
* **Rc.** One lazy field per object, each step atomic, allocations never reused, user code does not assign the hidden field.
* **Build.** Methods take `self` and return `Self` or `Result`; early return is the only effect of `?`. Error conversions are a
  relation between names of types.
* **Attrs.** An attribute is its path and the rest as text; `sort_by` is an insertion sort (stable, as the standard one).
* **Features.** Elsewhere the features `sync`, `async`, `serde` are on. A path is known by the module or crate it starts with;
  what the user's own types and expressions name is left out.
* **Expand.** A piece is a tag with the name of the field; its tokens are in the other models. Names given as strings are
  valid identifiers.
* **Fallible, AsyncFallible.** Builders are deterministic programs, call one entry point at a time and drop the guard once they have seen the
  value. Nobody sets, clears, or writes through a guard. A panic is an answer the caller may catch; what unwinding drops is
  in Sync.
* **Suite.** The code cannot be run here, so the model cannot be compared with it directly. `Verif/Suite` compares it with what
  the authors recorded: the attributes of every struct under `fieldx/tests` go through `Model/Parse`, the single-threaded
  tests are replayed through `Model/Method`, `Model/Builder`, `Model/Build` and `Model/Serde`, and the messages in
  `fieldx/tests/uncompilable/stable*` are compared with `Model/Features`, `Model/Exclusive` and `Model/Names`. These are finite
  checks, not proofs about fieldx, and no claim in MANIFEST.json rests on them. Struct attributes were extracted by a script;
  the statements of the tests and the users' functions were transcribed by hand, with values as strings. What is left out is
  listed at the head of each file. They guard against a model that is wrong about the ordinary cases; they say nothing on
  concurrency.
* C89 covers one container at a time; the flag is its only atomic. Reorderings inside the locks are the locks' business.
* **AsyncLocks.** `clone` and `==` (with `blocking_read`) are those of threads outside of the runtime; inside they panic. A
  waiting task which was woken is the same as the first of the queue that has not moved yet.
* **AsyncMixed.** A branch is a task of its own while it runs; `select!` and timeouts are branches which cancel their calls and
  return with nothing. A task that awaits branches runs no code of its own, in particular it drops no guards. A call has one
  process number of its own. This lifts the restriction of AsyncMulti to one awaited call at a time for deadlocks (C92), not
  for the results of builders (C87).
* **Idents.** `syn::Ident::new` and `quote::format_ident!` are modelled from their documentation: a word, keywords and `_` let
  through; `r#` at the beginning of the finished string makes a raw identifier; arguments which are identifiers lose theirs. Identifiers
  are in normal form C; weak keywords (`union`, `'static`, `raw`, `safe`) can name things and are no keywords here; edition
  2021, so `gen` is none either. `Names` and `Serde` speak of strings: a field written with `r#` stands there without it (`C93_names`).
* **Sound.** What is checked is the union of the judgements named in `Sound`; bounds such as `Copy`, `Clone`, `Default` of the
  user's types, lifetimes of borrows across calls, and lints are not.
* **Visibility.** A path in `pub(in path)` is one token and what it names is given. Macros and `use` do not occur: an item is seen
  where its visibility says, re-exports are left out.
* **Calls.** A guard in a temporary or local is dropped at the end of the body, as the scopes of Rust say. Whether user code
  called by a helper is going to panic is fixed when the call begins. The self reference of an `rc` object can be upgraded, since
  somebody calls the helper on it. A setter without `into` is one whose conversion does not panic.
* **Lock calls.** As for Calls. The content of a field without `optional` is `some v`; that nobody stores nothing there is the
  typing of C54 and is not repeated.
* **Async calls.** As for Calls. A future which is made and never polled is no call; making it and its first poll are one step.
  The future of a helper is dropped only where it awaits the container, which is all the awaiting it does.
* **Async lock calls.** As for Async calls and Lock calls.
* **Whole.** As for Mixed and AsyncMixed. Calls of generated helpers are those of C96 to C99 on top of the containers; here the
  calls are those on the containers.
* **Threads.** As for Calls, Lock calls and Mixed. The `clone` and `into` of the user which a helper calls do not call helpers.
* **Tasks.** As for Async calls, Async lock calls and AsyncMixed. The `clone` and `into` of the user which a helper calls do not
  await helpers. A builder which is dropped drops its guards first; the model lets the user keep them too.
* **SerdeDerive.** serde's derive macros are what their documentation says of `from`, `into`, `default`, `skip*`, `rename`; the
  user imports `Serialize` and `Deserialize`, whose names the expansion writes without a path. The value of a default is opaque:
  whether it has the type wanted is the user's.
* **Conditional.** A `cfg` on the struct itself is settled before the macro runs. Only names are looked at, not types or unused code.
* Compile-time behaviour of Rust is covered only by the typing judgements in `Spec/InitTy`, `Spec/MethodTy` and
  `Spec/BuildTy`.
* **Traits.** Generic structs stand for their instances. A setter's argument has the type of its field. `derive(Default)` beside the
  generated `Default` is not looked at here.
* **Context.** Generators are reduced to the calls they make on the context, in any order and number; which of them occur in a phase was read
  off the code. Contents of token collections are in Expand. An error is recorded while the field's context is alive, which is earlier
  than in the code and stricter.
* Derived: guards of others stay as they are during a call; "waits" means not before one is dropped. `blocking_read` of tokio panics
  in async code, `Debug` of both lock types and of `RefCell` tries and goes on: these are taken from their documentation.
* User: a helper inside the user's code is called in the same thread or task, on the same field. Re-entering the builder of a plain
  lazy field is not part of it: `OnceCell` panics then. Unwinding drops all guards; what a guard's drop does is in the lock models.
* Plain: the size of the stack is counted in builders; running out of it is the end of the process. That `OnceCell` asserts an empty
  cell after the closure is taken from its source and documentation.
* AuxArgs: types with a parser are their parser; numbers are decimal without suffix; floats, characters and byte strings are further
  instances of the general theorem about literals.
* FxHelper: an object of a helper struct is the answers of its fields to `is_some`/`is_present`; types of fields are known up to what
  the macro and the two methods ask.
* Hygiene: of a span only its context is kept, a context is a name; a use refers to a variable if both name and context are the same,
  as for tokens of `macro_rules!`. An argument has one context, that of its first token.
* Names: a module is a map from words to items, which comes before the glob import of the macro and before the prelude; globs of the
  module's own and their ambiguities are left out. Paths from the root (`::std`, `::fieldx`) are taken to lead where they say.
* Captures: default expressions and the code of the macro are of one context. The default in the `serde` argument of the whole
  struct is left out; its function has no parameters.
* SelfCalls: functions made for serde defaults are not counted among those of the struct; their names begin with two underscores.
* DefaultText: types are those of string literals, `String`, `bool` and names; what literals, constants and calls mean is a parameter.
  Elsewhere a default value is its text (`C120_read`).

## 5. Where the code departs from its documentation

Each entry names the theorem with the concrete witness.

* The conversion `bool -> FXBaseHelper` is inverted (C26).
* Field `mode(async)` gives a plain field; field `sync` in an async struct gives async code; `inner_mut` with `lock` is
  accepted and gives sync code; the result of `is_rather_sync` depends on order (C22).
* `accessor_mode` and `is_clone` disagree; `copy(off)` means clone in plain structs (C21).
* A predicate with `optional(off)` on a plain field, and a reader with `lock(off)`, are silently dropped;
  `builder("name", off)` still writes a builder method (C20).
* Struct level `fallible` on an optional locked field makes the predicate `try_read().is_some()`, always true (C25).
* The clearer of a plain `inner_mut` field with `optional(off)` leaves `T::default()` (C24).
* `builder("name", off)` without a default panics in `build()` (C30); struct level `builder(required)` reaches fields
  with `builder(off)`, then `build()` always fails (C31).
* A skipped field has no initialiser in `build()` (C53); the sync builder does not rewrite `Self` in defaults (C52); the
  rewriting prints generics with their bounds (C40).
* A bare `default` on a lazy or optional field of a sync struct with a builder makes the macro panic (C23).
* Accepted combinations whose helper does not compile (C54): plain `as_ref` with lazy or `inner_mut`, `copy(off)` with
  `inner_mut`, fallible with copy or clone behind a lock, fallible bare sync accessor, async lock accessors without await,
  and others listed in `refused…` (Props/MethodTy).
* Async accessors take the write lock even when the value is set, so reading twice in one task blocks (C14).
* Serde: a failing lazy initialisation is swallowed and written as null (C34); async initialisation is not awaited and
  written as null (C33); an empty optional plain field with a default comes back with the default (C32); in sync structs
  a missing field with a declared default stays empty (C35).
* Sync `get_mut` takes the visibility (C38) and the attributes (C20, C79) of the accessor; builder methods are always
  `pub` (C38).
* Attribute lists are split at any punctuation (C41). Exclusives inside helpers test presence, so `private(off)` counts
  (C39). Generated names can clash (C37).
* A struct without fields gets `new()` calling a `Default` which is not written (C56).
* A skipped field of a plain `inner_mut` struct becomes `RefCell<T>` (C57).

* `a == a` on lock fields takes two read locks, which deadlocks with a waiting setter; so do crossing comparisons (C61).
* The same holds for lazy containers; and a read guard of a lock field kept while reading a lazy field whose builder sets that
  field deadlocks a single thread (C88).
* `serde("name")` on a field does not rename it in documents (C62).
* `public(some::module)`, `builder(init(..))`, `builder(opt_in)` of a field and attributes `name = "value"` are documented
  and refused (C67).
* Bounds, defaults or consts inside `<…>` of a struct are printed where only names may stand: serde structs with any of
  them, builders of reference counted structs with bounds, and builders with defaults do not compile (C68).
* `rc(off)` with a builder names a field which is not there; fields with `serde(serialize(off))` are left out of the
  conversion into the shadow, which has them; `serde(off)` fields have no value with `default(off)` (C69).
* Struct level `inner_mut`, `lock`, `reader`, `writer` reach the hidden self reference and break it (C70).
* Skipped fields are asked to be `Copy`, the hidden `Weak` among them: `rc` with `get(copy)` never compiles (C71).
* A parameter used only in skipped or `serde(off)` fields is unused in the builder or the shadow (C72).
* `rc` with `post_build` and `error` puts `?` into the closure of `new_cyclic`, which does not compile (C76); a failed
  `post_build` empties the builder (C78).
* Struct level `attributes` do not reach the serde shadow struct, and are put on each of its fields (C79). Without
  `forward_attrs` in the `serde` argument in force every attribute of a field is copied to the shadow (C80).
* Only the keywords `sync`, `r#async`, `serde` are refused without their feature: `lock`, `reader`, `writer`, `mode(..)`,
  `inner_mut(off)`, and an async field beside a lazy one give code with missing modules (C81). Code with guards in
  signatures names `::parking_lot` and `::tokio`, which the user's crate must list itself (C82).
* A sync fallible field without an error type is reported twice with serde or a builder; a panic on bare `default` hides all
  other errors (C83). A field at fault is dropped from the struct and mostly kept in `Default` (C85).
* A field `r#type` gets an accessor and a builder method `type`, which is a keyword; a serde default which is no string makes the macro panic
  if the field or the struct is written with `r#` (C93).
* `builder(private)` or a narrower `builder(public(..))` hides `build()` but not `builder()`; `myself()` is private unless `rc` says
  otherwise, whatever `public` says at struct level (C95).
* A `#[cfg]` on a field stays on the declaration and goes to the shadow, not to what names the field: with `Default`, which is on
  unless switched off, a builder, serde or any helper the code does not compile when it does not hold. A `cfg` in
  `builder(attributes_impl(..))`, `builder(attributes(..))` or `serde(attributes(..))` never works (C102).
* The struct's serde default may be an object of the struct, the documentation says, since it is converted: only if the struct is
  serialised as well is there such a conversion. `serde(default)` on a struct with `default(off)` is accepted and does not compile
  (C104).
* `lock(off)` on a lazy field of a sync struct, or `inner_mut`, gives a cell for one thread, so that the struct is not `Sync`; a lock
  does not make up for a type that is not `Sync`. An async struct with a lazy field beside such a cell does not compile
  (C107).
* `Clone` for `FXProxyAsync` asks for `Clone` of builder wrappers, which have none: async structs with lazy fields cannot derive it,
  though serialising asks for it. Sync ones ask for `Clone` of the error type (C108).
* A derived `clone` or `==` of a struct takes the lock of one field after another. A copy made while another thread sets two fields may
  have the new content of one and the old one of the other, in a combination the object never had (C109).
* Async `Clone`, `PartialEq` and serialisation of a struct with a lock, and `Debug` of one with a lazy field, panic inside the runtime;
  printing or cloning an object in the builder of its lazy sync field never returns (C111).
* Setters of lock and lazy fields of sync and async structs evaluate `value.into()` when they already have the write lock; the setter
  of a plain lazy field takes the old value out before, and loses it if the conversion panics (C112).
* A plain lazy field whose builder needs the field itself overflows the stack, or panics with "reentrant init" if it does so only
  sometimes; the value of the inner run stays (C113). A sync field waits for itself there (C15, C88).
* In fieldx_aux, `pi` alone and `foo(std::sync::Arc, 1..=42)` are documented and refused, a bare `FXPunctuated` argument is read as its
  own element, and `set_literals!` without an upper bound drops literals (C114).
* The groups of `fxhelper` live in a `HashMap`: which of two errors about `get(public, private, clone, copy)` a user sees depends on the
  build of fieldx_aux. In a helper `private(off)` conflicts with `public`, in a field or struct it does not (C115).
* The receiver of a helper has the span of an argument or an attribute, but `maybe_ref_counted_self`, the value of an `inner_mut` setter,
  `field_manual_value` and the receiver of `build` have that of the macro call. If a `macro_rules!` macro writes the struct and passes on
  attributes of fields given by its user, lazy accessors, these setters and `build` do not compile: `self` is not found (C116). The
  mutable accessor of a sync field has the span of the accessor (sync.rs 318).
* Most items are named by paths from the root, but `Ok`, `Some`, `None`, `Default`, `Copy`, `Sized`, `Send`, `bool`, `FXStruct`,
  `Serialize` and `Deserialize` are not in some places (codegen.rs 294, 349, 418, 495, 515; serde.rs 236-252; plain.rs 166, 266, 341;
  impl_async.rs 42; ctx/field.rs 475). A module with `use anyhow::Ok`, say, breaks every struct with a builder (C117).
* The closure given to `new_cyclic` has a parameter `me` with the span of the call (codegen_trait.rs 258), and default expressions
  are put inside. In an `rc` struct with a builder `default(me())` calls the parameter instead of the user's function, and only in
  `build`, not in `Default` (C118).
* `new` and the conversion from the shadow call `Self::default()` (codegen.rs 242, serde.rs 372). If a field called `default` has an
  accessor, that is the accessor, and the struct does not compile (C119). `build` calls `::std::default::Default::default()`.
* `default("a")` is always `String::from("a")` (codegen_trait.rs 339-345), so a field of type `&'static str` cannot have such a
  default. In `serde(default("a"))` the string is the name of a function instead. `default(off)` does not switch anything off, it is
  the value `off` (default_arg.rs 66-68). `serde(default(a = 1))` is an error of the macro on a struct only (serde.rs 499-510) (C120).
* `skip` does not make the macro leave the field alone, though lib.rs 474 says only `default` is respected. Of the other arguments
  fourteen have an effect: `builder` makes a builder object (ctx/codegen.rs 258-275), `sync`, `reader` and the like make the struct sync
  (ctx/codegen.rs 437-451), `get(copy)` demands `Copy` (codegen.rs 190-192), `inner_mut` wraps the type (plain.rs 40-61), `lock` wraps
  the initialiser only (sync.rs 649-690), `fallible` demands an error type (sync.rs 179-184) (C121).
* Arguments of the struct are not just defaults for its fields. In a sync struct with `no_new`, `lazy` of the struct does not ask for
  `Default`, `lazy` of each field does (ctx/codegen.rs 393-418). `inner_mut` and `lock` of a field choose its mode (fields.rs 217-237);
  of the struct only `lock` does, and `inner_mut` of a field comes before it (util/args.rs 109-119). `set(into(off))` of the struct beats `into` of the struct, but not `into` of the
  field. `clone(off)` of a field does not take back `clone` of a plain struct (ctx/field.rs 264-289). With `rc`, `get`, `clearer`,
  `predicate` and `fallible` of the struct reach the hidden field (C122).
* `#[fxstruct(reader(off), writer)]` makes a plain struct without any `writer` method: `is_sync` of the struct takes the answer of
  `reader` before that of `writer` (util/args.rs 115-117). At a field the same two arguments make a sync field with the method (C123).
* `mode(plain)` of a struct is refused beside `inner_mut`, though `inner_mut` is meant for plain fields; and a struct with one sync
  field is taken for sync, with all its other fields, unless `mode(plain)` is written (C124).

Seen while reading, and not stated as a theorem: `set(into(off))` is rejected.

## 6. Theorems

The exact names for each property are in MANIFEST.json; `lean/Verif/Axioms.lean` prints their axioms. Suffix `_partial`
marks a theorem weaker than the English property, `_false` or `_fails` a negation with a concrete witness; the `note` in
MANIFEST.json says what is missing.

Wrong programs tried against the theorems are in seeded/LOG.jsonl: the edit, the claim it breaks, the theorems which
failed, and what was tightened if a theorem survived.
