# limabean: formal model and proofs

Subject: `tesujimath/limabean` at the pinned commit, sources under `/repo` (Rust server `limabean-pod`, Rust launcher
`limabean`, Clojure front end). This document says what is modelled, how, what is trusted, and how each property in
`properties.jsonl` is (to be) proved. Status per property is in `MANIFEST.json`; mutation tests of the theorems are logged
in `seeded/LOG.jsonl`.

## 1. Layout

| directory | content |
|---|---|
| `lean/Verif/Basic` | decimals, strings, association maps, list lemmas: no code of the project |
| `lean/Verif/Pod` | model of the Rust server, one file per source file, each definition cites `/repo` lines |
| `lean/Verif/Server` | model of the server's JSON-RPC loop, request dispatch and wire formats, likewise |
| `lean/Verif/Clj` | model of the Clojure front end, likewise |
| `lean/Verif/Spec` | specifications: small, independent of the model's helpers (only its data types are shared) |
| `lean/Verif/Proofs` | invariants and lemmas |
| `lean/Verif/Props` | the property theorems, with a non-trivial example beside each |
| `lean/Verif/Recorded` | tests of the model against the golden files in `/repo/test-cases` |

## 2. Trusted base

* Lean 4.33.0's kernel. No axioms are added; the theorems use at most `propext`, `Classical.choice`, `Quot.sound`
  (checked by `vcheck` and by `#print axioms`). No `sorry`, `native_decide`, `bv_decide`.
* The faithfulness of the hand translation from Rust and Clojure to Lean (each definition cites the lines it models). It is tested,
  not proved: `Recorded/*.lean` run the whole model (`loadBeanfile`: requests to the server, plugins, booking, answers, merging)
  on all fourteen ledgers of `/repo/test-cases`, in the kernel, and compare with every golden file the project has recorded:
  raw and booked directives, their texts, inventories, rollups, journals, errors. All agree. What is given by hand there: the parsed
  directives (the parser is external), and, in `Full`, `Trading`, `CostsAndPrices` and `Tolerance`, what the booking library answered
  for each transaction (also external), taken from the record. These answers meet the contract `BookLib.Lawful` which many theorems assume
  (`replay_lawful`). In `Full` the parsed directives are those recorded after its plugin, which passes on all. Tables are compared by their words, as the layout is not modelled.
* The modelling decisions below.

## 3. Modelling decisions

* **Decimals.** `rust_decimal::Decimal` is modelled by `Dec`, a mantissa in the integers and a scale (number of decimal
  places); addition keeps the larger scale, multiplication adds scales, comparison is by value. The 96-bit
  mantissa limit, the maximal scale 28 (overflow panics and rounding) and the scale of a sum with zero (which `rust_decimal` takes from the
  other operand) are not part of it; they are modelled apart, in `Pod/Decimal` and `Pod/Bounded`, where C74 says when they matter. Numbers of the front end are `Dec` too, read as follows: scale 0 is an
  integer (which is what cheshire makes of a JSON number without decimal places), a positive scale a `BigDecimal`. Clojure's `compare`
  is by value; Clojure's `=` is by value within each kind and false between the kinds. Overflow of 64-bit integers
  (an exception) is modelled apart, in `Clj/Numbers`, where C72 says when it matters; elsewhere addition is exact.
* **Hash maps** are association lists with unique keys. Iteration order is not determined by the map: wherever the code
  iterates over a hash map, the model applies an arbitrary reordering function (`Env.order`), constrained only to return a
  permutation, so theorems hold for every iteration order.
* **Panics** (`unwrap` on `None`, index out of range, `panic!`) are an explicit outcome `panic`. State changes which happen
  before an error is returned persist in the model exactly as in the code.
* **The booking library** `limabean_booking` is a separate crate whose source is not in `/repo`. It is a parameter
  (`BookLib`): positions, their units, `accumulate`, `book`, support predicate and default method are arbitrary. Where a
  property depends on the library doing its job, the theorem has the hypothesis `Lawful`, a written contract; a concrete
  lawful library is exhibited so that the hypothesis is not vacuous. Theorems without that hypothesis hold for any library.
  Further contracts on the library are `PlacesBlind` and `CountsPlaces` (C74), and on `rust_decimal` there is `Arith.Lawful` (C74); instances
  show that they can be met. Another contract is `DatesExist` (C59, C61): costs have dates of the calendar, as `time::Date` has no others.
  A third is `Blind` (C58, C59): of postings the library sees only what the trait `PostingSpec` shows
  (rust/src/api/booking/types.rs:9-33). It is needed because the model hands the library whole postings.
  A fourth is `LooksAtItsAccounts` (C81, C83): of the functions for holdings and booking methods which `book` is handed
  (rust/src/api/booking/accumulator.rs:205-216) the library looks only at the accounts of the postings.
  A fifth is `NameBlind` (C87): under other names for the accounts, different for different ones, the library refuses the same
  transactions and otherwise returns the same amounts and holdings; the texts of its refusals may differ.
  A sixth is `Rebooks` (C90): postings written out with the amounts and lots which were booked are booked to the same effect.
  A seventh is `BooksPlainly` (C102): a transfer without cost and price between two open accounts is booked by adding it to both.
  An eighth is `BooksInFull` (C113): so is any transaction of which all amounts are written and add up to nothing.
  A ninth is `BlindToDecimals` (C115): holdings of the same amounts are alike to it, however many decimals they have.
  A tenth is `CountsWith` (C116): holdings in other units stay so when amounts in these units are added.
* **The server's surroundings** are a parameter `Ext`: the store of sources (create a synthetic span, resolve a span, render a
  report), the text of a reason, serde's error texts, conversion of numbers to floating point. Theorems hold for all of
  them, except where a contract is a written hypothesis (C28).
* **JSON** is a tree whose objects are lists of entries in order, with duplicates, so that reading can be modelled on every
  input. serde_json's rule that a borrowed `&str` cannot hold a string with escapes is modelled (`borrowable`). A line of input is either
  not UTF-8, or text which is not JSON, or a tree. From text to tree and back is `Server/JsonText`, written from the documentation of
  serde_json and Jackson; C88 proves that nothing is lost on the way, which is why everything else may speak of trees. serde_json's limit
  on nesting is part of the model of the client, which decides whether the server receives a tree or garbage (`Clj/Pod`, `lineOf`; C96). It is assumed that
  `Decimal` is read from numbers with an exponent too (rust_decimal tries `from_str`, then `from_scientific`).
* **Parser** (`beancount_parser_lima`), **serde_json**, **cheshire**, **tabulator**, file system, processes: parameters, or outside the model.
  Conversions from parser values are modelled for the parts the server's answers depend on.
* **Error reasons** are structured values (`Reason`), annotations are structured rows. The text of reasons is modelled in `Pod/Reason` (C85,
  C86); elsewhere it is a parameter, so that theorems hold for this text as for any other. The rendering of annotations (tabulator) is not modelled.
* **Strings** are lists of characters.
* **Clojure data**: records with optional fields for directives and postings (the keys the code uses), a JSON-like tree where
  the code walks generic data. Transducers are modelled as step functions with explicit state.

## 4. Coverage

| source | model | not modelled |
|---|---|---|
| `rust/src/api/booking.rs`, `booking/accumulator.rs`, `booking/types.rs` | `Pod/Accumulator`, `Pod/Types`; texts of reasons `Pod/Reason`; with decimals of limited size `Pod/Bounded`, `Pod/Decimal` | tables in messages |
| `rust/src/api/types/raw.rs`, `booked.rs`, `serializers.rs`, `types.rs` | `Pod/Types`, `Server/Wire` | forms which serde reads but nothing in limabean writes: structs as arrays of their fields, decimals as strings |
| `rust/src/api/types/parser_type_conversions.rs` | report resolution, in `Server/Server`; conversion from the parser's types, in `Server/Convert` | the parser's own types beyond what is converted (options only the parser uses, the text of expressions) |
| `rust/src/api/types/booking_type_conversions.rs` | trait plumbing for the library parameter | |
| `rust/src/api/server.rs`, `json_rpc.rs`, `bin/limabean-pod/main.rs` | `Server/Json`, `Server/Server`, `Server/JsonText` | failure to write to stdout, logging, tests inside json_rpc.rs |
| `clj/src/limabean/core/inventory.clj` | `Clj/Order`, `Clj/Inventory`; cells in `Clj/Show` | - |
| the same and `journal.clj` with the numbers of the JVM | `Clj/Numbers` | |
| `clj/src/limabean/core/filters.clj`, `xf.clj`, `examples/clj/user.clj` | `Clj/Filters`, `Clj/DateArgs` | regular expressions (a parameter); forms of dates which are not documented, negative years |
| `clj/src/limabean/core/registry.clj` | `Clj/Registry` | |
| `clj/src/limabean/core/journal.clj`, `rollup.clj`, `clj/src/limabean.clj` | `Clj/Reports` on booked directives, `Clj/Beans` on the Clojure maps which are loaded (C70) | rendering of tables (tabulator) |
| `clj/src/limabean/core/cell.clj` | `Clj/Cell`; cells of reports in `Clj/Show` | alignment of rows by tabulator |
| `clj/src/limabean/adapter/show.clj`, `tabulate.clj`, `shell.clj`, `rust/src/bin/limabean-pod/main.rs` (`tabulate`), `errors.rs` | `Clj/Show` | layout and reading of cells by tabulator (parameter, and assumed to read what is sent), logging, I/O errors of standard input |
| `clj/src/beancount/plugins/auto_accounts.clj` | `Clj/AutoAccounts` on directives, `Clj/AutoPlugin` on Clojure data as the front end runs it | |
| `clj/test-plugins/src/limabean/test/plugins/*.clj`, `clj/src/limabean/plugin.clj` (`dct-error!`, `error!`) | `Clj/TestPlugins` | reading configurations, which are parameters |
| `clj/src/limabean/adapter/pod.clj` (messages), `json.clj` | `Clj/Data`; text `Server/JsonText` | duplicates in arrays which become sets (the server writes none) |
| `rust/src/api/json_rpc.rs`, `types.rs` (responses) | `Server/Response`; text `Server/JsonText` | |
| `clj/src/limabean/adapter/loader.clj:91-154` | `Clj/Resolve` | |
| `clj/src/limabean/adapter/synthetic_spans.clj` | `Clj/Spans` | text of directives (a parameter, see the next row) |
| `clj/src/limabean/core/format.clj` | `Clj/Format` | exceptions for data of other shapes than directives have; text of years beyond four digits |
| `clj-test/src/limabean/test.clj`, `test/create_golden.clj` | `Clj/Golden` | lines printed, temporary files, failures to write; the text of data, its reader and matcher are parameters |
| `clj/src/limabean/adapter/print.clj`, `debug.clj` | `Clj/Print` | the file of the dump; `print-method` of dates |
| `clj/src/limabean/adapter/pod.clj` (calls) | `Clj/Pod`, `Clj/Source`; lines `Server/JsonText` | limits of Jackson on the size of texts; time: the server has answered a line before the client waits for the answer; starting a process that fails |
| `clj/src/limabean/adapter/loader.clj` (stages), `clj/src/limabean/macros.clj` | `Clj/Loader` | dumps for debugging, type metadata |
| `clj/src/limabean/adapter/error.clj`, `clj/src/limabean/user.clj:35-50` (processes) | `Clj/Session` | |
| `clj/src/limabean/main.clj`, `app.clj`, `user.clj:10-47` (variables) | `Clj/App` | the argument parser (tools.cli), the reader, evaluation, the prompt: parameters; logging; errors which are not exceptions |
| `clj/src/limabean/adapter/user_clj.clj`, `exception.clj`, the session of `app.clj` | `Clj/UserCode` | what files and inputs do, and reading them: parameters; errors which are not exceptions |
| `clj/src/limabean/adapter/plugins.clj:49-113` | `Clj/Plugins` | plugins which stop early, plugins with side effects |
| `clj/src/limabean/adapter/plugins.clj:6-48`, `edn.clj` | `Clj/Resolution` | namespaces, functions in them and the reader: parameters; the kept exception |
| `clj/src/limabean/spec.clj` | `Clj/Valid` | messages of failed checks; `::booked-dcts`, which nothing uses. Checks are on: clj/src/limabean/adapter/loader.clj:183 |
| `rust/src/bin/limabean/main.rs`, `run.rs`, `health.rs` | `Server/Launcher`, `Server/Health` | the system: programs, files, replacing the process (parameters) |

## 5. Properties

False as stated of the code = the theorem file contains a proof of the negation, with a concrete counterexample, and the
strongest variant I could prove, with suffix `_partial`.

| id | how modelled and proved |
|---|---|
| C01 | `collect` as a fold over the directives; relation `Image` between input and output lists given inductively in `Spec`; invariant over the fold; patching of pad transactions preserves it. |
| C02 | success iff no step erred, no balance margin / unused pad was recorded, no pad pending: characterisation of `collect` by an independent per-step predicate. |
| C03 | `balance` on a state: iff over exact rationals; contract only for units. |
| C04 | value of the effective tolerance as a rational. |
| C05 | char-list prefix vs component prefix (`splitOn ':'`): iff, and partial-order laws. |
| C06 | false (pad fills retroactively before an assertion on its source or on an ancestor): negation witness; partial: all assertions with no later-filled pad in between whose accounts are related. `C06_exact` says what holds of every assertion of every accepted ledger: the returned ledger satisfies it once the pads filled by later assertions are left out. |
| C07 | one-step theorem on `balance` with a pending pad plus `Lawful` units. |
| C08 | invariant: pending pads are exactly the empty generated transactions. |
| C09 | trace invariant between `open`/`closed` maps and history; error-free runs only. The source of a pad by following the pending pad through the reference semantics. |
| C10 | false for the pad source (currency is not checked): witness; partial for all other postings. |
| C11 | open/close one-step theorems; false that a failed reopen leaves the account closed: witness; partial for histories without failed reopen. Exactly, also after a refused reopening, from the same invariant (`LifeInv`). |
| C12 | state equality after a rejected transaction. Later positions are unaffected as a consequence. |
| C13 | false (pad from an account never opened): witness; partial: no panic if every pad's source has been opened before; exactly when it panics, by C75. Overflow is in C74. |
| C14 | invariant on all reports and stored element positions. |
| C15 | one-step theorem. |
| C16 | two runs with different `order`: equal states, outcomes equal up to permutation of trailing errors. |
| C17 | invariant on stored booking methods; theorem on arguments given to the library. |
| C18 | `Lawful` contract + invariant. |
| C19 | theorem on `book`; price retention is false: witness. |
| C20 | fold over append. |
| C21 | false for mixed currencies: witness; partial for single-currency windows. For any currencies (`C21_exact_*`) by the same invariants, without the condition on currencies. |
| C22 | server loop as a fold; false for lines which are not text and when booking panics: witnesses; partial otherwise. |
| C23 | false for parse failures (id lost): witness; partial for all other methods and conditions. |
| C24 | decision table theorem. |
| C25 | server state only changes in its synthetic sources; booking up to report order by C16. |
| C26 | equivalence via report resolution. |
| C27 | JSON tree round trip of metadata and whole directives. |
| C28 | synthetic sources as append-only store (contract of the parser crate). |
| C29 | sums over inventory by induction over postings; for `C29_units`, sums over positions of a currency, and that the list of currencies is sorted without repetition. |
| C30 | sortedness and non-zero of `positions`, `build`; merging is false for a cost written as 10 and as 10.00: witness; partial otherwise. |
| C31 | permutation invariance. |
| C32 | filter predicates on records; equality with the Rust predicate. |
| C33 | date order. |
| C34 | inventory of a filtered list is the restriction; which postings count is given by `Spec/Selection`. |
| C35 | prefix sums by induction. |
| C36 | sums over ancestors. |
| C37 | arithmetic on depths. |
| C38 | false (wrong option key): witness; partial. |
| C39 | step function with explicit opened set; induction. |
| C40 | explicit stage functions; induction over the stages with what each has produced (`Props/C40`). |
| C41 | false without raw plugins (server answers with spanned reports which the loader does not read): witness; partial with raw plugins. |
| C42 | index lookups. |
| C43 | false (`:context` vs `contexts`, "txn" vs "transaction"): witness; partial on the other fields. |
| C44 | false (metadata keys `dct`, `booking`): witness; exact description of what is read, partial for directives without these keys. |
| C45 | object identity by tokens, hash codes as a function of tokens, assumed injective (witness that this is needed); the run object by object equals a run list by list, by an invariant over the chain of plugins; false for the booked marker on vectors: witness. |
| C46 | flattening and re-zipping; partial if non-transactions with `:postings` exist. |
| C47 | environment as partial function. |
| C48 | comparator as function to `Ordering`. |
| C49 | composition of client counter with server loop: the answers are those of a run of the server on the lines written (`Props/C49`). |
| C50 | false if printing errors throws: witness; partial for loads which do not throw, and what suffices for that. |
| C51 | char list functions. |
| C52 | false (quotes are not escaped; cost totals, missing narrations and custom values are ambiguous): witnesses; partial: the text as a sequence of self-delimiting codes (`Proofs/CodeLemmas`, `Proofs/FormatLemmas`), so equal texts mean equal directives for all directives made of names and quote-free strings. |
| C53 | Java's `BigDecimal.toString` as a function on mantissa and scale; false for tiny numbers: witness; partial otherwise. |
| C54 | the specs as a boolean function on data; exactly when the data of a directive passes (`Proofs/ValidLemmas`); false for integer tolerances and numbers of 2^63 and more: witnesses; partial otherwise. |
| C55 | counting accounts per currency; false without positions: witness. |
| C56 | reports made of errors, through the server to the printed text; the second place is never there. |
| C57 | JSON encoders, the client's reader and writer and the server's reader composed (`Proofs/RoundTrip`); false for two metadata keys: witness; `C57_exact` says what arrives for every directive. |
| C58 | simulation between two runs of the accumulator (`Proofs/AttachedLemmas`) for an arbitrary relation on attached data; assumes `Blind`. |
| C59 | the whole load, from the server's directives through plugins and booking to the loaded directives, by composing C42, C44, C54, C57, C58; false for integer tolerances: witness; assumes `Blind`, and that the library dates costs with dates of the calendar (`DatesExist`: it has them as `time::Date`). |
| C60 | composition of C18, C06 with C29, C33, C34, C36, C55: the inventory of the booked ledger against the accounts of the accumulator; assertions against a rollup; false for AVERAGE: witness, and exact condition. That the parser puts assertions at the start of their day is a hypothesis on the input (`AtStartOfDay`), since ordering is done by the parser library. |
| C61 | a relation field by field (`DirectiveRead`), and an equivalence: converted directives are equal up to order iff the parsed ones say the same (`SameSource`); that what the parser guarantees (`SourceOk`) gives what C22, C27, C38, C42, C57, C59 assume; composition with C59. |
| C62 | invariant over the stages of loading: no answer of the server carries warnings, so none are kept; false: witness; that a ledger with warnings loads follows from C61, and with raw plugins (Props/C62Plugins) from C98. |
| C63 | `appMain` as a function of the parsed arguments and the host; what is asked for is an inductive specification (`Asked`) with exactly one case for every command line; status characterised exactly; false: two witnesses. |
| C64 | `loads` folds loading over a list; the variables after it are those after the last alone; invariant over the stages for their agreement; composition with C61. |
| C65 | composition of C14, C43, C58, C59 with the formatter: what is printed is the texts of one report per error, interspersed with line breaks (`Shows`); false without raw plugins: a witness. |
| C66 | the stages of loading one after the other; each stage of plugins by C45's `throughAll` and C46, sending to the server by what `decDirective` accepts (`DecodedLemmas`), booking by C42. |
| C67 | resolution as a function of namespaces and reader; equivalence with `Usable`; loading by C65 and C66. False for text after the first value and for functions which return `nil`: witnesses. |
| C68 | one relation between what the check accepts and what the decoder returns (`Reads`), for each type of field, composed up to directives. False: seven witnesses. |
| C69 | invariant of the run: every object received or passed on carries an error or is valid, and only such identities are known; synthetic spans do not matter to the specification. False without plugins: witness. |
| C70 | what a row of a report shows as a relation between the merged map and the booked posting (`IsRow`), through `Resolved` of C42 and the stages of C66; the registry and the options likewise; then C34. |
| C71 | what the specification for booked directives says about the postings of transactions, pair by pair with the maps the reports read; then C34, C35 for the positions; `average` is traced from the registry to an open directive. |
| C72 | the accumulators with the JVM's addition, related step by step to those with exact addition; a bound on the stored integers as invariant. |
| C73 | a relation `InTurn` for actions one after the other; induction over the files and the inputs. |
| C74 | both runs in lockstep, related up to decimal places; what is held is at most what was posted, so that partial sums in any order are small; ledgers only grow, which carries the bound from the end to each step. The table of a failed assertion is a sum over a window of the ledger, bounded in the same way (`balanceReportIn_near`). |
| C75 | an audit which goes on after faults (`Spec/Faults`) runs in lockstep with the accumulator; accounts are related one by one, so that each directive changes the relation at one account only. |
| C76 | the system as parameters (output of a program, existence of a file, replacing the process); health as a function of them; false for Clojure: negation witness. |
| C77 | `Honest`, inductive on the lines and what was learned from the answers; invariant: the server knows the locations of its ledger and all which it has told. |
| C78 | notes beside the audit of C75; the booked directives are the notes (transactions and assertions), filling in a pad is filling in a note; the window of an account starts at the last assertion on it. |
| C79 | the findings of C75 located in the completed ledger of C39 and traced back to the original; what is accepted has every account opened before use, hence is its own completion. |
| C80 | the plugin on data follows the plugin on directives step by step; what it makes is valid, gets a span, is encoded and understood (C68); then booking up to what is attached (C58), reports (C41) and places (C42). |
| C81 | a homomorphism: leaving out the directives and accounts of the other part commutes with one step of the accumulator, or leaves it where it is (`Proofs/PartsLemmas`, `Proofs/PartsStep`); positions are renamed as in C12; assumes `LooksAtItsAccounts`. |
| C82 | the simulation of C75 extended by the output: the list of booked directives is at any time the reference output so far with the pads filled so far (`Proofs/OutputLemmas`); no two transactions have the same number, so filling by position is filling by number. |
| C83 | on the tally of C75: a directive is framed by the accounts at which it looks (`Proofs/FrameLemmas`, up to renumbering), so that unrelated directives commute (`Proofs/SwapLemmas`, `Proofs/SwapOutput`); transported to booking by C75 and C82; assumes `LooksAtItsAccounts`. |
| C84 | what the server reads of a directive determines its kind and that its postings are maps in a vector; then the description is computed. The names of sources made up for plugins (`C84_source`) by unfolding. |
| C85 | texts as codes (`Proofs/CodeLemmas`): fixed words, and decimals and names up to a delimiter which they do not contain. |
| C86 | false (options; braces in a text): witnesses; partial from C82 and the text of the first warning. |
| C87 | on the tally of C75: a simulation between what is remembered under the two sets of names (`Proofs/RenamingLemmas`); that different accounts have different names follows from `KeepsBelow`; transported to booking by C75 and C82; assumes `NameBlind`. |
| C88 | reading is the inverse of writing, by induction on the tree with a measure on the text; texts of numbers by their shape (C85, `Proofs/CodeLemmas`); no control characters are written, so lines are where they were. |
| C89 | false (C52; totals of costs are not printed): witness; partial: a directive's text ends where a line begins without a blank (`directive_after`, the codes of C52 with any such continuation), then induction on the ledger; the text of a booked directive is that of `Spec.asWritten`, as text depends on the printed fields only. |
| C90 | false (pads): witness; partial: both runs go through equal states, step by step, and append directives which are written alike; without pads one directive is appended for each. |
| C91 | both runs stage by stage; booking by C75/C82 up to the order of reports, plugins by a simulation between injective hash codes; witness that the order does differ. |
| C92 | false (left-over files, order of reports, records before booking only): witnesses; partial: induction on the outputs, whose names differ, and on the tests, whose golden directories differ; then C91 for the other run. What is written where (`C92_recorded`) from the same lemma on outputs. |
| C93 | the image of C01: a booked directive which is not made from a transaction is no transaction, or is the two postings of a pad, which cancel, in units and by weight; sums over accounts are sums over postings, as the keys of the inventory differ. |
| C94 | a filter divided in two divides the selected postings, so sums add (C29 per cost), and induction on the boundaries; in a list in order of date what is before a day comes first; C33 for what filters by date select. |
| C95 | cells are read back as they were written (C88 and induction on cells); bounds on the nesting of each kind of cell; each kind of cell is injective, by `decText_inj` and the text of dates; sorting forgets the order. |
| C96 | the text of every message is read as the line which the model's server receives (C88); the responses served are those of `serve`; bounds on the depth of directives, reports and requests for spans, by their shape; a deeper request is refused. |
| C97 | C03 with the postings below the account excluded; C67 for the plugin line; the claim of the documentation refuted by a ledger. |
| C98 | What each plugin step makes is followed through tagging, synthetic spans and sending (`Writes` is kept by each), then C58 on booking directives which are alike; the two example plugins by running them on the data of a directive. |
| C99 | `runPlugins_vetted`: the state after handing on some objects is compared with what the later plugins would make of the rest (`SinkEq`), by induction over the plugins from the last; objects already checked are those which are in the set of hashes, as hashes are injective. Then the outcome of the stage in all cases (`stage_outcome`), which C66's lemmas connect with loading. |
| C100 | **False**: amounts changed by plugins for booked directives are never looked at again. Reports depend on the transactions and `open` directives of the data only (`postingMaps_txns`, `registryAccs_opens`, `registryFreq_txns`), so plugins which leave these alone change no report; `leavesAlone_around` gives this for any plugin which passes on its input and adds other directives. |
| C101 | A plugin which looks at one directive at a time and makes, of data which stand for a directive, data which stand for others (`Does`) can be followed by another one (`does_all`), also if directives already carry provenance. Each example plugin is such a plugin: setting tags and metadata (`writes_tag`, `writes_metadata`) and taking spans away (`writes_copy`) keeps all of `Writes`. Then C98. |
| C102 | The reference semantics `Tally` runs over both ledgers; `Spelt` relates the two states: equal but for pending pads, the numbers of directives, and that an account may hold a transfer as accumulated by the library rather than by the pad. Assertions and life cycles see the same (`Spelt.step`). That the amounts moved are the same up to order: the pad's transaction is returned at the pad, the other one at the assertion (`returned_moved`). Then C82. |
| C103 | `Mends`: all but the additional account stand and hold the same, up to numbers. For directives which are not chosen this is the frame theorem of C83 (`frame_step`); a failed assertion, and a pad with the assertion which fills it, leave the same holdings (`Mends.pad`). Then C75. |
| C104 | A plugin which throws makes `through`, hence `throughVetted` and the result of C99, `none`; then the server formats an empty list of reports. |
| C105 | `Freer`: with fewer checks the same is held, the same pads are pending, and whatever may be used may be used; then C82, where pads are filled at the new numbers. |
| C106 | `Cont`: after both ledgers the same is remembered of the accounts which are used, up to numbers of directives; steps change totals by the same and find the same (`Cont.step`); `accepted_led` says where an accepted ledger leads; then C75 and C82. |
| C107 | `Orderly`: in an accepted ledger an account is opened once, and closed while it is open, so the opening ledger fits step by step (`opening_fits`, `FitsAfter.run`); balances by account add up to those of sub-trees (`amountOn_same`); then C106. |
| C108 | C61 and C59 for the way from the parser to the ledger, C82 for what is booked, C70 and C34 for the inventory, C41 and a lemma for crashes of the server otherwise. |
| C109 | As C87, by a relation between what the reference semantics remembers of the two ledgers (`Lab`), which every directive keeps, with corresponding findings, outputs and fills; then C75 and C82. |
| C110 | A directive which changes nothing shifts the numbers of what follows and does nothing else (`inserted_audit`, by a renumbering of what the audit remembers); an assertion changes nothing exactly if it holds. To see that the report shows what is held, an assertion of what is held is added, C06 is applied to it, and it is left out again by C105. |
| C111 | The audit of the first directives is a prefix of the whole (`accepted_first`); pads filled later have later numbers (`filled_from`), so what is returned for the first directives is not changed. Accounts which are posted to are opened before (`posted_opened`), and an account keeps the directive which opened it, so the registry gives them the same methods. |
| C112 | Places which directives mention are followed through plugins (`throughAll_mentions`), synthetic spans (`mapN_mentions`), booking (`resolved_mentions`) and the making of reports (`dctReport_places`, `resolved_places`); so all places in requests are known to the server (`Held`), and of the panics of C22 only that of a pad is left. |
| C113 | A transaction written in full makes one step without fault and emits itself (`FullTransaction.step`, `.run`); it opens and closes nothing, so C106 applies to the two ledgers, with holdings alike by totals (`totalIn_amountsOn`) and balances by `amountOn_alike`. |
| C114 | False with pads: witness. Partial: the two ledgers are run side by side, with equal tallies at every directive (`Reasserted.stepOne`, `.runAll`); only accounts with a pad have pending pads. |
| C115 | The two ledgers are run side by side on the tally of `Spec.Faults`, with equal tallies but for holdings, which are alike (`Evenly.step`, `.run`, `.history`); then C75 for the reports and C82 for what is returned. |
| C116 | As C115, with gaps, totals and tolerances multiplied by the factor of the currency (`Evenly.gapIn`, `gt_scaled`, `Evenly.scaleStep`). |
| C117 | A reported directive leaves the tally as it was, up to pads which are not needed or not followed by an assertion (`Thin`); by induction on the ledger without it (`Thin.run`, `without_audit`). A directive has one finding because a pad which is pending has none yet (`run_once`). |
| C118 | The object of options has no key twice, so what the client reads under a name is what was sent under it (`decoded_field`); the folds over the default tolerances keep the last of each currency (`lastDefault`); no stage after the first changes the options (`later_stages_keep`). |
| C119 | The request is understood (`decMethod_resolveSpans`), the answers are read back (`decode_source`); a place which is unknown is a panic of the parser crate, after which the client reads the end of the stream. What every call keeps is kept by loading (`load_invariant`), so that the places of the beanfile are known after it (`C119_loaded`). |
| C120 | All three are reduced to the sum over the selected postings: `rollup_shown` (C36), `subtotal_inventory` (C60), `inventory_all` (C93), `journal_last` (C35). |
| C121 | The grammar is an inductive relation between values and texts. One direction by induction over the derivation, with what follows the text left open; the other by induction over the length of the text, one lemma for each function of the reader. Unambiguity follows, since the reader is a function. |
| C122 | Equal selections: the filtered lists are equal. Sums: two splits (`C94_split`), of either into the first and the rest of the second, and of the second into both and that rest. |
