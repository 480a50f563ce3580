{"id": "C01", "title": "Booked output is an order-preserving image of the input", "statement": "When booking succeeds, the list of booked directives is obtained from the list of input directives by replacing, in order, every directive with exactly one booked directive of the same kind, except that a pad directive is followed by one generated transaction. Every booked directive carries the input position, date, tags, links and metadata of the directive it came from. No directive is lost, duplicated, invented or reordered.", "quantifier": "every list of raw directives, every option setting, every answer of the booking library", "why_tests_cant": "Tests look at a few ledgers; this must hold for every length, mix and interleaving of twelve directive kinds, with pads being patched later.", "anchors": ["rust/src/api/booking/accumulator.rs: Accumulator::collect", "rust/src/api/booking/accumulator.rs: Accumulator::directive", "rust/src/api/booking/accumulator.rs: Accumulator::pad"]}
{"id": "C02", "title": "Booking is all or nothing", "statement": "Booking answers with the booked ledger exactly when no directive is faulty (by an independent per-directive description of what is acceptable) and no pad is left over; a failure answer always carries at least one error report and no directives.", "quantifier": "every list of raw directives and every option setting", "why_tests_cant": "The claim is an equivalence over all inputs: a test can only exhibit single inputs on one side of it.", "anchors": ["rust/src/api/booking/accumulator.rs: Accumulator::validate", "rust/src/api/booking/accumulator.rs: Accumulator::collect"]}
{"id": "C03", "title": "Balance assertion is decided by the tolerance, boundary included", "statement": "A balance directive on an open account with a permitted currency and no pending pad is accepted iff the absolute difference between the asserted amount and the total of that currency over the account and its subaccounts is less than or equal to the tolerance; when it is rejected, the reported error margin is exactly asserted minus total.", "quantifier": "every reachable booking state, every account, currency, amount and tolerance", "why_tests_cant": "Boundary equality and every decimal scale cannot be enumerated; two existing unit tests check a single scale.", "anchors": ["rust/src/api/booking/accumulator.rs: Accumulator::balance", "rust/src/api/booking/accumulator.rs: calculate_balance_margin", "rust/src/api/booking/accumulator.rs: total_rollup_units_for_currency"]}
{"id": "C04", "title": "Balance tolerance inference", "statement": "The tolerance used for a balance directive is the explicit one if given, otherwise zero when the asserted amount has no decimal places, otherwise 2 x multiplier x 10^-(decimal places), where the multiplier is the inferred_tolerance_multiplier option or 0.5. In particular trailing zeros widen nothing but the number of decimal places written does matter.", "quantifier": "every asserted amount with any number of decimal places, every multiplier option", "why_tests_cant": "All scales and multipliers are involved; a test fixes one scale.", "anchors": ["rust/src/api/booking/accumulator.rs: Accumulator::balance"]}
{"id": "C05", "title": "Subaccount relation follows account components", "statement": "Account B counts towards a balance of account A iff the colon-separated components of A are an initial segment of those of B (so Assets:Bank2 is not below Assets:Bank), and this relation is reflexive, transitive and antisymmetric.", "quantifier": "every pair (triple) of account names, of any length and any characters", "why_tests_cant": "String prefix versus component prefix is an infinite family of near misses.", "anchors": ["rust/src/api/booking/accumulator.rs: is_nonstrict_subaccount"]}
{"id": "C06", "title": "Assertions of an accepted ledger hold in the ledger that is returned", "statement": "If booking succeeds, then for every balance directive in the returned ledger, summing the postings of the returned ledger that precede it, over the asserted account and its subaccounts in the asserted currency, gives a value within tolerance of the asserted amount.", "quantifier": "every accepted ledger, every balance directive in it", "why_tests_cant": "It relates the complete output history to each assertion; interleavings of pads, balances on parents and balances on the pad source are unbounded.", "anchors": ["rust/src/api/booking/accumulator.rs: Accumulator::balance", "rust/src/api/booking/accumulator.rs: calculate_balance_pad_postings"]}
{"id": "C07", "title": "Pad transaction closes exactly the gap", "statement": "When a balance assertion consumes a pending pad, the generated transaction at the pad's position gets exactly two postings in the asserted currency: +margin on the padded account and -margin on the pad's source; they sum to zero; and (when the source is not below the padded account) the padded account's total immediately afterwards equals the asserted amount exactly.", "quantifier": "every reachable booking state with a pending pad and every balance directive", "why_tests_cant": "Any gap, any scale, any nesting of accounts, any distance between pad and balance.", "anchors": ["rust/src/api/booking/accumulator.rs: Accumulator::balance", "rust/src/api/booking/accumulator.rs: calculate_balance_pad_postings", "rust/src/api/booking/accumulator.rs: adjust_account_to_match_balance"]}
{"id": "C08", "title": "No unused pad survives a successful booking", "statement": "If booking succeeds then every pad directive's generated transaction has exactly two postings, whose first account is the padded account and second account is the pad source: no pad is silently unused and no generated transaction is empty.", "quantifier": "every accepted ledger", "why_tests_cant": "A pad may be followed by any number of directives before its balance; all such histories count.", "anchors": ["rust/src/api/booking/accumulator.rs: Accumulator::pad", "rust/src/api/booking/accumulator.rs: Accumulator::validate", "rust/src/api/booking/accumulator.rs: Accumulator::balance"]}
{"id": "C09", "title": "Postings only to open accounts", "statement": "If booking succeeds, then every posting of every input transaction, every balance and every pad (padded account and source) refers to an account that was opened by an earlier directive and not closed between that opening and the reference.", "quantifier": "every accepted ledger, every referencing directive in it", "why_tests_cant": "A statement about all interleavings of open, close and use.", "anchors": ["rust/src/api/booking/accumulator.rs: validate_account", "rust/src/api/booking/accumulator.rs: Accumulator::open", "rust/src/api/booking/accumulator.rs: Accumulator::close"]}
{"id": "C10", "title": "Currency restrictions are respected", "statement": "If booking succeeds, then every posting in the returned ledger is in a currency permitted by the directive that opened its account (any currency if that directive lists none).", "quantifier": "every accepted ledger, every posting in the returned ledger including generated pad postings", "why_tests_cant": "Depends on all orders of opens, pads and transactions, including generated postings which no input posting mentions.", "anchors": ["rust/src/api/booking/accumulator.rs: AccountBuilder::validate_currency", "rust/src/api/booking/accumulator.rs: validate_account_and_currency", "rust/src/api/booking/accumulator.rs: Accumulator::balance"]}
{"id": "C11", "title": "Account lifecycle: never opened, open, closed", "statement": "Each account goes through never-opened, open, closed, and never returns: opening an open account, opening a closed account, closing an unopened account and closing a closed account are each reported as errors at that directive, and the status of an account after any history is determined by the successful opens and closes alone.", "quantifier": "every history of directives", "why_tests_cant": "All histories, including those that continue after an error.", "anchors": ["rust/src/api/booking/accumulator.rs: Accumulator::open", "rust/src/api/booking/accumulator.rs: Accumulator::close", "rust/src/api/booking/accumulator.rs: validate_account"]}
{"id": "C12", "title": "A rejected transaction has no effect", "statement": "A transaction that is reported as an error changes no account's holdings: booking any further directives gives the same results as if the transaction had not been there (up to directive positions).", "quantifier": "every booking state, every rejected transaction, every booking-library failure or account/currency failure", "why_tests_cant": "Needs every failure point between the validation of the first posting and the last inventory update.", "anchors": ["rust/src/api/booking/accumulator.rs: Accumulator::book", "rust/src/api/booking/accumulator.rs: Accumulator::transaction"]}
{"id": "C13", "title": "Booking never panics", "statement": "Booking any list of directives terminates with a success or a failure answer, never a panic of the server process.", "quantifier": "every list of raw directives, in any order, with any accounts", "why_tests_cant": "There are several unwrap and index expressions whose safety depends on invariants over the whole history.", "anchors": ["rust/src/api/booking/accumulator.rs: Accumulator::balance", "rust/src/api/booking/accumulator.rs: get_mut_valid_account", "rust/src/api/booking/accumulator.rs: balance_report"]}
{"id": "C14", "title": "Error locations exist", "statement": "Every error report (and every related location in it) names a directive position smaller than the number of input directives, and if it names a posting, that directive is a transaction with a posting at that position; hence turning reports into source spans cannot fail on parsed ledgers.", "quantifier": "every list of raw directives, every reported error", "why_tests_cant": "An out-of-range index kills the server; all error paths of all histories are involved.", "anchors": ["rust/src/api/booking/accumulator.rs: Accumulator::collect", "rust/src/api/types/parser_type_conversions.rs: resolve_indexed_element", "rust/src/api/types/parser_type_conversions.rs: create_reports_from_booking_errors"]}
{"id": "C15", "title": "A failed balance is local", "statement": "After a failed balance assertion the account's total in that currency equals the asserted amount, so repeating the same assertion immediately afterwards succeeds (unless its tolerance is negative); totals of accounts neither above nor at the asserted account, and of other currencies, are unchanged.", "quantifier": "every reachable state and every failing balance directive", "why_tests_cant": "Over all states, nestings of accounts and amounts.", "anchors": ["rust/src/api/booking/accumulator.rs: adjust_account_to_match_balance", "rust/src/api/booking/accumulator.rs: Accumulator::balance"]}
{"id": "C16", "title": "Independence from hash iteration order", "statement": "The outcome of booking does not depend on the iteration order of the hash maps: success or failure, the booked ledger (amounts by value) and the set of error reports (with multiplicity) are the same for every order; only the relative order of the trailing 'unused, no balance directive' reports may differ.", "quantifier": "every list of raw directives and every pair of iteration orders", "why_tests_cant": "The iteration order is randomised per process; tests see one order per run.", "anchors": ["rust/src/api/booking/accumulator.rs: account_and_subaccounts", "rust/src/api/booking/accumulator.rs: Accumulator::validate"]}
{"id": "C17", "title": "Booking method selection", "statement": "A transaction posting on an account is booked with the method named by the directive which opened that account if the booking library supports it, and with the library default (and a warning) if it names an unsupported one; if it names none, with the option booking_method if that is supported, else with the library default. An unsupported method never reaches the booking library.", "quantifier": "every history, every account, every combination of option and per-account method", "why_tests_cant": "All combinations of option, per-account setting, support predicate and account history.", "anchors": ["rust/src/api/booking/accumulator.rs: Accumulator::open", "rust/src/api/booking/accumulator.rs: Accumulator::book", "rust/src/api/booking.rs: book"]}
{"id": "C18", "title": "Running holdings equal the sum of the returned postings", "statement": "For a successful booking, for every account and currency the units held at the end equal the sum of the units of all postings of that account and currency in the returned ledger.", "quantifier": "every accepted ledger, every account and currency", "why_tests_cant": "Conservation over all histories, including multi-lot reductions and retroactive pad postings.", "anchors": ["rust/src/api/booking/accumulator.rs: Accumulator::book", "rust/src/api/booking/accumulator.rs: Accumulator::balance"]}
{"id": "C19", "title": "Splitting a reduction over several lots loses nothing", "statement": "An input posting becomes one returned posting when it has no cost, and otherwise one returned posting per matched lot; all of them carry the input posting's position, account, flag, tags, links, metadata and currency, and their units add up to the interpolated units of that input posting; a price given on the input posting is retained.", "quantifier": "every transaction, every number of matched lots", "why_tests_cant": "The number of lots is unbounded, and each per-posting attribute is a separate chance to lose data.", "anchors": ["rust/src/api/booking/accumulator.rs: Accumulator::book", "rust/src/api/booking/accumulator.rs: cur_posting_cost_to_cost"]}
{"id": "C20", "title": "Errors are stable under extending the ledger", "statement": "Appending directives to a ledger never removes or reorders the errors that were reported for directives (other than left-over pads at the end of the file), and the booked form of earlier directives does not change, except that the generated transaction of a pad pending at the end may be filled.", "quantifier": "every ledger and every extension", "why_tests_cant": "Ranges over all pairs of a ledger and an extension.", "anchors": ["rust/src/api/booking/accumulator.rs: Accumulator::collect"]}
{"id": "C21", "title": "Balance failure report accounts for the gap", "statement": "In a balance failure report, the accumulated total plus the reported error equals the asserted amount, and the accumulated total is the total of the asserted currency over the account and its subaccounts.", "quantifier": "every failing balance directive in every history", "why_tests_cant": "Involves arbitrary postings between two balance assertions, in any currencies.", "anchors": ["rust/src/api/booking/accumulator.rs: Accumulator::balance_report"]}
{"id": "C22", "title": "One response line per request line, in order", "statement": "For every sequence of lines arriving at the server, the server writes exactly one response line per request line, in the order of the requests, then exits with status 0 at end of input; it never skips a request and never answers twice.", "quantifier": "every sequence of input lines, valid or not", "why_tests_cant": "A liveness-and-ordering statement on unbounded request histories.", "anchors": ["rust/src/api/server.rs: Server::serve", "rust/src/api/server.rs: Server::dispatch"]}
{"id": "C23", "title": "Responses carry the id of their request", "statement": "Every response to a line that is a well-formed request carries that request's id; a line which is not a well-formed request is answered with a null id.", "quantifier": "every request, every server condition (beanfile unreadable, unparseable, parsed)", "why_tests_cant": "Every method crossed with every server condition.", "anchors": ["rust/src/api/server.rs: Server::dispatch", "rust/src/api/server.rs: HealthyServer::parser_plugins", "rust/src/api/server.rs: write_error_reports"]}
{"id": "C24", "title": "Error code of a response identifies its cause", "statement": "The error code of a response is -32700 exactly for malformed requests, -32600 exactly for a wrong protocol version, 1 exactly when the beanfile could not be read, 2 exactly for parse errors or booking errors on the parsed ledger, 3 exactly for booking errors on directives supplied by the client; and there is a result, not an error, in all other cases.", "quantifier": "every request and every server condition", "why_tests_cant": "The decision table is a product of methods, parameters and server conditions.", "anchors": ["rust/src/api/server.rs: Server::dispatch", "rust/src/api/server.rs: HealthyServer::book", "rust/src/api/json_rpc.rs"]}
{"id": "C25", "title": "Answers do not depend on the request history", "statement": "Apart from creating synthetic spans, no request changes the answer to any later request: the responses to status, plugins, directives, options and book are the same wherever they occur in the request history.", "quantifier": "every request history and every insertion of a request into it", "why_tests_cant": "Unbounded histories.", "anchors": ["rust/src/api/server.rs: HealthyServer", "rust/src/api/server.rs: parser_create_synthetic_spans"]}
{"id": "C26", "title": "Booking without parameters books the parsed ledger", "statement": "Requesting booking without directives gives the same outcome as fetching the parsed directives and sending them back unchanged: both succeed with the same booked directives or both fail, with reports that correspond one to one (same reason, annotation, and the spans of the same elements).", "quantifier": "every parsed ledger", "why_tests_cant": "An equivalence between two protocol paths for all ledgers.", "anchors": ["rust/src/api/server.rs: HealthyServer::book", "rust/src/api/types/parser_type_conversions.rs: create_reports_from_booking_errors"]}
{"id": "C27", "title": "Metadata values and directives survive the wire", "statement": "Writing any metadata value to JSON and reading it back gives the same value; whole directives likewise, with their spans, postings, cost and price specifications, metadata, tags and links; and reading accepts the two keys of an amount in either order.", "quantifier": "every metadata value, span and raw directive whose dates are calendar dates and whose account, currency, tag, link and key names contain no character which JSON escapes (no beanfile can write one that does)", "why_tests_cant": "Ten variants with unbounded payload, and an ordering freedom on the reading side.", "anchors": ["rust/src/api/types/serializers.rs: impl Serialize for raw::MetaValue", "rust/src/api/types/serializers.rs: impl Deserialize for raw::MetaValue", "rust/src/api/types/serializers.rs: impl Deserialize for Span"]}
{"id": "C28", "title": "Synthetic spans are answered in request order", "statement": "A request creating synthetic spans returns one span per requested item, in order, and each returned span resolves to the name and content of the item it was created for, also after any later requests.", "quantifier": "every list of items, every later request history", "why_tests_cant": "Unbounded lists and histories.", "anchors": ["rust/src/api/server.rs: parser_create_synthetic_spans", "rust/src/api/server.rs: parser_resolve_spans"]}
{"id": "C29", "title": "Inventory conserves units", "statement": "For every account and currency, the units in the inventory built from a list of postings add up to the sum of the units of the postings on that account in that currency, whatever costs the postings carry and whatever (supported) booking methods apply.", "quantifier": "every list of postings, every assignment of booking methods", "why_tests_cant": "Sums over unbounded lists with merging, appending and zero removal on the way.", "anchors": ["clj/src/limabean/core/inventory.clj: build", "clj/src/limabean/core/inventory.clj: accumulate", "clj/src/limabean/core/inventory.clj: positions", "clj/src/limabean/core/inventory.clj: single-currency-accumulator"]}
{"id": "C30", "title": "Inventory is in canonical form", "statement": "In a built inventory no account has an empty list, accounts are in ascending order, no position has zero units, positions are in ascending order of currency; for a merging booking method they are in ascending order of cost within a currency and no two share currency and cost; for the method `none` the position without cost comes first, then the lots in the order of the postings.", "quantifier": "every list of postings and booking methods", "why_tests_cant": "All orders and cancellations of postings.", "anchors": ["clj/src/limabean/core/inventory.clj: build", "clj/src/limabean/core/inventory.clj: positions", "clj/src/limabean/core/inventory.clj: compare-cost-keys", "clj/src/limabean/core/inventory.clj: accumulate"]}
{"id": "C31", "title": "Inventory does not depend on posting order", "statement": "For merging booking methods, rearranging the postings does not change the built inventory (as numbers).", "quantifier": "every list of postings and every permutation of it", "why_tests_cant": "All permutations of all lists.", "anchors": ["clj/src/limabean/core/inventory.clj: build", "clj/src/limabean/core/inventory.clj: accumulate"]}
{"id": "C32", "title": "Account filters agree with the booking engine", "statement": "The filter for an account and its subaccounts selects exactly the postings whose account the booking engine counts as a (non-strict) subaccount; the filter for several accounts is the union; adding filters intersects; and a negated filter selects the complement.", "quantifier": "every account name and every list of directives or postings", "why_tests_cant": "Two implementations in two languages must agree on all strings.", "anchors": ["clj/src/limabean/core/filters.clj: sub-acc, acc, some-sub-acc", "clj/src/limabean/core/xf.clj: all-of", "rust/src/api/booking/accumulator.rs: is_nonstrict_subaccount"]}
{"id": "C33", "title": "Date filters partition the ledger", "statement": "For any dates a <= b, the directives before a, those from a until before b and those from b on partition the ledger, in order; filters apply to directives and postings alike by their date.", "quantifier": "every list of directives and every pair of dates", "why_tests_cant": "All dates and all boundaries.", "anchors": ["clj/src/limabean/core/filters.clj: date>=, date<, date>=<"]}
{"id": "C34", "title": "Balances and income statement are restrictions of the inventory", "statement": "The balances report is exactly the inventory of the whole ledger (under the same filters) restricted to the accounts at or below the assets and liabilities root names, and the income statement likewise for the income and expenses names; when the four root names are pairwise unrelated, no account appears in both.", "quantifier": "every list of directives, every list of filters and every naming of the account types", "why_tests_cant": "All account names and all renamings of the root accounts.", "anchors": ["clj/src/limabean.clj: balances, income-statement", "clj/src/limabean/core/filters.clj"]}
{"id": "C35", "title": "Journal running balance", "statement": "In a journal, the n-th row's balance holds, per currency, the exact sum of the units of rows 1..n, without zero entries, and the rows are exactly the selected postings in ledger order.", "quantifier": "every list of directives, every filter", "why_tests_cant": "Unbounded prefix sums.", "anchors": ["clj/src/limabean/core/journal.clj: build", "clj/src/limabean.clj: journal"]}
{"id": "C36", "title": "Rollup totals", "statement": "In a rollup an account is shown iff it has non-zero units of the currency or is an ancestor of such an account; its total is the sum of the units of all accounts at or below it in the component tree, and is displayed unless equal to its own units; the totals of the root components add up to the sum of all units.", "quantifier": "every inventory with any set of well-formed account names", "why_tests_cant": "All trees of accounts.", "anchors": ["clj/src/limabean/core/rollup.clj: build"]}
{"id": "C37", "title": "Rollup columns", "statement": "In a rendered rollup all own amounts stand in one common column to the right of every total, each total stands in the column of its account's depth, and no cell is squeezed out: the number of padding cells is never negative.", "quantifier": "every rollup built from an inventory with well-formed account names", "why_tests_cant": "All tree depths.", "anchors": ["clj/src/limabean/core/rollup.clj"]}
{"id": "C38", "title": "Registry answers match the ledger", "statement": "The registry gives for each account the booking method of its opening directive, or the ledger's booking_method option if the opening directive has none; and lists currencies by descending frequency of use.", "quantifier": "every list of booked directives and options", "why_tests_cant": "All ledgers and options.", "anchors": ["clj/src/limabean/core/registry.clj: build, acc-booking"]}
{"id": "C39", "title": "Auto-accounts opens exactly what is missing", "statement": "With the auto_accounts plugin, removing the inserted directives from the result gives back the original directives in order; exactly one open is inserted for each account that a transaction uses and no earlier directive opens, immediately before the first such transaction and with its date, in ascending order of name within one transaction; afterwards every posting account is opened before its first use.", "quantifier": "every list of raw directives", "why_tests_cant": "All ledgers; accounts occur in several kinds of directive.", "anchors": ["clj/src/beancount/plugins/auto_accounts.clj"]}
{"id": "C40", "title": "Loader stops at the first error", "statement": "Loading a beanfile runs its stages in order and stops at the first that fails; the result has the error of that stage and everything produced by the earlier stages, and no later stage runs.", "quantifier": "every combination of stage outcomes", "why_tests_cant": "All failure points.", "anchors": ["clj/src/limabean/adapter/loader.clj: load-beanfile", "clj/src/limabean/macros.clj: bind->"]}
{"id": "C41", "title": "Booking errors reach the user", "statement": "If booking fails, the loaded ledger carries at least one error report, one per booking error, each with the location of the offending element.", "quantifier": "every ledger whose booking fails, with and without raw plugins", "why_tests_cant": "All error reports and both protocol paths.", "anchors": ["clj/src/limabean/adapter/loader.clj: book-raw-directives", "clj/src/limabean/adapter/pod.clj: map-error", "rust/src/api/server.rs: HealthyServer::book"]}
{"id": "C42", "title": "Booked directives regain their source locations", "statement": "After booking, each booked directive and each of its postings which stem from a raw directive or posting carries the span and provenance of exactly that raw directive or posting; generated postings carry none.", "quantifier": "every list of booked and raw directives related by positions", "why_tests_cant": "Index arithmetic on nested unbounded lists.", "anchors": ["clj/src/limabean/adapter/loader.clj: resolve-directives-from-raw"]}
{"id": "C43", "title": "Both report resolvers agree", "statement": "Resolving an indexed report against the raw directives in the client gives the same message, reason, span, contexts, related locations and annotation as resolving it in the server.", "quantifier": "every indexed report and list of directives with spans", "why_tests_cant": "Two implementations in two languages on all inputs.", "anchors": ["clj/src/limabean/adapter/loader.clj: resolve-report-from-raw", "rust/src/api/types/parser_type_conversions.rs: create_reports_from_booking_errors"]}
{"id": "C44", "title": "Decoding preserves metadata", "statement": "Decoding the server's JSON into Clojure data changes only the date, kind and booking fields of directives; metadata entries of any key survive unchanged.", "quantifier": "every JSON value", "why_tests_cant": "All nestings and all metadata keys.", "anchors": ["clj/src/limabean/adapter/pod.clj: convert-values"]}
{"id": "C45", "title": "Provenance tagging", "statement": "After running a list of plugins, every directive that a plugin created or replaced carries that plugin's name in its provenance (exactly once per pass through that plugin), every directive that plugins pass through unchanged keeps its provenance, and the booked-phase marker occurs at most once.", "quantifier": "every list of plugins and directives", "why_tests_cant": "All plugin behaviours.", "anchors": ["clj/src/limabean/adapter/plugins.clj"]}
{"id": "C46", "title": "Synthetic spans land on the right elements", "statement": "Every directive with provenance, and each of its postings, is given the synthetic span that was created from its own text; directives without provenance are untouched.", "quantifier": "every list of directives mixing those with and without provenance", "why_tests_cant": "A positional zip of a flattened list back on to a nested list.", "anchors": ["clj/src/limabean/adapter/synthetic_spans.clj"]}
{"id": "C47", "title": "Launcher picks the right runtime", "statement": "The launcher runs the local development root if configured, else the configured uberjar, else the built-in uberjar, else the published artifact of its own version; extra dependencies are used exactly when not running from an uberjar and a warning is given otherwise; all command line arguments are passed through in order, after the runtime's own arguments.", "quantifier": "every environment and command line", "why_tests_cant": "All combinations of environment variables and arguments.", "anchors": ["rust/src/bin/limabean/run.rs: Runtime::from_env"]}
{"id": "C48", "title": "Cost order is a total order", "statement": "The ordering used for positions is a strict total order on cost keys: trichotomous, transitive and antisymmetric, and its ties are exactly equal costs (as numbers).", "quantifier": "every triple of cost keys", "why_tests_cant": "Laws on all triples.", "anchors": ["clj/src/limabean/core/inventory.clj: compare-cost-keys"]}
{"id": "C49", "title": "Every request gets its own response", "statement": "Over the life of a pod, requests carry pairwise different, strictly increasing ids, and the response the client reads for its k-th request is the server's response to that k-th request.", "quantifier": "every sequence of requests", "why_tests_cant": "Unbounded sequences.", "anchors": ["clj/src/limabean/adapter/pod.clj: rpc"]}
{"id": "C50", "title": "At most one live pod", "statement": "In an interactive session, however often beanfiles are loaded, at most one server process started by the session is alive at any time, also if loading fails.", "quantifier": "every sequence of loads, with any failure", "why_tests_cant": "Unbounded sessions with failures.", "anchors": ["clj/src/limabean/user.clj: load-beanfile"]}
{"id": "C51", "title": "Cell rendering aligns decimals", "statement": "Rendering a number keeps its text unchanged and anchors it at the last character before its decimal point (or fraction slash), or at its last character if there is none; the anchor lies within the text.", "quantifier": "every number text", "why_tests_cant": "All magnitudes and scales.", "anchors": ["clj/src/limabean/core/cell.clj"]}
{"id": "C52", "title": "Directive formatting is faithful", "statement": "The text produced for a directive determines it: if the same text is printed for two directives, they agree in date, kind, fields, tags, links, metadata and postings, apart from their spans and the order within sets.", "quantifier": "every pair of directives", "why_tests_cant": "All strings, including those with quotes.", "anchors": ["clj/src/limabean/core/format.clj"]}
{"id": "C53", "title": "Numbers are shown exactly and line up at their units", "statement": "The cell of a decimal number shows its sign, its whole part, and exactly as many decimal digits as the number has, and is anchored at the last digit of the whole part, so that columns of numbers line up at their units.", "quantifier": "every decimal number", "why_tests_cant": "All magnitudes and scales.", "anchors": ["clj/src/limabean/core/cell.clj"]}
{"id": "C54", "title": "Directives from the server pass the client's validation", "statement": "Every directive which the parser or booking yields passes the client's check of directives before and after plugins, so that a plugin which passes directives on as they are never makes loading fail.", "quantifier": "every raw and every booked directive", "why_tests_cant": "All values of all fields; the specs accept decimals where the server sends integers or decimals as the number happens to be.", "anchors": ["clj/src/limabean/spec.clj", "clj/src/limabean/adapter/plugins.clj: tag-and-validate-unseen", "rust/src/api/types/raw.rs", "rust/src/api/types/booked.rs"]}
{"id": "C55", "title": "A rollup is for the primary currency", "statement": "The rollup of an inventory is for a currency which is held by as many accounts as any other; after filtering by a currency it is for that one; an inventory without positions has an empty rollup.", "quantifier": "every inventory, whatever the iteration order of maps", "why_tests_cant": "All inventories, including the empty one, and all iteration orders.", "anchors": ["clj/src/limabean.clj: rollup", "clj/src/limabean/core/inventory.clj: cur-freq"]}
{"id": "C56", "title": "Errors which plugins report reach the user with their places", "statement": "For every error which a plugin has reported on a directive the user is shown, in order, the name of the plugin and its message at the place of the directive; for a directive of the beanfile which plugins have changed, at both its synthetic place and its place in the beanfile.", "quantifier": "every list of directives with errors", "why_tests_cant": "All combinations of spans and numbers of errors.", "anchors": ["clj/src/limabean/adapter/error.clj: dct-errors->reports", "clj/src/limabean/plugin.clj: dct-error!"]}
{"id": "C57", "title": "Directives read and sent back arrive unchanged", "statement": "A directive which the client has read from the server's answer and sends back for booking arrives at the server as it was: date, kind, all fields, numbers with their decimal places, tags, links and metadata, up to the order within sets and maps.", "quantifier": "every raw directive, whatever the iteration order of the client's sets and maps", "why_tests_cant": "All values of all fields through four encoders and decoders.", "anchors": ["clj/src/limabean/adapter/json.clj", "clj/src/limabean/adapter/pod.clj", "rust/src/api/types/raw.rs", "rust/src/api/types/serializers.rs"]}
{"id": "C58", "title": "Booking ignores what is attached and passes it on", "statement": "Booking does not depend on source locations, tags, links, metadata or on the order of the currencies of an account: two ledgers which agree otherwise are both accepted or get the same reports, and the booked directives carry what was attached to the raw ones.", "quantifier": "every pair of ledgers agreeing but for attached data, every iteration order of accounts, every booking library which sees only the trait", "why_tests_cant": "A relation between two runs, for all ledgers.", "anchors": ["rust/src/api/booking/accumulator.rs", "rust/src/api/booking/types.rs:9-33"]}
{"id": "C59", "title": "Loading yields the booked ledger, and plugins which pass directives on make no difference", "statement": "Loading a beanfile which books yields exactly its booked directives, in order, with the places of the directives and postings they stem from; with raw plugins which pass on every directive unchanged the outcome is the same, and if booking fails the reports are the same.", "quantifier": "every ledger and every list of plugins which pass on what they receive", "why_tests_cant": "All ledgers through every stage of both programs.", "anchors": ["clj/src/limabean/adapter/loader.clj: load-beanfile", "clj/src/limabean/adapter/plugins.clj", "clj/src/limabean/adapter/pod.clj: book", "rust/src/api/server.rs: book"]}
{"id": "C60", "title": "Reports agree with booking", "statement": "Every accepted ledger has an inventory; in each account and currency it has the units which booking holds at the end; and an inventory or rollup of what is dated before a balance assertion shows the asserted amount for its account, within the tolerance.", "quantifier": "every accepted ledger, every assertion at the start of its day", "why_tests_cant": "Two programs in two languages keep holdings separately; all ledgers, all assertions.", "anchors": ["clj/src/limabean.clj: inventory, rollup", "clj/src/limabean/core/inventory.clj", "rust/src/api/booking/accumulator.rs: balance"]}
{"id": "C61", "title": "What the parser has read is what the server works with", "statement": "Every directive which the parser has read reaches booking and the client with the same place, date, kind and content: every field under its own name, numbers by value, tags, links and currencies as sets, metadata with the last value of each key; two directives are the same to the server exactly when they say the same. So a beanfile without plugins which books is loaded.", "quantifier": "every directive of the parser's types, whatever the iteration order of Rust's sets and maps", "why_tests_cant": "All kinds of directives with all combinations of optional parts.", "anchors": ["rust/src/api/types/parser_type_conversions.rs"]}
{"id": "C62", "title": "Warnings do not stop loading, and reach the user", "statement": "A beanfile about which the parser or booking has only warnings is loaded as if there were none, and the user gets to see the warnings.", "quantifier": "every beanfile with warnings", "why_tests_cant": "All warnings through two programs and every stage of loading.", "anchors": ["rust/src/api/server.rs:48-53, 229-240, 370-375", "clj/src/limabean/adapter/loader.clj:42-50, 156-178", "clj/src/limabean/adapter/error.clj: print-errors"]}
{"id": "C63", "title": "The exit status says whether the program did what it was asked", "statement": "The status is 0 exactly if the arguments make sense and, given an expression, the beanfile was loaded without errors and the expression evaluated without an exception; otherwise it is 1. With arguments which make no sense a message is printed and no server is started.", "quantifier": "every command line, every beanfile, every expression", "why_tests_cant": "All combinations of arguments, and every way in which loading can end.", "anchors": ["clj/src/limabean/main.clj", "clj/src/limabean/app.clj"]}
{"id": "C64", "title": "The session shows the last beanfile, and nothing else", "statement": "After any number of loads in a session, of which some may have failed or thrown, the variables depend on the last load only; they agree with each other: after an error there are neither directives nor a registry, otherwise the registry is that of the directives and options.", "quantifier": "every sequence of loads, each with any outcome", "why_tests_cant": "All sequences; leftovers of an earlier ledger show only in some of them.", "anchors": ["clj/src/limabean/user.clj:10-47", "clj/src/limabean/adapter/loader.clj: load-beanfile"]}
{"id": "C65", "title": "Errors are shown in full", "statement": "When a beanfile does not load, the user reads every error, in order, and no other: for each error of the parser and of booking its kind and place, its reason, related places and annotation; for each plugin which cannot be used its name and why.", "quantifier": "every beanfile which does not parse, has plugins which cannot be used, or does not book", "why_tests_cant": "All sets of errors, through two programs, three data formats and every stage of loading.", "anchors": ["clj/src/limabean/adapter/error.clj: print-errors", "clj/src/limabean/adapter/loader.clj: load-beanfile, resolve-reports-from-raw", "rust/src/api/server.rs:267-296"]}
{"id": "C66", "title": "The loaded ledger is what the plugins and booking make of the beanfile", "statement": "If loading ends without an error, every plugin was found; the raw plugins have worked on the directives of the beanfile in the order of the beanfile, each on the result of the one before; their result was booked; the booked plugins have worked on the result of booking in the same way; and their result is the ledger, of which the registry is made. Nothing but synthetic spans is added on the way, and no directive of the ledger carries an error of a plugin.", "quantifier": "every beanfile, every set of plugins, whatever they do, every booking library", "why_tests_cant": "All plugins; a stage whose result is dropped or which works on the input of an earlier stage goes unnoticed by plugins which pass on what they receive.", "anchors": ["clj/src/limabean/adapter/loader.clj", "clj/src/limabean/adapter/plugins.clj", "clj/src/limabean/adapter/synthetic_spans.clj"]}
{"id": "C67", "title": "Every plugin line is used with all of its configuration, or reported", "statement": "For each plugin line of the beanfile: if there is a namespace of its name, with underscores as hyphens, which has one of the functions raw-xf and booked-xf, if the second string is a value, and if the functions do not throw, then what they make of this value and the options runs; otherwise nothing of the line is used, nothing is loaded, and the user reads the name of the plugin and the reason, for each such line.", "quantifier": "every beanfile, every set of namespaces, every configuration text", "why_tests_cant": "All plugins and configurations, including malformed ones.", "anchors": ["clj/src/limabean/adapter/plugins.clj:6-48", "clj/src/limabean/adapter/edn.clj", "clj/src/limabean/adapter/loader.clj: get-plugins-and-options"]}
{"id": "C68", "title": "What passes the front end's check, the server accepts and understands", "statement": "Each directive which a plugin makes and which satisfies the specification that the front end checks is accepted by the server when it is sent to be booked, and the server reads what the directive says: its kind, date, names, numbers, postings, tags, links and metadata, no more and no less. So what is booked is what the raw plugins made.", "quantifier": "every Clojure value which satisfies the specification, every order in which maps are written", "why_tests_cant": "All nestings of optional entries, sets, maps and metadata values, made by code which is not the project's.", "anchors": ["clj/src/limabean/spec.clj", "clj/src/limabean/adapter/pod.clj:28-31", "rust/src/api/types/raw.rs", "rust/src/api/types/serializers.rs"]}
{"id": "C69", "title": "Every directive of a loaded ledger satisfies the specification", "statement": "If loading ends without an error, every directive of the ledger satisfies the specification for booked directives, and every directive which was sent to be booked that for raw ones, whatever the plugins do; a plugin which makes a directive that does not, and has no error, stops the loading.", "quantifier": "every beanfile, every set of plugins, whatever they do", "why_tests_cant": "All plugins; a check which misses objects of some origin, or made at the end, is found only by plugins which make them there.", "anchors": ["clj/src/limabean/adapter/plugins.clj:50-113", "clj/src/limabean/spec.clj", "clj/src/limabean/adapter/loader.clj: run-plugins"]}
{"id": "C70", "title": "Reports on a loaded beanfile are those of what was booked", "statement": "If loading ends without an error and no plugin works on booked directives, then the inventory, the balances, the income statement and the journal, for any filters, are those of the directives which booking has made and of the options of the beanfile: between booking and the report nothing is lost, added or mistaken. If loading ends with an error, all reports are empty. Filters find in the data of a directive exactly the fields which the directive has.", "quantifier": "every beanfile which loads, all raw plugins, every set of filters", "why_tests_cant": "The path from the server's structures through JSON, Clojure maps, resolution of locations and merged maps of postings, for all ledgers; tests compare some rendered reports.", "anchors": ["clj/src/limabean.clj", "clj/src/limabean/core/xf.clj", "clj/src/limabean/core/registry.clj", "clj/src/limabean/core/inventory.clj", "clj/src/limabean/core/journal.clj", "clj/src/limabean/adapter/loader.clj"]}
{"id": "C71", "title": "Reports can be made on whatever plugins have made", "statement": "If loading ends without an error and plugins have worked on the booked directives, whatever these have made: every posting of the ledger has account, units and currency; the journal can be made for all filters, with one entry for each selected posting; the inventory can be made unless a selected posting is in an account opened with the method average; it gives for each account and currency the sum of the units of the selected postings; balances and income statement are inventories restricted to the accounts below the names in the options of the beanfile.", "quantifier": "every beanfile which loads, all plugins whatever they do, every set of filters", "why_tests_cant": "Plugins are arbitrary code; a gap between what the specification lets through and what the reports read shows only for plugins which use it.", "anchors": ["clj/src/limabean.clj", "clj/src/limabean/core/xf.clj", "clj/src/limabean/spec.clj", "clj/src/limabean/core/inventory.clj", "clj/src/limabean/adapter/loader.clj"]}
{"id": "C72", "title": "Reports are exact for large numbers", "statement": "Whatever the size of the amounts in an accepted ledger, an inventory or a journal can be made, and its sums are exact.", "quantifier": "every accepted ledger, every set of filters", "why_tests_cant": "Overflow depends on the size of running sums, not of the amounts; tests use small amounts.", "anchors": ["clj/src/limabean/core/inventory.clj:84-106", "clj/src/limabean/core/journal.clj", "clj/src/limabean/adapter/pod.clj:49-56"]}
{"id": "C73", "title": "The user's files are loaded as listed, and exceptions are shown", "statement": "After the beanfile, with or without errors in it, each file listed in LIMABEAN_USER_CLJ is loaded, in order, also if an earlier one throws an exception; an empty variable lists nothing. For each file which fails the user reads its name and why; the same for each input of the session which throws. The variable *exception* is always the last exception.", "quantifier": "every list of files, every sequence of inputs, whatever they do", "why_tests_cant": "All sequences of failing and succeeding files and inputs.", "anchors": ["clj/src/limabean/adapter/user_clj.clj", "clj/src/limabean/adapter/exception.clj", "clj/src/limabean/app.clj"]}
{"id": "C74", "title": "Decimals of limited size do not matter to booking", "statement": "Booking accepts a ledger if and only if it would with exact numbers, and then answers the same directives and warnings; if an assertion fails, the report is the same; neither the limits of decimals (96 bits, 28 places) nor the order in which the hash map of accounts is iterated matters.", "quantifier": "every ledger, every order of the accounts, every arithmetic which is exact where results can be represented", "why_tests_cant": "Overflow depends on partial sums, and these on the iteration order of a hash map, which differs from run to run.", "anchors": ["rust/src/api/booking/accumulator.rs:356-380", "rust/src/api/booking/accumulator.rs:382-479", "rust/src/api/booking/accumulator.rs:698-706"]}
{"id": "C75", "title": "Booking reports exactly the faults of the ledger", "statement": "Whatever is wrong with a ledger, booking answers with one report for each fault and no others: at the directive and posting where the fault is, saying what it is (account not open, closed, already open, already closed, wrong currency, refused by the booking library, assertion off by so much, pad not needed, superseded or without an assertion) and naming the other directive concerned. Faults before do not hide faults after, an account opened again after closing counts as open from there on, and an assertion which fails is taken as true from there on. Booking panics exactly when an assertion needs a pad whose source was never opened.", "quantifier": "every list of directives, faulty ones included, every iteration order", "why_tests_cant": "The reports after the first depend on the state which faulty directives leave behind; tests look at ledgers with one fault.", "anchors": ["rust/src/api/booking/accumulator.rs"]}
{"id": "C76", "title": "The health check succeeds exactly if what the launcher runs works", "statement": "`limabean health` ends with status 0 exactly if the program which any other call would run answers to its version (Clojure), or Java answers and the uberjar is there; else with status 1. Any other call is replaced by that program, or ends with status 1 and a message which names the program and the reason. The launcher panics only if it has no name or an argument is not Unicode.", "quantifier": "every behaviour of the system's programs and files, every configuration, all arguments", "why_tests_cant": "The system is not under the control of tests; failures of programs which start but do not work are not tried.", "anchors": ["rust/src/bin/limabean/health.rs", "rust/src/bin/limabean/run.rs:100-130", "rust/src/bin/limabean/main.rs"]}
{"id": "C77", "title": "An honest client is always answered", "statement": "A client which refers only to locations that the server has told it, and books no ledger where a pad has a source which was never opened, gets an answer to each of its lines, in order, however malformed the lines otherwise are, and the server ends with status 0 when the lines end.", "quantifier": "every beanfile, every sequence of lines of such a client, every iteration order", "why_tests_cant": "Sequences of requests of any length which depend on earlier answers.", "anchors": ["rust/src/api/server.rs", "rust/src/api/json_rpc.rs", "rust/src/api/types/parser_type_conversions.rs", "rust/src/bin/limabean-pod/main.rs"]}
{"id": "C78", "title": "The report of a failed assertion is the statement of the account", "statement": "The table in the report of a failed balance assertion has exactly one line for each amount moved on the account or below it, by transactions without faults and by pads which were needed, since the last assertion on this account, in the order of the ledger, with date, payee or narration, units and running total, which starts from the amount of that assertion (if of the same currency, else from zero); accounts are named exactly if there are several; the accumulated amount is the last total, and the error is the asserted amount less what is held.", "quantifier": "every list of directives, faulty ones included, every iteration order", "why_tests_cant": "The table depends on positions kept in the list of booked directives, which pads filled in later change; tests look at single reports.", "anchors": ["rust/src/api/booking/accumulator.rs:382-563"]}
{"id": "C79", "title": "With the plugin auto_accounts, accounts need not be opened", "statement": "A user who enables beancount.plugins.auto_accounts need not write open directives: booking what the plugin produces never reports that an account is not open and never panics for want of an open account; and a ledger which is accepted without the plugin is left unchanged by it. False for accounts which no transaction uses: an assertion or a pad on such an account is still reported, and an assertion after a pad from such an account panics.", "quantifier": "for all lists of directives, booking libraries which satisfy the contract, iteration orders and options", "why_tests_cant": "a test shows ledgers whose accounts all occur in transactions; that the remaining reports and panics are exactly about accounts which no transaction uses, wherever they stand, is a statement about all ledgers", "anchors": ["clj/src/beancount/plugins/auto_accounts.clj:4-36", "rust/src/api/booking/accumulator.rs"]}
{"id": "C80", "title": "With auto_accounts the ledger is loaded as if the user had opened the accounts", "statement": "Loading a ledger with the plugin beancount.plugins.auto_accounts ends as booking the ledger in which each account is opened just before the first transaction which uses it: with its booked directives in order, which the client shows with their places (for the opens the plugin is named as provenance); or with the reports of its booking, about the directives concerned; an open made by the plugin passes the client's checks, gets a synthetic span, is accepted by the server and comes back. False for ledgers with numbers which the client's checks refuse as soon as there is a plugin.", "quantifier": "for all parsed ledgers whose only plugin is auto_accounts, booking libraries, iteration orders of maps and sets, orders of JSON entries", "why_tests_cant": "the plugin's test compares the directives which the plugin makes for one ledger; that these go through the checks, the span merging, the JSON encoding and booking for all ledgers, and that reports stay with the right directives, is not tested", "anchors": ["clj/src/beancount/plugins/auto_accounts.clj:4-36", "clj/src/limabean/adapter/loader.clj:52-89", "clj/src/limabean/adapter/plugins.clj:83-107", "clj/src/limabean/adapter/synthetic_spans.clj:28-44"]}
{"id": "C81", "title": "Parts of a ledger which have nothing to do with each other do not affect each other", "statement": "If the accounts of a ledger fall into two sets such that no directive uses accounts of both and no account of one is below one of the other, then booking the ledger is booking the two parts: it panics exactly if one of the parts does, is accepted exactly if both are, and what it returns, warns of and reports at the directives of a part is what booking the part alone returns, warns of and reports, up to the positions of the directives.", "quantifier": "for all lists of directives however the parts are interleaved, faulty ones included, iteration orders, options and booking libraries which satisfy the contract", "why_tests_cant": "the accumulator keeps positions in one list of booked directives for pads and for the reports of assertions; that directives of others in between never matter is a statement about all ways of interleaving", "anchors": ["rust/src/api/booking/accumulator.rs:78-563"]}
{"id": "C82", "title": "What booking returns, in full", "statement": "Booking succeeds exactly for the ledgers in which nothing is wrong (C75), and then what it returns is determined directive by directive: every directive once, in order, with its number, date, tags, links and metadata; a transaction with the postings which the booking library makes of it at what the accounts hold by then, one for each lot; an assertion and any other directive as they are; a pad followed by a transaction flagged 'P which moves to the account from the source exactly what the assertion which uses the pad is missing at its place in the ledger; and two warnings for each account which is opened with an unsupported booking method, none otherwise.", "quantifier": "for all lists of directives, options, iteration orders and booking libraries which satisfy the contract", "why_tests_cant": "the implementation writes the transaction of a pad before its postings are known and changes it later by position, and keeps the accounts in hash maps; that the result is this function of the ledger is a statement about all ledgers", "anchors": ["rust/src/api/booking/accumulator.rs:78-563"]}
{"id": "C83", "title": "The order of neighbouring directives which have nothing to do with each other does not matter", "statement": "If of two neighbouring directives neither concerns an account at which the other looks (an assertion looks at its account, those below it, and the sources of pads for it), then exchanging them changes nothing but their numbers: booking panics, accepts or refuses as before; it returns the same directives and warnings; and its reports tell the same faults at the same directives, also where later directives bring their accounts together.", "quantifier": "for all lists of directives before and after, faulty ones included, options, iteration orders and booking libraries which satisfy the contract", "why_tests_cant": "positions of pads, windows of assertions and the iteration order of hash maps all depend on the order; that none of it is observable is a statement about all ledgers", "anchors": ["rust/src/api/booking/accumulator.rs:78-563"]}
{"id": "C84", "title": "Reports on what plugins changed say what they are about, and name the plugins", "statement": "If the directives which raw plugins leave are understood by the server and booking them fails, then every report the user gets says what it is about: a posting, or the kind of the directive; for a posting, where its transaction is; and the same for each related element. If the element is written in the user's files and its directive carries a record of the plugins which made it, then the report names these plugins, all of them and in their order; otherwise none is named.", "quantifier": "for all ledgers, plugins, directives which they leave (of the shape the specifications of the front end demand), booking errors and booking libraries", "why_tests_cant": "the front end finds the element by position in data which plugins have changed; that the message speaks of the right element for every error and every plugin is a statement about all of them", "anchors": ["clj/src/limabean/adapter/loader.clj:112-154"]}
{"id": "C85", "title": "From the text of a report of booking one can read what is wrong", "statement": "The text of a report or warning of booking determines what it reports: which fault it is, and, for a failed assertion, the accumulated amount, the difference and the currency, with all their decimal places; for an unsupported booking method, the method and the one used in its place; for an error of the booking library on a posting, the error and the number of the posting. Two different faults never have the same text. Amounts are written in decimal notation, without exponents.", "quantifier": "for all reports which booking can make, all amounts and currency names; of the booking library's own errors only the wrapping is covered", "why_tests_cant": "that no two of infinitely many reports share a text cannot be sampled", "anchors": ["rust/src/api/booking/accumulator.rs:64,97,302,307,322,324,532,575,583,593,614,634,644,672,805"]}
{"id": "C86", "title": "Who asks for a booking method which is not supported is warned of it by name", "statement": "If a ledger asks for a booking method which is not supported, in the options or when opening an account, then there is a warning which names this method; every such warning names the method in question, and there are no warnings otherwise.", "quantifier": "for all ledgers, options, iteration orders and booking libraries which satisfy the contract", "why_tests_cant": "that no ledger has a warning too few or too many, or one without the name, is a statement about all ledgers", "anchors": ["rust/src/api/booking.rs:11-26", "rust/src/api/booking/accumulator.rs:584-617"]}
{"id": "C87", "title": "The names of accounts mean nothing but which is below which", "statement": "If all accounts of a ledger are renamed so that one is below another exactly as before, then booking does the same: it panics, accepts or refuses as before; it returns the same directives but for the names, and the same warnings; and its reports are at the same places, for the same reasons, referring to the same directives. In particular one may replace words of account names throughout, such as the roots Assets or Income, by other words.", "quantifier": "for all ledgers, faulty ones included, renamings, options, iteration orders and booking libraries to which names mean nothing", "why_tests_cant": "the implementation compares names as texts with prefixes, uses them as keys of hash maps and walks over them; that no name is special is a statement about all names", "anchors": ["rust/src/api/booking/accumulator.rs:78-563", "rust/src/api/booking/accumulator.rs:690-696"]}
{"id": "C88", "title": "Client and server understand one another whatever characters the messages contain", "statement": "Whatever strings and numbers messages contain, each is written as one line without control characters; the front end's check for line ends never throws; the server takes the lines for exactly the messages which were sent (up to 127 levels of nesting), and the front end reads exactly the responses which the server wrote, one line each and in order, also if what the server was sent is not JSON. Small numbers, which the front end writes with an exponent, keep all their digits. A string can be borrowed from the text of a message exactly if it has no quote, backslash or control character.", "quantifier": "for all messages, all texts of input, all states of the server", "why_tests_cant": "line ends, quotes and control characters may stand anywhere in narrations, notes, metadata, names of files and reports; tests have a few such strings", "anchors": ["clj/src/limabean/adapter/pod.clj:13-32", "clj/src/limabean/adapter/pod.clj:51-58", "rust/src/api/server.rs:81-123", "rust/src/api/server.rs:400-425", "rust/src/api/server.rs:466-494"]}
{"id": "C89", "title": "The text of a whole ledger determines it, also after booking", "statement": "Ledgers of which the session or the debug dump prints the same text consist of the same directives in the same order: where one directive ends and the next begins is seen from the text. A booked directive is printed exactly as one would write it into a beanfile to get it, whatever spans and provenance it has.", "quantifier": "for all ledgers of directives made of names and texts, before and after booking, and all iteration orders of sets", "why_tests_cant": "directives may have empty parts, texts with line ends and blank lines in them, and postings; that no two sequences of directives run together to the same text cannot be sampled", "anchors": ["clj/src/limabean/adapter/print.clj:13-16", "clj/src/limabean/adapter/debug.clj:10-24", "clj/src/limabean/core/format.clj:62-161", "clj/src/limabean/adapter/loader.clj:91-110"]}
{"id": "C90", "title": "What was booked can be written down and booked again", "statement": "The ledger which booking returned, written out as it is printed, is accepted by booking with the same warnings, and what booking then returns is printed as the same text.", "quantifier": "for all ledgers, options, iteration orders and booking libraries which satisfy the contracts", "why_tests_cant": "the interpolated amounts and the lots which were chosen stand in the output; that nothing in them makes a second booking choose otherwise is a statement about all ledgers", "anchors": ["rust/src/api/booking/accumulator.rs:78-563", "clj/src/limabean/core/format.clj:62-161"]}
{"id": "C91", "title": "Loading a beanfile again gives the same result", "statement": "If a beanfile has not changed, loading it in another run gives the same: the same options, directives before and after booking, registry and warnings, the same error, or the same exception. Only the reports on a failed booking may come in another order.", "quantifier": "for all beanfiles, plugins, iteration orders of the server's hash maps and identity hash codes, in each of two runs", "why_tests_cant": "what differs between runs cannot be chosen by a test, and a test which has passed a hundred times says nothing about the orders it has not met", "anchors": ["clj/src/limabean/adapter/loader.clj:20-170", "clj/src/limabean/adapter/plugins.clj", "rust/src/api/booking/accumulator.rs:78-563", "rust/src/server.rs"]}
{"id": "C92", "title": "Golden tests pass after they have been created, and a passing test says that the ledger is as recorded", "statement": "After golden files have been created without an exception, all golden tests pass, in this and in any other run. Creating them again changes nothing, nothing but golden files of tests is written, and what is written is not itself taken for a test. If a test passes, and directives are recorded, then its beanfile loads without error to directives which match them.", "quantifier": "for all trees of files, beanfiles, plugins, contents of golden directories, and runs", "why_tests_cant": "tests of the test harness would be such golden tests themselves", "anchors": ["clj-test/src/limabean/test.clj:16-111", "clj-test/src/limabean/test/create_golden.clj:12-89", "clj/doc/40-plugins.md:77-85"]}
{"id": "C93", "title": "The books balance as well as the transactions do", "statement": "In an accepted ledger what all accounts together hold of a currency, in units or by weight, now or in any period, is what the transactions written by the user in that period add up to: what booking adds for pads adds nothing. If each transaction is off by at most some amount, the books are off by at most that much for each. The balance sheet, the income statement and the equity accounts add up to the same.", "quantifier": "for all ledgers, currencies, periods, tolerances and booking libraries", "why_tests_cant": "a test adds up the accounts of one ledger; that nothing is created or lost concerns every ledger, whatever pads and lots it has", "anchors": ["rust/src/api/booking/accumulator.rs:382-479", "rust/src/api/booking/accumulator.rs:651-687", "clj/src/limabean.clj:14-56", "clj/src/limabean/core/inventory.clj"]}
{"id": "C94", "title": "A period is what its dates say, and reports on consecutive periods add up", "statement": "A year, a month or a financial year given to a date filter is exactly the days of it, and every day is in exactly one financial year. What accounts hold at the end of a period, of each currency and at each cost, is what they held before and what the report on the period shows; reports on any number of consecutive periods add up to the report on the whole; so also for balances, income statements and any further filters. The journal until the end of a period continues the journal until its beginning by the rows of the journal of the period.", "quantifier": "for all ledgers, dates, divisions into periods, accounts, currencies, costs and further filters", "why_tests_cant": "tests check a filter on a few dates near a boundary; that nothing is counted twice or left out between periods concerns all dates and ledgers", "anchors": ["clj/src/limabean/core/filters.clj:13-77", "clj/src/limabean.clj:14-63", "clj/src/limabean/core/xf.clj", "examples/clj/user.clj:4-13"]}
{"id": "C95", "title": "What is shown is the report", "statement": "An inventory, a journal or a rollup is always shown, whatever is in it: the text printed is the layout of exactly that report. Reports which are sent alike to be laid out agree in every account, number, currency, date, label, payee, narration and flag, so nothing is lost or confused on the way; and the order of a hash map does not show. If a report cannot be laid out, the user is told why.", "quantifier": "for all reports, map orders, ways of laying out and failures of the program which does so", "why_tests_cant": "a test looks at the text of some tables; that no two different reports look alike when sent, and that none is too deep to be read, concerns all of them", "anchors": ["clj/src/limabean/adapter/show.clj", "clj/src/limabean/adapter/tabulate.clj", "clj/src/limabean/adapter/shell.clj", "clj/src/limabean/core/cell.clj:5-86", "clj/src/limabean/core/inventory.clj:219-232", "clj/src/limabean/core/journal.clj:33-38", "clj/src/limabean/core/rollup.clj:70-82", "rust/src/bin/limabean-pod/main.rs:57-82", "clj/src/limabean/adapter/exception.clj:6-17"]}
{"id": "C96", "title": "The server reads whatever the front end sends", "statement": "Whatever calls the front end makes, each is answered by the line of text which the server writes for it, and what it sends of a ledger, for booking, for synthetic spans or to display errors, is never refused by the server's reader of JSON, however large and deep the ledger.", "quantifier": "for all calls, parameters, ledgers, plugins and reports", "why_tests_cant": "the limit on nesting is far beyond the data of any test, so a test cannot tell what is bounded from what is not", "anchors": ["rust/src/api/server.rs:81-125", "rust/src/api/json_rpc.rs:8-16", "clj/src/limabean/adapter/pod.clj:20-122", "clj/src/limabean/adapter/loader.clj:91-154"]}
{"id": "C97", "title": "Assertions are about the account itself, unless a plugin says otherwise", "statement": "A balance assertion compares the asserted amount with what the account itself holds; only in a beanfile which enables the plugin limabean.balance_rollup are the accounts below it included.", "quantifier": "for all ledgers, accounts, currencies, booking libraries and plugin lines", "why_tests_cant": "the claim is in the documentation, and for accounts with nothing below them it is true; which ledgers it is true of concerns all of them", "anchors": ["clj/doc/60-differences.md:5-14", "rust/src/api/booking/accumulator.rs:356-380", "clj/src/limabean/adapter/plugins.clj:6-22", "clj/src/limabean/adapter/loader.clj:25-40"]}
{"id": "C98", "title": "What a raw plugin makes is loaded as if the user had written it", "statement": "If a beanfile uses raw plugins, and what they make of the directives, one after the other, is the data of some directives (without spans, or with the spans of the directives it got them from), then loading ends as for a beanfile with these directives: if booking accepts them the directives loaded are those booked, and if not the reports are theirs, each shown at the place of the directive a plugin made. In particular the documented plugin which sets narrations replaces the narration of each transaction, adds its name to the provenance of these, and changes nothing else; and the plugin which closes accounts closes them on the day they are opened.", "quantifier": "for all ledgers, plugins, map orders, booking libraries and accounts", "why_tests_cant": "a test runs a few plugins on small ledgers and compares what is loaded with a recorded text; that spans, provenance and tagged data never disturb booking concerns all plugins and ledgers", "anchors": ["clj/src/limabean/adapter/plugins.clj", "clj/src/limabean/adapter/synthetic_spans.clj", "clj/src/limabean/adapter/loader.clj:91-154", "clj/doc/40-plugins.md", "clj/test-plugins/src/limabean/test/plugins/set_narration.clj", "clj/test-plugins/src/limabean/test/plugins/auto_close.clj"]}
{"id": "C99", "title": "Plugins work one after the other, and what they make is refused exactly if it is not a directive", "statement": "The directives after all plugins of a phase are those which result if each plugin works on the complete result of the one before, in the order of the beanfile, although each directive is handed through all plugins before the next. Loading stops with an exception exactly if, at the beginning or after some plugin, a directive without an error does not satisfy the specification of directives of this phase, or a plugin throws one. Otherwise, if directives carry errors at the end, loading stops with exactly these directives; and otherwise it goes on with the result. In particular a plugin which marks directives with an error stops loading with exactly the directives it has marked, each reported at its place in the beanfile with the message of the plugin.", "quantifier": "every beanfile whose plugins are found, all raw and booked plugins, everything they may pass on", "why_tests_cant": "Transducers of plugins are arbitrary functions with state, and the check remembers objects by identity; a test fixes some plugins which behave.", "anchors": ["clj/src/limabean/adapter/plugins.clj", "clj/src/limabean/adapter/loader.clj", "clj/src/limabean/plugin.clj", "clj/test-plugins/src/limabean/test/plugins/fail.clj"]}
{"id": "C100", "title": "Reports are about what was booked, also if there are plugins for booked directives", "statement": "If a beanfile is loaded without an error then inventories, balances, income statements and journals show the transactions as they were booked, whose amounts balance, whatever plugins the beanfile uses. If a plugin for booked directives changes an amount so that a transaction no longer balances, loading ends with an error.", "quantifier": "every beanfile, all raw and booked plugins, all filters", "why_tests_cant": "a plugin may do anything to any directive; a test runs the example plugins on one beanfile each", "anchors": ["clj/src/limabean/adapter/loader.clj:91-154", "clj/src/limabean/adapter/plugins.clj", "clj/test-plugins/src/limabean/test/plugins/adjust_postings_after_booking.clj", "clj/test-plugins/src/limabean/test/plugins/create_event.clj", "examples/beancount/err-plugin-unbalanced-txns.beancount"]}
{"id": "C101", "title": "Example plugins can be combined", "statement": "A beanfile which uses any of the example plugins for raw directives (identity, set-narration, auto-close, tag-matching, set-metadata, duplicate-txns), any number of times and in any order, is loaded as if the user had written the directives which they make one after the other: transactions with the given narration; a close directive after each open directive of the given accounts; the given tag on each directive of the given kind; the given metadata, which win over those which are there, on each directive of the given kinds; and before each transaction a copy of it with the metadata entry dup. If booking accepts these then they are loaded, and otherwise the reports are those for them.", "quantifier": "all beanfiles, all lists of example plugins with all configurations", "why_tests_cant": "a test tries a few combinations on small beanfiles; plugins see each other's results, including marks of where directives come from", "anchors": ["clj/test-plugins/src/limabean/test/plugins/duplicate_txns.clj", "clj/test-plugins/src/limabean/test/plugins/tag_matching.clj", "clj/test-plugins/src/limabean/test/plugins/set_metadata.clj", "clj/test-plugins/src/limabean/test/plugins/set_narration.clj", "clj/test-plugins/src/limabean/test/plugins/auto_close.clj", "clj/test-plugins/src/limabean/test/plugins/identity.clj", "examples/beancount/plugin-auto-close.beancount"]}
{"id": "C102", "title": "A pad is an abbreviation for a transaction", "statement": "If a ledger with pads is accepted then so is the ledger in which, instead of each pad, a transaction with the flag 'P and any date, which moves the missing amount from the source to the padded account, is written directly before the assertion which fills the pad, with the same warnings. Both move the same amounts between the same accounts, so that every account, with those below it, holds the same at the end, and everything else is returned as it was, in the same order. So every ledger has one without pads, and with the same holdings, which is booked again to the same when it is printed.", "quantifier": "every accepted ledger, all dates for the transactions, all booking options, every booking library which books plain transfers", "why_tests_cant": "the amounts depend on all which precedes the assertion, and the transaction is booked at another place in the ledger than the pad; a test compares one ledger", "anchors": ["rust/src/api/booking/accumulator.rs:382-480", "rust/src/api/booking/accumulator.rs:651-690", "rust/src/api/booking/accumulator.rs:708-775"]}
{"id": "C103", "title": "Assertions which fail can be mended one by one", "statement": "If a ledger is refused, and before some of the assertions which are reported as failed one writes a pad, from an account opened for this purpose and not used otherwise, then exactly the reports of these assertions go away: the ledger is refused for the same other reasons at the same directives, and if there are none it is accepted. So no report is a mere consequence of a failed assertion, and none is hidden by one.", "quantifier": "every ledger which is refused, whatever else is wrong with it, every choice among its failed assertions", "why_tests_cant": "the totals of all later assertions, on this account and on those above it, depend on what is held after the failed one; a test has one ledger with one failed assertion", "anchors": ["rust/src/api/booking/accumulator.rs:382-480", "rust/src/api/booking/accumulator.rs:748-775"]}
{"id": "C104", "title": "When a plugin throws, the user learns which, why and where", "statement": "If a plugin throws an exception, such as by the macro error! with a message on a directive, then nothing is loaded, and what is printed has the message, the name of the plugin, and the place of the directive, as it has for errors which plugins attach to directives (dct-error!).", "quantifier": "every beanfile, all plugins for raw and booked directives, whenever one throws", "why_tests_cant": "plugins run interleaved, directive by directive, and any of them may throw anywhere; there is no test in which a plugin throws", "anchors": ["clj/src/limabean/plugin.clj:3-7", "clj/src/limabean/adapter/loader.clj:45-89", "clj/src/limabean/adapter/error.clj:33-54"]}
{"id": "C105", "title": "Checks only check", "statement": "If a ledger is accepted, and one leaves out directives which neither open accounts nor move anything (balance assertions which fill no pad, close directives, prices, commodities, notes, documents, events, queries, custom directives), opens accounts for more currencies, or raises the tolerance of assertions which fill no pad, then it is still accepted, and what is returned is exactly the same but for what was left out or changed: the same postings to the same lots, the same pads, the same warnings.", "quantifier": "every accepted ledger, every choice of checks to leave out or to loosen, all options", "why_tests_cant": "a check is interleaved with everything else which booking does and remembers: windows of reports, pads, lots and positions in the output; a test has one ledger with one check", "anchors": ["rust/src/api/booking/accumulator.rs:382-480", "rust/src/api/booking/accumulator.rs:565-650", "rust/src/api/booking/accumulator.rs:700-775"]}
{"id": "C106", "title": "A ledger can be continued from its balances", "statement": "If two ledgers are accepted, and the second leaves the accounts which are used afterwards open, closed or unopened as the first does, with the same currencies and booking methods, with holdings which are alike to the booking library, and with the same balances on the accounts on which there are assertions afterwards, then whatever follows behaves in the same way after both: it crashes after both, or is accepted after both with the same directives, fills of pads and warnings added, or it has the same faults, reported for the same directives and postings with the same reasons.", "quantifier": "every two accepted ledgers, everything which may follow, with or without faults, all options", "why_tests_cant": "a test compares two particular years; that nothing else of the past matters (who opened the account and when, how the balance came about, what other accounts hold, which position the output had) is a statement on all pasts and all futures", "anchors": ["rust/src/api/booking/accumulator.rs:40-110", "rust/src/api/booking/accumulator.rs:382-480", "rust/src/api/booking/accumulator.rs:565-650"]}
{"id": "C107", "title": "Books can be closed", "statement": "The balances of an accepted ledger can be brought forward: the ledger in which its accounts are opened as before, amounts which add up to their balances are moved to them from an additional account, in any number of transactions, and those which were closed are closed, is accepted, leaves all accounts as they were left, and with the same balances, also of any account taken together with those below it, as long as the additional one is not among them. Whatever follows, the same happens as after the whole ledger: the same directives, fills, warnings or faults.", "quantifier": "every accepted ledger, every way to write its balances as amounts, everything which may follow and does not touch the additional account, all options", "why_tests_cant": "this is what one does every year with the books; a test has one ledger and one year", "anchors": ["rust/src/api/booking/accumulator.rs:177-312", "rust/src/api/booking/accumulator.rs:356-480", "rust/src/api/booking/accumulator.rs:565-650"]}
{"id": "C108", "title": "A beanfile is loaded exactly if nothing is wrong with it, and then shows what it says", "statement": "A beanfile without plugins is loaded without an error exactly if nothing is wrong with its directives, in the sense of the audit of C75. Then nothing is printed, the ledger has the directives which C82 describes, in order and with their places in the beanfile, the inventory has for any filters in each account and currency the sum of the selected postings, and without filters, at each account with those below it, what an assertion at the end of the beanfile would have to say. If something is wrong, all reports are empty, and the user reads that booking has failed. With plugins for raw directives, the ledger and its inventory are those of what the plugins have made of the beanfile, with which nothing is wrong.", "quantifier": "every result of the parser, faulty ledgers and ledgers on which booking crashes included, every iteration order, every set of filters", "why_tests_cant": "it goes through the whole program: conversion of the parser's types, protocol, front end, booking and report, for all ledgers", "anchors": ["rust/src/api/server.rs:100-174", "rust/src/api/booking/accumulator.rs:113-175", "clj/src/limabean/adapter/loader.clj:156-195", "clj/src/limabean.clj:1-80"]}
{"id": "C109", "title": "The names of currencies and the calendar mean nothing to booking", "statement": "If all currencies of a ledger and of its options are given other names, different for different ones, and the directives and costs other dates, then booking does the same: it panics, accepts or refuses as before; it returns the same directives but for the names and dates, and the same warnings; and its reports are at the same places, for the same reasons, off by the same amounts, referring to the same directives. In particular booking goes by the order of the directives, never by their dates.", "quantifier": "for all ledgers, faulty ones included, renamings of currencies, changes of dates, options, iteration orders and booking libraries to which these mean nothing", "why_tests_cant": "a test has particular names and dates; that no name of a currency and no comparison of dates plays a role is about all of them", "anchors": ["rust/src/api/booking/accumulator.rs:113-175", "rust/src/api/booking/accumulator.rs:177-312", "rust/src/api/booking/accumulator.rs:382-480"]}
{"id": "C110", "title": "What the report shows is what can be asserted", "statement": "Take an accepted beanfile and add a balance assertion at the start of a day, for an account for which no pad waits there. The beanfile is accepted with it exactly if the account is open there, takes the currency, and the inventory of what is dated before shows the asserted amount for the account with those below it, within the tolerance. If it is accepted, everything else is returned as before. In a ledger with faults, an assertion which agrees with what is held neither adds a fault nor hides one.", "quantifier": "every accepted ledger, every place in it, every assertion with any tolerance; for the last part all ledgers", "why_tests_cant": "it relates two runs of booking and a report, made by different programs, for all ledgers and assertions", "anchors": ["rust/src/api/booking/accumulator.rs:177-312", "clj/src/limabean.clj:18-23", "clj/src/limabean/core/inventory.clj:1-120"]}
{"id": "C111", "title": "A report as of a date is the report of the beanfile as it was then", "statement": "The directives of an accepted beanfile before some place are, alone, accepted exactly if no pad among them waits for an assertion which comes later; and what is returned for them is exactly what is returned for them in the whole beanfile, with the same warnings. If the place is the start of a day, then the inventory, the balances, the income statement and the journal of the whole beanfile, restricted to what is dated before that day and with any other filters, are those of the beanfile which ends there: what is entered later does not change a report of the past.", "quantifier": "every accepted ledger, every place in it, every day, every set of other filters", "why_tests_cant": "it relates two runs of booking, the registry and four reports, for all ledgers and all days", "anchors": ["rust/src/api/booking/accumulator.rs:60-330", "clj/src/limabean.clj:14-63", "clj/src/limabean/core/registry.clj:1-49", "clj/src/limabean/core/filters.clj:1-127"]}
{"id": "C112", "title": "The front end does not end its server", "statement": "The server panics on places it does not know and on some ledgers (C22). Loading a beanfile with whatever plugins, and printing the errors of this, nevertheless leaves the server running, so that what is asked for next is answered, except in two cases: a plugin has made up a place, which no directive that it received mentions; or a pad among the directives which are booked has a source which is not opened before the assertion. In this second case the failure of booking comes without any report. Beanfiles with syntax errors, plugins which are not found, which throw, report errors or make directives that cannot be sent, and a registry which cannot be built, all leave it running; the server of a beanfile which could not be read is stopped.", "quantifier": "every result of the parser, every set of plugins which make up no places, every iteration order, every booking library, every library of sources which knows the places it has given out", "why_tests_cant": "a test runs particular beanfiles and plugins; here no sequence of requests that loading gives rise to may contain an unknown place", "anchors": ["clj/src/limabean/adapter/loader.clj:25-195", "clj/src/limabean/adapter/error.clj:1-60", "clj/src/limabean/adapter/pod.clj:1-150", "rust/src/api/server.rs:100-330"]}
{"id": "C113", "title": "What counts is what transactions move in all", "statement": "Take an accepted beanfile, and after it two different lists of transactions written in full (every posting has an amount, there are no costs or prices, the amounts of each transaction add up to nothing, the accounts are open and take the currency). Both are accepted, and returned as they are written. If they move the same in all, to each account in each currency, then balances are the same after both, and whatever is entered afterwards, with faults or without, the same happens: the same is accepted, the same pads are filled with the same amounts, the same errors are reported. So the order of such transactions does not matter, a purchase may be split or joined, and a mistake can be undone by a transaction which moves the amounts back.", "quantifier": "every accepted ledger, all lists of such transactions, whatever follows, all options, iteration orders and booking libraries which book such transactions by adding their amounts", "why_tests_cant": "it relates two runs of booking for all ledgers before, all transactions in the middle and everything afterwards", "anchors": ["rust/src/api/booking/accumulator.rs:60-330", "rust/src/api/booking/accumulator.rs:382-480"]}
{"id": "C114", "title": "A greater tolerance does no harm", "statement": "If a beanfile is accepted, then it is also accepted if its assertions allow more: by a greater tolerance written with them, by fewer decimals, or by a greater multiplier in the options; and everything is returned as before. (This is false if a pad is for the assertion: the pad may then not be needed any more, which is an error. And it is about accepted beanfiles: in one with faults, allowing more may bring up a fault in a later assertion, because an assertion which fails counts for the following as if it held.)", "quantifier": "every accepted ledger, every change of its assertions which allows more, all options, iteration orders, and booking libraries which accept no less with the greater tolerance", "why_tests_cant": "it relates two runs of booking for all ledgers and all tolerances", "anchors": ["rust/src/api/booking/accumulator.rs:382-480", "rust/src/api/booking/accumulator.rs:177-312"]}
{"id": "C115", "title": "How a ledger is written matters only by what it means", "statement": "Take any beanfile, with faults or without, and write some of its transactions in another way: with more or fewer decimals, with an amount written which was left to be found, or however else, as long as the booking library makes the same of it whatever the accounts hold. Write some of its assertions with more or fewer decimals, and their tolerance in another way, as long as it is the same tolerance. Then the same happens: the same directives are returned with the same warnings, or there are the same reports at the same places, or booking crashes for both; up to the decimals written and the words of the booking library. (Without writing the tolerance, 5.0 and 5.00 are different assertions.)", "quantifier": "every ledger, every way to write it, all options, iteration orders and booking libraries to which holdings of the same amounts are alike", "why_tests_cant": "it relates two runs of booking, for all ledgers and all ways to write them", "anchors": ["rust/src/api/booking/accumulator.rs:60-330", "rust/src/api/booking/accumulator.rs:382-480"]}
{"id": "C116", "title": "The units in which a ledger is counted do not matter", "statement": "Count each currency in another unit: so many of the new for one of the old (cents for dollars, a new currency for an old one at a fixed rate, or everything with the other sign). Write all amounts, tolerances, costs and prices accordingly. Then the same happens: the same directives are returned with the same warnings and with the amounts in the new units, pads filled with so many times as much; or the same assertions fail, off by so many times as much, and there are the same other reports at the same places; or booking crashes for both. (The total in the report of a failed assertion does not follow, because it adds up different currencies: C21.)", "quantifier": "every ledger, every factor for each currency which is not zero, all options, iteration orders and booking libraries which count alike in the other units", "why_tests_cant": "it relates two runs of booking, for all ledgers and all factors", "anchors": ["rust/src/api/booking/accumulator.rs:60-330", "rust/src/api/booking/accumulator.rs:382-480"]}
{"id": "C117", "title": "What was refused can be taken out", "statement": "No directive is reported twice. If booking fails, then any of the directives with a report can be taken out, and the rest behaves as before: the other reports are given, at the same directives, and no new ones; if all of them are taken out the beanfile is accepted. So a report is of the directive it names, and it is not in the way of, or the cause of, others. (This is false of three kinds of reports: of a failed assertion, which counts for the following ones as if it held; of an account which is opened again after it was closed, since it is then open in spite of the report; and of a second pad, which is dropped together with the first one although only one of them is in excess.) Together with C103: if there are besides only reports of failed assertions, a pad before each of these gives an accepted beanfile.", "quantifier": "every ledger with faults, every choice of directives to take out, all options, iteration orders and lawful booking libraries", "why_tests_cant": "it relates two runs of booking, for all ledgers and all subsets of what was reported", "anchors": ["rust/src/api/booking/accumulator.rs:60-330", "rust/src/api/booking/accumulator.rs:382-480"]}
{"id": "C118", "title": "The options in the session are those of the beanfile", "statement": "After loading a beanfile which the parser accepts, whatever else goes wrong, the map of options in the session has every option of the beanfile under its name: texts, numbers and truth values as written, under a currency the last default tolerance written for it, under the fallback the last one written for no currency, and for options which may be given several times every value exactly once. Options which are not given are absent, and nothing else is in the map. Booking method and tolerances shown are those by which the ledger was booked.", "quantifier": "all parsed ledgers and options; all front ends, plugins and iteration orders; every outcome of loading", "why_tests_cant": "Tests load a few beanfiles with one or two options each. That no combination of twenty-three options, given once or repeatedly, mixes up, drops or overwrites one on the way through conversion, JSON and the conversions by key of the client takes a proof.", "anchors": ["rust/src/api/types/parser_type_conversions.rs:318-383", "rust/src/api/types/raw.rs:244-289", "clj/src/limabean/adapter/pod.clj:34-56", "clj/src/limabean/adapter/loader.clj:25-40", "clj/src/limabean/user.clj:18-29"]}
{"id": "C119", "title": "Resolving places tells what is written there, or fails", "statement": "resolve-spans answers one map for each place, in order, with the name of its source, first and last line, and text; places which were made for what plugins have written resolve to the name and text given. For a place which no source has, an exception is thrown. (False of the code: the server ends, and the client returns nil, as if there had been nothing to resolve.)", "quantifier": "all places, all sources, all states of a running server", "why_tests_cant": "Tests resolve a few places of one file. That order and contents are right for any number of places of any sources, after any creation of places, and what happens for places which are unknown, is for all inputs.", "anchors": ["clj/src/limabean/adapter/pod.clj:20-23, 58-77, 111-118", "rust/src/api/server.rs:298-333", "rust/src/api/types/raw.rs:312-323"]}
{"id": "C120", "title": "An account shows the same in every report", "statement": "What an account and the accounts below it hold in a currency is the same wherever the user looks: in the rollup at that account (an account which is not shown holds nothing), in the inventory restricted with sub-acc, all positions added up, and in the journal restricted with sub-acc, in the balance of its last entry (a journal without entries stands for nothing). It is the sum of the selected postings. Beside any further filters, and for the ledger of a loaded beanfile.", "quantifier": "for all booked ledgers, further filters, accounts with any names without empty parts, currencies, iteration orders of maps; for all beanfiles without plugins for booked directives", "why_tests_cant": "The three reports are computed by different code (a fold over ancestors, a fold over positions with costs, a running balance without costs); tests compare each with its own recorded output, for a few ledgers.", "anchors": ["clj/src/limabean/core/rollup.clj:9-68", "clj/src/limabean/core/journal.clj:8-31", "clj/src/limabean/core/inventory.clj:100-201", "clj/src/limabean/core/filters.clj:82-93", "clj/src/limabean.clj:18-63"]}
{"id": "C121", "title": "Requests mean the same however they are written as JSON", "statement": "A line is read as a JSON value exactly if it is a text for that value by the grammar of RFC 8259: blanks anywhere between tokens, any character of a text written as itself, with a short escape or as a code with one or two (surrogate) groups of hexadecimal digits in any case. Nothing else is read, and values nested 128 deep or deeper are refused. No line is a text for two values, and what is no text for any value is refused. So the server answers alike to clients which write the same requests differently, and what a client writes with any correct JSON library arrives as meant.", "quantifier": "all lines, all JSON values of any depth, all ways to write them; all sequences of requests", "why_tests_cant": "Tests send what one library writes; the ways to write a value are infinite, and so are the lines which must be refused.", "anchors": ["rust/src/api/server.rs:81-123", "clj/src/limabean/adapter/pod.clj:13-32"]}
{"id": "C122", "title": "Reports follow the filters as sets do", "statement": "Filters which let the same postings through give the same inventory, balances, income statement and journal: their order does not matter, nor whether one is repeated or nested in every-f, and none-f and some-f obey the laws of negation. For every account, currency and cost, what two filters select separately adds up to what some-f and every-f of the two select, and what a filter and its none-f select adds up to the whole, beside any further filters; and where the parts can be reported, so can the combinations.", "quantifier": "all loaded sessions (first part); all booked ledgers, filters (any predicates), further filters, accounts, currencies and costs; all beanfiles without plugins for booked directives", "why_tests_cant": "Tests apply a few filters to one ledger each and compare with recorded output; that no choice of filters drops or doubles a posting, though lots and booking methods depend on what is selected, is for all ledgers and predicates.", "anchors": ["clj/src/limabean/core/filters.clj:114-127", "clj/src/limabean/core/xf.clj:3-14", "clj/src/limabean.clj:14-63", "clj/src/limabean/core/inventory.clj:100-201"]}
