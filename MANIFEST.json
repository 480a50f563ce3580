{
 "claims": [
  {
   "property": "C01",
   "status": "proved",
   "theorems": [
    "Limabean.C01_image",
    "Limabean.C01_length"
   ],
   "note": ""
  },
  {
   "property": "C02",
   "status": "proved",
   "theorems": [
    "Limabean.C02_accepted_iff",
    "Limabean.C02_failure_reports"
   ],
   "note": "The acceptance condition is the reference semantics of Spec/Reference.lean. Panics are the subject of C13."
  },
  {
   "property": "C03",
   "status": "proved",
   "theorems": [
    "Limabean.C03_decided",
    "Limabean.C03_any_history"
   ],
   "note": ""
  },
  {
   "property": "C04",
   "status": "proved",
   "theorems": [
    "Limabean.C04_tolerance",
    "Limabean.C04_trailing_zero"
   ],
   "note": ""
  },
  {
   "property": "C05",
   "status": "proved",
   "theorems": [
    "Limabean.C05_subaccount_iff",
    "Limabean.C05_partial_order",
    "Limabean.C05_chain"
   ],
   "note": ""
  },
  {
   "property": "C06",
   "status": "partial",
   "theorems": [
    "Limabean.C06_assertions_hold_partial",
    "Limabean.C06_within_tolerance_partial",
    "Limabean.C06_not_always",
    "Limabean.C06_exact"
   ],
   "note": "False as stated: a pad filled by a later assertion changes the balance under an earlier one (C06_not_always is a witness). C06_exact says what is true of every assertion of every accepted ledger: it holds for the returned ledger without the pads filled by later assertions, exactly if it fills a pad, unless that pad is from the asserted account or below. The statement itself is proved when no pad transaction lies on an account seen by an assertion dated between the pad and the assertion which fills it, see PadsClear."
  },
  {
   "property": "C07",
   "status": "proved",
   "theorems": [
    "Limabean.C07_pad_closes_gap",
    "Limabean.C07_balanced",
    "Limabean.C07_source_below"
   ],
   "note": "C07_source_below: the gap remains when the source is below the padded account, which the statement excludes."
  },
  {
   "property": "C08",
   "status": "proved",
   "theorems": [
    "Limabean.C08_no_unused_pad"
   ],
   "note": ""
  },
  {
   "property": "C09",
   "status": "partial",
   "theorems": [
    "Limabean.C09_only_open_accounts_partial",
    "Limabean.C09_source",
    "Limabean.C09_pad_source_not_checked"
   ],
   "note": "False for the source of a pad: a closed source is accepted (witness). Proved for postings, balances, closes and padded accounts; of the source, that it is opened before the assertion which the pad serves (C09_source)."
  },
  {
   "property": "C10",
   "status": "partial",
   "theorems": [
    "Limabean.C10_permitted_partial",
    "Limabean.C10_pad_source_not_checked"
   ],
   "note": "False for the source of a pad (witness). Proved for every other posting of the returned ledger."
  },
  {
   "property": "C11",
   "status": "partial",
   "theorems": [
    "Limabean.C11_open",
    "Limabean.C11_close",
    "Limabean.C11_status_partial",
    "Limabean.C11_open_exact",
    "Limabean.C11_close_exact",
    "Limabean.C11_status_exact",
    "Limabean.C11_reopened_usable"
   ],
   "note": "False after a refused attempt to reopen a closed account: the account is usable again (witness C11_reopened_usable). Proved for accounts without such an attempt; what happens otherwise is proved exactly (C11_open_exact, C11_close_exact, C11_status_exact)."
  },
  {
   "property": "C12",
   "status": "proved",
   "theorems": [
    "Limabean.C12_same_reports",
    "Limabean.C12_same_effect"
   ],
   "note": "Under the library contract Lawful."
  },
  {
   "property": "C14",
   "status": "proved",
   "theorems": [
    "Limabean.C14_locations"
   ],
   "note": ""
  },
  {
   "property": "C16",
   "status": "proved",
   "theorems": [
    "Limabean.C16_order_independent"
   ],
   "note": "With exact decimals. For those of limited size see C74: overflow, and the number of decimal places of what a pad posts, can depend on the order (C74_false, C74_places_false)."
  },
  {
   "property": "C13",
   "status": "partial",
   "theorems": [
    "Limabean.C13_no_panic_partial",
    "Limabean.C13_panics",
    "Limabean.C13_panics_iff"
   ],
   "note": "False: a pad from an account which is never opened panics when an assertion needs it (witness C13_panics). Proved that this is the only way, and exactly when it happens (C13_panics_iff). Overflow of decimals is the subject of C74."
  },
  {
   "property": "C15",
   "status": "proved",
   "theorems": [
    "Limabean.C15_local"
   ],
   "note": "Under the library contract Lawful."
  },
  {
   "property": "C17",
   "status": "proved",
   "theorems": [
    "Limabean.C17_method",
    "Limabean.C17_supported",
    "Limabean.C17_warning"
   ],
   "note": ""
  },
  {
   "property": "C18",
   "status": "proved",
   "theorems": [
    "Limabean.C18_holdings"
   ],
   "note": "Under the library contract Lawful."
  },
  {
   "property": "C19",
   "status": "partial",
   "theorems": [
    "Limabean.C19_split_partial",
    "Limabean.C19_price_dropped"
   ],
   "note": "False for prices: a posting at cost loses its price (witness). Everything else is proved, under the library contract Lawful."
  },
  {
   "property": "C20",
   "status": "proved",
   "theorems": [
    "Limabean.C20_errors_prefix",
    "Limabean.C20_failure_stays",
    "Limabean.C20_booked_stays"
   ],
   "note": "Unless booking of the extension panics, see C13."
  },
  {
   "property": "C21",
   "status": "partial",
   "theorems": [
    "Limabean.C21_first_assertion_partial",
    "Limabean.C21_next_assertion_partial",
    "Limabean.C21_exact_first",
    "Limabean.C21_exact_next",
    "Limabean.C21_adds_up",
    "Limabean.C21_mixed_currencies",
    "Limabean.C21_within_tolerance"
   ],
   "note": "False with several currencies and after an assertion which held within tolerance only (witnesses). Proved for one currency, on a first assertion and after an exact one. What the report says for any currencies, and when it adds up, is proved exactly (C21_exact_first, C21_exact_next, C21_adds_up)."
  },
  {
   "property": "C22",
   "status": "partial",
   "theorems": [
    "Limabean.C22_responses_partial",
    "Limabean.C22_panics_only",
    "Limabean.C22_not_text",
    "Limabean.C22_dies"
   ],
   "note": "False as stated: a line which is not text ends the server, and so does a panic of booking (witnesses C22_not_text, C22_dies). Proved for text lines where no booking panics, and that nothing else can end the server."
  },
  {
   "property": "C23",
   "status": "partial",
   "theorems": [
    "Limabean.C23_id_partial",
    "Limabean.C23_id_as_sent",
    "Limabean.C23_id_lost",
    "Limabean.C23_ids"
   ],
   "note": "False for plugins, directives and options on a ledger which does not parse: the id is lost (witness C23_id_lost). Proved for all other requests. Integer ids beyond 32 bits come back as floating point numbers and string ids with escapes are refused (C23_ids says exactly which ids are understood)."
  },
  {
   "property": "C24",
   "status": "proved",
   "theorems": [
    "Limabean.C24_error_codes"
   ],
   "note": ""
  },
  {
   "property": "C25",
   "status": "proved",
   "theorems": [
    "Limabean.C25_history",
    "Limabean.C25_unchanged"
   ],
   "note": "Booking errors are the same up to the order of the reports, which depends on the iteration order of a hash map."
  },
  {
   "property": "C27",
   "status": "proved",
   "theorems": [
    "Limabean.C27_meta_roundtrip",
    "Limabean.C27_directive_roundtrip",
    "Limabean.C27_names_plain"
   ],
   "note": "On JSON values; the text of JSON is serde_json's business. C27_names_plain: the condition on names is needed, since borrowed strings cannot be unescaped."
  },
  {
   "property": "C26",
   "status": "proved",
   "theorems": [
    "Limabean.C26_same_booking"
   ],
   "note": "Up to the order of the reports, which depends on the iteration order of a hash map."
  },
  {
   "property": "C28",
   "status": "proved",
   "theorems": [
    "Limabean.C28_spans_in_order"
   ],
   "note": "Under the contract SpanStore of the parser crate's store of sources."
  },
  {
   "property": "C29",
   "status": "proved",
   "theorems": [
    "Limabean.C29_conserved",
    "Limabean.C29_conserved_per_cost",
    "Limabean.C29_defined",
    "Limabean.C29_units"
   ],
   "note": "Accounts with the booking method average make the front end throw: C29_defined."
  },
  {
   "property": "C30",
   "status": "partial",
   "theorems": [
    "Limabean.C30_canonical",
    "Limabean.C30_merged_partial",
    "Limabean.C30_unmerged",
    "Limabean.C30_same_cost_twice"
   ],
   "note": "The front end's key of a cost tells 10 and 10.00 apart (an integer and a big decimal are not = in Clojure), so lots of the same cost can stay unmerged: C30_same_cost_twice. Everything else in the statement is proved without conditions."
  },
  {
   "property": "C31",
   "status": "partial",
   "theorems": [
    "Limabean.C31_order_partial",
    "Limabean.C31_order_depends",
    "Limabean.C31_total_depends"
   ],
   "note": "The total of the cost of a merged position is that of the first posting: C31_total_depends. Lots whose cost is written once as 10 and once as 10.00 are ordered as the postings: C31_order_depends."
  },
  {
   "property": "C48",
   "status": "proved",
   "theorems": [
    "Limabean.C48_total_order",
    "Limabean.C48_ties_not_same_key"
   ],
   "note": "Proved as stated, ties being equal costs as numbers; but costs which tie can have different keys, see C30."
  },
  {
   "property": "C32",
   "status": "proved",
   "theorems": [
    "Limabean.C32_sub_acc",
    "Limabean.C32_fields",
    "Limabean.C32_combinators",
    "Limabean.C32_all_of",
    "Limabean.C32_complement"
   ],
   "note": ""
  },
  {
   "property": "C33",
   "status": "proved",
   "theorems": [
    "Limabean.C33_meaning",
    "Limabean.C33_partition",
    "Limabean.C33_in_order",
    "Limabean.C33_postings"
   ],
   "note": ""
  },
  {
   "property": "C34",
   "status": "proved",
   "theorems": [
    "Limabean.C34_inventory",
    "Limabean.C34_restrictions",
    "Limabean.C34_disjoint"
   ],
   "note": ""
  },
  {
   "property": "C35",
   "status": "proved",
   "theorems": [
    "Limabean.C35_rows",
    "Limabean.C35_balance"
   ],
   "note": ""
  },
  {
   "property": "C36",
   "status": "proved",
   "theorems": [
    "Limabean.C36_shown",
    "Limabean.C36_entry",
    "Limabean.C36_roots"
   ],
   "note": "For inventories whose account names have no empty components."
  },
  {
   "property": "C37",
   "status": "proved",
   "theorems": [
    "Limabean.C37_columns"
   ],
   "note": ""
  },
  {
   "property": "C38",
   "status": "partial",
   "theorems": [
    "Limabean.C38_from_open",
    "Limabean.C38_currencies",
    "Limabean.C38_agree_partial",
    "Limabean.C38_option_ignored",
    "Limabean.C38_unsupported"
   ],
   "note": "The part on the option is false: the registry reads the key booking, the server sends booking-method, so the option is ignored (C38_option_ignored, for every accepted ledger). An unsupported method of an open directive is kept in the registry though booking replaces it (C38_unsupported)."
  },
  {
   "property": "C39",
   "status": "proved",
   "theorems": [
    "Limabean.C39_completed",
    "Limabean.C39_unique",
    "Limabean.C39_original_kept",
    "Limabean.C39_opened_first",
    "Limabean.C39_idempotent",
    "Limabean.C39_needs_in_place"
   ],
   "note": "The plugin's volatile holds a transient set; C39_needs_in_place shows what is relied on."
  },
  {
   "property": "C47",
   "status": "partial",
   "theorems": [
    "Limabean.C47_command",
    "Limabean.C47_warning",
    "Limabean.C47_health",
    "Limabean.C47_prints",
    "Limabean.C47_panic",
    "Limabean.C47_root_read_partial",
    "Limabean.C47_root_not_escaped"
   ],
   "note": "All of the statement is proved, but the local root is put between quotes without escaping, so the runtime reads another root if it contains quotes or backslashes (C47_root_not_escaped)."
  },
  {
   "property": "C51",
   "status": "proved",
   "theorems": [
    "Limabean.C51_anchor",
    "Limabean.C51_within",
    "Limabean.C51_complete"
   ],
   "note": ""
  },
  {
   "property": "C53",
   "status": "partial",
   "theorems": [
    "Limabean.C53_units_partial",
    "Limabean.C53_false"
   ],
   "note": "False for non-zero digits beyond the sixth decimal place in numbers below one millionth: scientific notation, anchored at the exponent."
  },
  {
   "property": "C44",
   "status": "partial",
   "theorems": [
    "Limabean.C44_exact",
    "Limabean.C44_booked_exact",
    "Limabean.C44_partial",
    "Limabean.C44_booked_partial",
    "Limabean.C44_false"
   ],
   "note": "Values of the metadata keys dct and booking become nil (C44_false); all else is preserved (C44_exact)."
  },
  {
   "property": "C42",
   "status": "proved",
   "theorems": [
    "Limabean.C42_directives",
    "Limabean.C42_ledger"
   ],
   "note": ""
  },
  {
   "property": "C43",
   "status": "partial",
   "theorems": [
    "Limabean.C43_partial",
    "Limabean.C43_shown",
    "Limabean.C43_false"
   ],
   "note": "The resolvers disagree on the context of a posting: the client writes the key context where the server reads contexts, and says txn where the server says transaction (C43_false). Proved for all else."
  },
  {
   "property": "C45",
   "status": "partial",
   "theorems": [
    "Limabean.C45_run",
    "Limabean.C45_accounted",
    "Limabean.C45_total",
    "Limabean.C45_unchanged",
    "Limabean.C45_marker_partial",
    "Limabean.C45_false",
    "Limabean.C45_needs_identity"
   ],
   "note": "The marker of the phase occurs twice if two plugins replace a directive: contains? on a vector looks for an index (C45_false). Everything else is proved, assuming that System/identityHashCode tells objects apart (C45_needs_identity)."
  },
  {
   "property": "C46",
   "status": "partial",
   "theorems": [
    "Limabean.C46_partial",
    "Limabean.C46_server_partial",
    "Limabean.C46_false",
    "Limabean.C46_loses_posting"
   ],
   "note": "False for directives other than transactions which have postings: the spans of all later elements are shifted (C46_false), and a later transaction can lose a posting (C46_loses_posting). Proved for all others."
  },
  {
   "property": "C49",
   "status": "proved",
   "theorems": [
    "Limabean.C49_responses",
    "Limabean.C49_ids"
   ],
   "note": "On messages; C96_session says the same of the text. The server answers each line before it reads the next."
  },
  {
   "property": "C40",
   "status": "proved",
   "theorems": [
    "Limabean.C40_result",
    "Limabean.C40_stops"
   ],
   "note": "About loads which do not throw; what can throw is stated in C50_orderly."
  },
  {
   "property": "C41",
   "status": "partial",
   "theorems": [
    "Limabean.C41_silent",
    "Limabean.C41_false",
    "Limabean.C41_partial"
   ],
   "note": "False unless raw plugins run: the server answers with reports which have spans, the loader reads only those with positions, and the user sees no report of any booking error (C41_silent, for every such ledger). Proved for ledgers with raw plugins which make directives not nested too deeply for the server (C96)."
  },
  {
   "property": "C50",
   "status": "partial",
   "theorems": [
    "Limabean.C50_partial",
    "Limabean.C50_false",
    "Limabean.C50_orderly",
    "Limabean.C50_without_plugins"
   ],
   "note": "False if a plugin reports an error on a directive without span: printing the errors throws, and the process is never stopped (C50_false). Proved for loads which do not throw, among them all loads of ledgers without plugins."
  },
  {
   "property": "C52",
   "status": "partial",
   "theorems": [
    "Limabean.C52_partial",
    "Limabean.C52_false",
    "Limabean.C52_false_cost",
    "Limabean.C52_false_narration",
    "Limabean.C52_false_custom"
   ],
   "note": "False: quotes are not escaped, a total cost beside a unit cost is not printed, a missing narration is printed as an empty one, values of custom directives run together. Proved for all other directives whose names look as the grammar of beanfiles has them."
  },
  {
   "property": "C54",
   "status": "partial",
   "theorems": [
    "Limabean.C54_exact",
    "Limabean.C54_booked_exact",
    "Limabean.C54_partial",
    "Limabean.C54_booked_partial",
    "Limabean.C54_false",
    "Limabean.C54_false_large",
    "Limabean.C54_refused"
   ],
   "note": "False: a balance with an integer tolerance, and numbers of 2^63 and more, are refused by the specs, and loading ends with an exception if any plugin runs (C54_false, C54_false_large, C54_refused). C54_exact says exactly which directives pass."
  },
  {
   "property": "C55",
   "status": "partial",
   "theorems": [
    "Limabean.C55_partial",
    "Limabean.C55_filtered",
    "Limabean.C55_false"
   ],
   "note": "False for inventories without positions, for which an exception is thrown (C55_false). Proved for all others."
  },
  {
   "property": "C56",
   "status": "partial",
   "theorems": [
    "Limabean.C56_partial",
    "Limabean.C56_never",
    "Limabean.C56_false"
   ],
   "note": "False for the place in the beanfile: the condition looks up span-p in the keyword :dct, so the second place is never shown (C56_never, for every directive). Proved for all else."
  },
  {
   "property": "C57",
   "status": "partial",
   "theorems": [
    "Limabean.C57_exact",
    "Limabean.C57_partial",
    "Limabean.C57_false"
   ],
   "note": "False for the metadata keys dct and booking, whose values are lost (C57_false). C57_exact says exactly what arrives, for every directive."
  },
  {
   "property": "C58",
   "status": "proved",
   "theorems": [
    "Limabean.C58_attached",
    "Limabean.C58_sent_back_partial"
   ],
   "note": "C58_attached is the property in full, for any relation on attached data, under the contract Blind. C58_sent_back_partial is its use for directives which the client sends back."
  },
  {
   "property": "C59",
   "status": "partial",
   "theorems": [
    "Limabean.C59_plain",
    "Limabean.C59_partial",
    "Limabean.C59_failure_partial",
    "Limabean.C59_false"
   ],
   "note": "False for ledgers with numbers which the client refuses once a plugin runs (C59_false, C54_refused). Proved for all others: C59_plain without plugins, C59_partial and C59_failure_partial with plugins which pass on what they receive."
  },
  {
   "property": "C60",
   "status": "partial",
   "theorems": [
    "Limabean.C60_holdings",
    "Limabean.C60_assertion_partial",
    "Limabean.C60_rollup_partial",
    "Limabean.C60_inventory",
    "Limabean.C60_no_inventory"
   ],
   "note": "False for accounts opened with AVERAGE: booking falls back to another method, the front end throws (C60_no_inventory; C60_inventory says exactly when). Units agree for every accepted ledger (C60_holdings). Assertions show in reports unless C06 fails for them."
  },
  {
   "property": "C61",
   "status": "proved",
   "theorems": [
    "Limabean.C61_reads",
    "Limabean.C61_directive",
    "Limabean.C61_wellformed",
    "Limabean.C61_loaded"
   ],
   "note": "The parser's types are modelled as far as the conversion reads them. Assumed of the parser: names are plain, dates exist (SourceOk), flags which are letters have distinct texts unlike the symbols (FairHashes)."
  },
  {
   "property": "C62",
   "status": "partial",
   "theorems": [
    "Limabean.C62_partial",
    "Limabean.C62_plugins_partial",
    "Limabean.C62_never",
    "Limabean.C62_parser",
    "Limabean.C62_false"
   ],
   "note": "False: no load keeps or prints a warning, whatever the beanfile (C62_never): the server never sends any, neither the parser's (C62_parser) nor those of booking. That warnings do not stop loading is C62_partial for beanfiles without plugins, and C62_plugins_partial with raw plugins."
  },
  {
   "property": "C63",
   "status": "partial",
   "theorems": [
    "Limabean.C63_told",
    "Limabean.C63_status",
    "Limabean.C63_refused",
    "Limabean.C63_info",
    "Limabean.C63_partial",
    "Limabean.C63_false"
   ],
   "note": "False: with --eval the status is 0 though the beanfile does not parse or book (C63_false). C63_status says exactly when it is 1. The argument parser, the reader and evaluation are parameters."
  },
  {
   "property": "C64",
   "status": "proved",
   "theorems": [
    "Limabean.C64_last",
    "Limabean.C64_agree",
    "Limabean.C64_failed",
    "Limabean.C64_loaded"
   ],
   "note": "The type of the variables has the values nil can take as none."
  },
  {
   "property": "C65",
   "status": "partial",
   "theorems": [
    "Limabean.C65_parser",
    "Limabean.C65_plugins",
    "Limabean.C65_booking_partial",
    "Limabean.C65_loaded_partial",
    "Limabean.C65_false"
   ],
   "note": "False for booking errors of ledgers without raw plugins (C65_false, as C41). Proved in full for parser errors and unusable plugins; for booking errors if there are raw plugins, whatever they produce (C65_booking_partial), and through a whole load if they pass on what they receive (C65_loaded_partial). The text of a single report is written by the parser's library, a parameter."
  },
  {
   "property": "C66",
   "status": "proved",
   "theorems": [
    "Limabean.C66_ledger"
   ],
   "note": "Plugins are arbitrary functions of the directives received so far (Clj/Plugins). Assumed: identity hashes are distinct (Injective, see C44), the span store (SpanStore) and that booking invents no dates (DatesExist)."
  },
  {
   "property": "C67",
   "status": "partial",
   "theorems": [
    "Limabean.C67_used_partial",
    "Limabean.C67_reported",
    "Limabean.C67_either",
    "Limabean.C67_loaded_partial",
    "Limabean.C67_refused",
    "Limabean.C67_false"
   ],
   "note": "False: text after the first value of the configuration is ignored, and a function which returns nil is neither used nor reported (C67_false). All else is proved, as an equivalence (C67_used_partial), and through loading. Namespaces and the reader are parameters."
  },
  {
   "property": "C68",
   "status": "partial",
   "theorems": [
    "Limabean.C68_accepted_partial",
    "Limabean.C68_understood_partial",
    "Limabean.C68_booked_partial",
    "Limabean.C68_false"
   ],
   "note": "False: the check lets through directives which the server refuses (C68_false): transactions without postings, postings without account, a metadata value with units alone, no kind, names with characters which JSON escapes, something else than a span. SendDirective says exactly which are accepted (C68_accepted_partial, an equivalence); what is accepted is read as it is (C68_understood_partial), also through a whole load (C68_booked_partial). Dates after the year 9999 are left out (RealData). Directives nested 126 deep are refused too (C96)."
  },
  {
   "property": "C69",
   "status": "partial",
   "theorems": [
    "Limabean.C69_run",
    "Limabean.C69_refused",
    "Limabean.C69_ledger_partial",
    "Limabean.C69_false"
   ],
   "note": "False without plugins: then nothing is checked (C69_false, an integer tolerance). With plugins proved whatever they do (C69_ledger_partial), assuming that identity hashes are distinct (see C44)."
  },
  {
   "property": "C70",
   "status": "proved",
   "theorems": [
    "Limabean.C70_reports",
    "Limabean.C70_units",
    "Limabean.C70_beanfile",
    "Limabean.C70_failed",
    "Limabean.C70_fields"
   ],
   "note": "Through JSON, the resolution of locations and the maps of postings to the report; the reports of booked directives are the subject of C29 to C38. The registry is that of the code (registryOf); options are named as the server names them, which C70_beanfile proves of what the parser accepts."
  },
  {
   "property": "C71",
   "status": "proved",
   "theorems": [
    "Limabean.C71_reports",
    "Limabean.C71_restrictions"
   ],
   "note": "Plugins are arbitrary; what is used is that the ledger satisfies the specification (C69). The registry is that of the code (registryOf). Identity hashes are distinct (see C44)."
  },
  {
   "property": "C72",
   "status": "partial",
   "theorems": [
    "Limabean.C72_exact",
    "Limabean.C72_partial",
    "Limabean.C72_false"
   ],
   "note": "False: amounts without decimal places are 64-bit integers in the front end, and + throws when a sum does not fit (C72_false, an accepted ledger). What is shown is always exact (C72_exact); and there are reports if the integers of each account and currency add up to less than 2^63, regardless of sign (C72_partial)."
  },
  {
   "property": "C73",
   "status": "partial",
   "theorems": [
    "Limabean.C73_files_partial",
    "Limabean.C73_none",
    "Limabean.C73_inputs",
    "Limabean.C73_false"
   ],
   "note": "False: an empty variable or entry is tried as a file without name, and reported; of an exception without messages the user reads only the word Exception (C73_false). Proved for lists of file names without colons, and for all inputs; what files and inputs do is a parameter."
  },
  {
   "property": "C74",
   "status": "partial",
   "theorems": [
    "Limabean.C74_partial",
    "Limabean.C74_sound_partial",
    "Limabean.C74_failed_partial",
    "Limabean.C74_false",
    "Limabean.C74_places_false"
   ],
   "note": "False: the sum of what subaccounts hold may overflow and panic in one order of the accounts and not in another (C74_false, for every arithmetic of that size), and the number of decimal places of what a pad posts depends on the order (C74_places_false). Proved both ways for ledgers whose amounts are moderate (Spec.Moderate), up to the decimal places of what pads post; and that an assertion which fails after an accepted ledger is reported alike, with its table (C74_failed_partial). Ledgers with several faults are missing. The booking library and rust_decimal are parameters with contracts."
  },
  {
   "property": "C75",
   "status": "proved",
   "theorems": [
    "Limabean.C75_reports",
    "Limabean.C13_panics_iff"
   ],
   "note": "The faults are those of Spec.audit, a reference semantics which goes on after faults. The booking library is a parameter with a contract; the running total and the table in the report of a failed assertion are the subject of C78."
  },
  {
   "property": "C76",
   "status": "partial",
   "theorems": [
    "Limabean.C76_partial",
    "Limabean.C76_complete",
    "Limabean.C76_ends",
    "Limabean.C76_panics",
    "Limabean.C76_starts",
    "Limabean.C76_tells",
    "Limabean.C76_clojure_false"
   ],
   "note": "False for Clojure: the exit status of clojure --version is ignored, so that health succeeds though it fails (C76_clojure_false). Proved for Java and the uberjar, and for Clojure that health succeeds exactly if the program starts; what works is never reported as broken (C76_complete). Programs, files and replacing the process are parameters."
  },
  {
   "property": "C77",
   "status": "proved",
   "theorems": [
    "Limabean.C77_answered"
   ],
   "note": "Honest is inductive on the lines, with the locations learned from the answers so far. The parser's table of locations is a parameter with a contract (KnowsSpans): what it parses or merges it can look up. Decimals are exact (see C74)."
  },
  {
   "property": "C78",
   "status": "proved",
   "theorems": [
    "Limabean.C78_statement",
    "Limabean.C78_closing"
   ],
   "note": "The statement is Spec.statementLines of Spec.Tally.notes, which knows of no positions or windows; together with C75 there is such a report for each assertion which fails. Whether the last total is what is held is C21, which is false in general."
  },
  {
   "property": "C79",
   "status": "partial",
   "theorems": [
    "Limabean.C79_partial",
    "Limabean.C79_panic_partial",
    "Limabean.C79_unneeded",
    "Limabean.C79_false"
   ],
   "note": "False for accounts which only assertions and pads use (C79_false): the plugin looks at transactions only. Proved: no report is about a transaction; a report about an assertion or a pad means that nothing before it opens or uses the account; a panic means the same of the source of a pad (C79_panic_partial); accepted ledgers are left as they are. A close of an account which is not open is still reported, as it should be."
  },
  {
   "property": "C80",
   "status": "partial",
   "theorems": [
    "Limabean.C80_partial",
    "Limabean.C80_false"
   ],
   "note": "False for ledgers with numbers which the client's specification refuses (C80_false; in general C54_refused). Proved for all others, for success, failure and panic of booking. The completed ledger is Spec.Completed of C39. The plugin is modelled on Clojure data (Clj/AutoPlugin) and run by the same plugin machinery as user plugins; metadata under the keys dct and booking are lost as in C44; finding the plugin's namespace is a parameter."
  },
  {
   "property": "C81",
   "status": "proved",
   "theorems": [
    "Limabean.C81_panics",
    "Limabean.C81_accepted",
    "Limabean.C81_returned",
    "Limabean.C81_reports"
   ],
   "note": "The division is Spec.Apart. The booking library is a parameter with the contract Lawful, and LooksAtItsAccounts: it asks only for what is held in the accounts of the transaction which it books. The reports on pads left over at the end come in any order."
  },
  {
   "property": "C82",
   "status": "proved",
   "theorems": [
    "Limabean.C82_returned"
   ],
   "note": "With C75 this determines the outcome of booking in full, but for the order of the reports on pads left over and the texts of reports (the table of C78 apart). The reference semantics is Spec/Output on top of Spec/Faults: no positions in the output, nothing changed after it is written. The booking library is a parameter with the contract Lawful."
  },
  {
   "property": "C83",
   "status": "proved",
   "theorems": [
    "Limabean.C83_panics",
    "Limabean.C83_returned",
    "Limabean.C83_reports"
   ],
   "note": "Unrelated is Spec.Unrelated; the example shows that an assertion and a transaction on an account below its own are not. Any reordering by such exchanges follows by repetition. The booking library is a parameter with the contracts Lawful and LooksAtItsAccounts. Of failed assertions the reports are compared as in C75 (directive, difference and currency), without their tables."
  },
  {
   "property": "C84",
   "status": "proved",
   "theorems": [
    "Limabean.C84_told",
    "Limabean.C84_named",
    "Limabean.C84_source",
    "Limabean.C84_source_names"
   ],
   "note": "Usual asks that the kind of a directive is a keyword and that its postings are not in a set; the specifications of the front end ask for both. The reports are those of C41 (Reports), with the message, the context and the related elements (Explains)."
  },
  {
   "property": "C85",
   "status": "proved",
   "theorems": [
    "Limabean.C85_told",
    "Limabean.C85_amounts",
    "Limabean.C85_notation",
    "Limabean.C85_posting"
   ],
   "note": "Names of booking methods (Display of limabean_booking::Booking, not in the repository) are a parameter with the contract MethodNames: different words for different methods. Display of Decimal is modelled as documented, without signed zeros. The table of postings of a failed assertion is not covered."
  },
  {
   "property": "C86",
   "status": "partial",
   "theorems": [
    "Limabean.C86_partial",
    "Limabean.C86_false_option",
    "Limabean.C86_false_text"
   ],
   "note": "False as stated: an unsupported method in the option booking_method is replaced silently (C86_false_option), and the second of the two warnings for an account has a literal {} in place of the name (C86_false_text). Proved: exactly two warnings for each account opened with an unsupported method, the first names the method and its replacement, and no other warnings."
  },
  {
   "property": "C87",
   "status": "proved",
   "theorems": [
    "Limabean.C87_panics",
    "Limabean.C87_returned",
    "Limabean.C87_reports",
    "Limabean.C87_words"
   ],
   "note": "The hypothesis KeepsBelow says that one account is below another exactly as before; it implies that different accounts get different names. An example shows that different names alone will not do. The booking library is a parameter with the contracts Lawful and NameBlind. Of failed assertions the difference and the currency are compared, not the accumulated total (C09) nor the table; of the library's refusals the kind and the posting, not the text."
  },
  {
   "property": "C88",
   "status": "proved",
   "theorems": [
    "Limabean.C88_one_line",
    "Limabean.C88_read",
    "Limabean.C88_sent",
    "Limabean.C88_answers",
    "Limabean.C88_exchange",
    "Limabean.C88_borrowed"
   ],
   "note": "The texts which serde_json and Jackson write and read are modelled from their documentation (Server/JsonText): both libraries are outside the repository. Text is a list of characters; Jackson's limits on the size of texts (strings of 20 million characters) are not modelled."
  },
  {
   "property": "C89",
   "status": "partial",
   "theorems": [
    "Limabean.C89_ledger_partial",
    "Limabean.C89_written",
    "Limabean.C89_booked_partial",
    "Limabean.C89_false_total"
   ],
   "note": "False as stated for the reasons of C52, and because of a booked cost the total is not printed (C89_false_total). Proved on the conditions of C52 (Writable); booked directives are determined apart from totals and what booking noted on balances. Writing the dump to a file is not modelled."
  },
  {
   "property": "C90",
   "status": "partial",
   "theorems": [
    "Limabean.C90_partial",
    "Limabean.C90_false"
   ],
   "note": "False for ledgers with pads: a pad is printed together with the transaction which it caused, so that the second time it is an unused pad, an error (C90_false). Proved for ledgers without pads. What the booking library must do is the contract Rebooks: amounts and lots written out are booked to the same effect; the library is not in the repository, and a total which is not a multiple of the amount may break this. Reading the text is the parser's business: the theorem is about the directives which the text stands for (C89_written)."
  },
  {
   "property": "C91",
   "status": "proved",
   "theorems": [
    "Limabean.C91_again",
    "Limabean.C91_accepted",
    "Limabean.C91_order"
   ],
   "note": "The two runs are Spec.TwoRuns: everything equal but the orders of hash maps and the hash codes, which are distinct in each run (see C44). C91_order shows that the exception for the reports of a failed booking is needed. Plugins are functions of the directives received."
  },
  {
   "property": "C92",
   "status": "partial",
   "theorems": [
    "Limabean.C92_partial",
    "Limabean.C92_again",
    "Limabean.C92_only",
    "Limabean.C92_written",
    "Limabean.C92_recorded",
    "Limabean.C92_sound",
    "Limabean.C92_sound_error",
    "Limabean.C92_sound_raw",
    "Limabean.C92_false_left",
    "Limabean.C92_false_order",
    "Limabean.C92_false_passes"
   ],
   "note": "False: files left from an earlier state of the ledger are neither removed nor rewritten (C92_false_left), the reports of a failed booking come in another order (C92_false_order), and if only the directives before booking are recorded then a test passes though booking fails (C92_false_passes). Proved for golden directories with nothing left over, and ledgers with at most one booking report; idempotence, what is written, and what a passing test says are proved in full. The text of data, the EDN reader, matcho and the text of reports are parameters with the contract LawfulTests; what is written is assumed to be read as it was (Legible)."
  },
  {
   "property": "C93",
   "status": "proved",
   "theorems": [
    "Limabean.C93_written",
    "Limabean.C93_balanced",
    "Limabean.C93_inventory",
    "Limabean.C93_equation",
    "Limabean.C93_loaded"
   ],
   "note": "Whether a transaction is balanced is decided by the booking library, so the theorems relate the books to the transactions as booked. Periods are given by any filters which look at the date only. C93_equation needs names of the five kinds of accounts of which none is below another, and accounts below one of them. C93_loaded is for beanfiles without plugins; otherwise read C93_inventory with what the plugins made (C66)."
  },
  {
   "property": "C94",
   "status": "proved",
   "theorems": [
    "Limabean.C94_split",
    "Limabean.C94_until",
    "Limabean.C94_periods",
    "Limabean.C94_journal",
    "Limabean.C94_sorted",
    "Limabean.C94_year",
    "Limabean.C94_month",
    "Limabean.C94_december",
    "Limabean.C94_fy",
    "Limabean.C94_fy_unique",
    "Limabean.C94_args"
   ],
   "note": "Only the documented forms of dates are modelled, without negative years. The month after December must be given as January of the next year; 13 is an exception (C94_december). Financial years are counted from 100, as smaller numbers stand for years from 2000. C94_journal needs directives in order of date, which booking keeps (C94_sorted); putting them in order is the parser's business."
  },
  {
   "property": "C95",
   "status": "partial",
   "theorems": [
    "Limabean.C95_shown",
    "Limabean.C95_reports",
    "Limabean.C95_sent",
    "Limabean.C95_inventory",
    "Limabean.C95_journal",
    "Limabean.C95_rollup",
    "Limabean.C95_order",
    "Limabean.C95_deep",
    "Limabean.C95_failure_partial",
    "Limabean.C95_untold",
    "Limabean.C95_told_false"
   ],
   "note": "False: in an interactive session the user is not told why a report cannot be laid out: the reason is kept with the exception (C95_failure_partial), but what is printed does not depend on it (C95_untold, C95_told_false). The other parts are proved. The layout by tabulator is a parameter; that tabulator reads cells as they are written is assumed (readCell). Totals of costs are not part of what is shown. C95_deep: values of the user's own nested 64 deep or more cannot be shown."
  },
  {
   "property": "C96",
   "status": "partial",
   "theorems": [
    "Limabean.C96_session",
    "Limabean.C96_requests",
    "Limabean.C96_refused",
    "Limabean.C96_false"
   ],
   "note": "False with plugins: what they make may be nested to any depth, the check accepts it, the server does not, and the user reads only that booking has failed (C96_refused, C96_false). Proved: whatever is sent, the exchange of texts is the exchange of the model (C96_session), and what is made of a beanfile is never too deep, however large the ledger (C96_requests). serde_json's limit of 128 levels is from its documentation."
  },
  {
   "property": "C97",
   "status": "partial",
   "theorems": [
    "Limabean.C97_partial",
    "Limabean.C97_enabled",
    "Limabean.C97_false"
   ],
   "note": "False: assertions are always about the account with those below it, there is no plugin limabean.balance_rollup, and a beanfile which enables it is not loaded, with a message that it could not be found (C97_false, C97_enabled). True of accounts below which nothing is posted in the asserted currency (C97_partial)."
  },
  {
   "property": "C98",
   "status": "partial",
   "theorems": [
    "Limabean.C98_partial",
    "Limabean.C98_narration",
    "Limabean.C98_close",
    "Limabean.C98_false"
   ],
   "note": "False if the ledger has numbers which the client's specification refuses: then a plugin which changes nothing makes loading fail (C98_false; in general C54_refused). Proved otherwise, for raw plugins whose output, each working on the result of the one before, is the data of directives (Spec.Writes): for success, failure and panic of booking. The plugins of the documentation are modelled on Clojure data (Clj/TestPlugins). Metadata under the keys dct and booking are lost as in C44."
  },
  {
   "property": "C99",
   "status": "proved",
   "theorems": [
    "Limabean.C99_runs",
    "Limabean.C99_raw",
    "Limabean.C99_booked",
    "Limabean.C99_rejects",
    "Limabean.C99_told"
   ],
   "note": "Plugins are state machines which see what they have received so far and pass on old or new objects (Clj/Plugins); that a plugin stops early (reduced) is not modelled; what a user sees when one throws is C104. C99_runs is about one run, C99_raw and C99_booked about loading; C99_rejects is the example plugin which uses dct-error!, C99_told connects it with the reports of C56_partial."
  },
  {
   "property": "C100",
   "status": "partial",
   "theorems": [
    "Limabean.C100_partial",
    "Limabean.C100_alone",
    "Limabean.C100_false"
   ],
   "note": "False of the code: what plugins for booked directives make is checked for its form only, so the example plugin which adjusts amounts after booking gives books which do not balance, without an error (C100_false); the beanfile in the examples whose name announces an error is such a ledger. True if these plugins keep transactions and open directives and make none (C100_partial), as the other example plugins do (C100_alone)."
  },
  {
   "property": "C101",
   "status": "partial",
   "theorems": [
    "Limabean.C101_partial"
   ],
   "note": "For beanfiles whose numbers satisfy the specification of the front end (otherwise loading with any plugin fails, C98_false). Of tag-matching, patterns are of the form {:dct kind}; tags and metadata given in the configuration must be such that they can be sent (Example.Ok), and no metadata named dct or booking."
  },
  {
   "property": "C102",
   "status": "partial",
   "theorems": [
    "Limabean.C102_partial",
    "Limabean.C102_again",
    "Limabean.C102_false"
   ],
   "note": "False if, when the pad is filled, its source has been closed, does not take the currency, or is the padded account or below it: pads are booked without these checks (C102_false, compare C07_source_below). Proved otherwise (Spec.Spellable, which also excludes negative tolerances), for libraries which book a plain transfer between open accounts by adding it to both (Spec.BooksPlainly)."
  },
  {
   "property": "C103",
   "status": "proved",
   "theorems": [
    "Limabean.C103_reports",
    "Limabean.C103_accepted",
    "Limabean.mended_at"
   ],
   "note": "For libraries which look at the accounts of a transaction only (Spec.LooksAtItsAccounts), as the additional account holds something else. mended_at: directives are found in the mended ledger where movedTo says, which is used for the numbers in reports."
  },
  {
   "property": "C104",
   "status": "partial",
   "theorems": [
    "Limabean.C104_raw_partial",
    "Limabean.C104_booked_partial",
    "Limabean.C104_throws",
    "Limabean.C104_false"
   ],
   "note": "False of the code: error.clj prints (:message exception), which is nil for an exception, so the user reads that some plugin of the phase has thrown, an empty line and nil, whatever the plugin, message and directive; and that plugins are ignored, although nothing is loaded (C104_false). Proved: loading stops there with exactly this text, whichever of several plugins throws and when."
  },
  {
   "property": "C105",
   "status": "proved",
   "theorems": [
    "Limabean.C105",
    "Limabean.ledger_length",
    "Limabean.ledger_at"
   ],
   "note": "An assertion fills a pad if the last pad or assertion on its account before it is a pad (Spec.padWaits); these must stay as they are. ledger_length and ledger_at say where the directives of a ledger are in the changed one."
  },
  {
   "property": "C106",
   "status": "proved",
   "theorems": [
    "Limabean.C106",
    "Limabean.C106_plain",
    "Limabean.C106_accepted"
   ],
   "note": "What is alike to the library is a parameter (Spec.Carries); for transactions which do not depend on what is held everything is alike (C106_plain). Pads filled and gaps reported may differ in the number of decimals written, and the statement of the account shown with a failed assertion is that of the ledger; references to earlier directives are to directives of the ledgers themselves."
  },
  {
   "property": "C107",
   "status": "proved",
   "theorems": [
    "Limabean.C107",
    "Limabean.C107_continued"
   ],
   "note": "For libraries which book a plain transfer between open accounts by adding it to both (Spec.BooksPlainly). Amounts are brought forward without costs, so for what follows it is assumed that its transactions do not depend on what is held (Spec.Carries with anything alike); balances may only be brought forward to accounts which take the currency, which may fail for the source of a pad (C07_source_below)."
  },
  {
   "property": "C108",
   "status": "proved",
   "theorems": [
    "Limabean.C108_loaded",
    "Limabean.C108_refused",
    "Limabean.C108_iff",
    "Limabean.C108_plugins"
   ],
   "note": "Stated by the reference semantics of Spec.Faults and Spec.Output and the parser's output only. That the user learns no more than that booking has failed is C41; which accepted ledgers have an inventory is C60_inventory."
  },
  {
   "property": "C109",
   "status": "proved",
   "theorems": [
    "Limabean.C109_panics",
    "Limabean.C109_returned",
    "Limabean.C109_reports"
   ],
   "note": "For libraries to which the names and dates mean nothing (Spec.Relabels, with a relation between holdings as a parameter). Metadata and the values of custom directives are left alone; the accumulated total which a failed assertion reports is the subject of C78."
  },
  {
   "property": "C110",
   "status": "proved",
   "theorems": [
    "Limabean.C110_assertion",
    "Limabean.C110_unchanged",
    "Limabean.C110_beanfile",
    "Limabean.C110_faults"
   ],
   "note": "Of pads it is assumed that none waits for the account and that those which wait elsewhere do not move anything across its boundary (Spec.PadsClear, as for C06); that an inventory can be made is the subject of C60_inventory. C110_beanfile is for beanfiles without plugins, from the parser's output to the inventory of the loaded beanfile."
  },
  {
   "property": "C111",
   "status": "proved",
   "theorems": [
    "Limabean.C111_accepted",
    "Limabean.C111_returned",
    "Limabean.C111_reports",
    "Limabean.C111_beanfile"
   ],
   "note": "C111_beanfile is for beanfiles without plugins, from the parser's output to the reports of the loaded beanfile; journals are compared by the entries which they show (Clj.ShowsEntry). Which accepted ledgers have an inventory is C60_inventory: here both have one or both have none."
  },
  {
   "property": "C112",
   "status": "proved",
   "theorems": [
    "Limabean.C112_alive",
    "Limabean.C112_made_up",
    "Limabean.C112_unopened"
   ],
   "note": "C112_made_up and C112_unopened show that both exceptions end the server. Libraries of sources are assumed to write reports about the places they know (Spec.KnowsSpans), dates of the parser's output to exist; requests longer than a line can be are not considered."
  },
  {
   "property": "C113",
   "status": "proved",
   "theorems": [
    "Limabean.C113",
    "Limabean.C113_accepted",
    "Limabean.C113_order",
    "Limabean.C113_undone"
   ],
   "note": "That the booking library books transactions written in full by adding their amounts, and that only totals count, is assumed (Spec.BooksInFull), up to a relation of holdings which are alike to it; the same relation is used for what follows (Spec.Carries, as in C106)."
  },
  {
   "property": "C114",
   "status": "partial",
   "theorems": [
    "Limabean.C114_partial",
    "Limabean.C114_option_partial",
    "Limabean.C114_pads",
    "Limabean.C114_faults"
   ],
   "note": "False with pads (C114_pads) and for ledgers with faults (C114_faults). Proved for all accepted ledgers in which the assertions on accounts with a pad stay as they are; for the option, for ledgers without pads. That the booking library accepts no less with the greater tolerance is assumed (Spec.Lenient)."
  },
  {
   "property": "C115",
   "status": "proved",
   "theorems": [
    "Limabean.C115",
    "Limabean.C115_tolerance"
   ],
   "note": "That holdings of the same amounts are alike to the booking library, and that it books the two ways of writing a transaction alike, are hypotheses (Spec.BlindToDecimals, Spec.Rewritten): a library which infers its tolerance from the decimals of the amounts may book them differently, and then the theorem does not apply to that transaction. C115_tolerance is the witness for the condition on tolerances."
  },
  {
   "property": "C116",
   "status": "proved",
   "theorems": [
    "Limabean.C116"
   ],
   "note": "That the booking library counts alike in the other units is a hypothesis for holdings (Spec.CountsWith) and for each transaction of the ledger (Spec.Rescaled); for a library which does not know which unit is meant it holds whenever the tolerances it uses are scaled too. The total in a report of a failed assertion is left out: it adds up all currencies (C21), as the example shows."
  },
  {
   "property": "C117",
   "status": "partial",
   "theorems": [
    "Limabean.C117_reports_partial",
    "Limabean.C117_accepted_partial",
    "Limabean.C117_repaired_partial",
    "Limabean.C117_once",
    "Limabean.C117_false"
   ],
   "note": "False for failed assertions, for accounts opened again after they were closed, and for second pads (C117_false); proved for all other reports (Spec.Idle). That no directive is reported twice is proved without restriction."
  },
  {
   "property": "C118",
   "status": "proved",
   "theorems": [
    "Limabean.C118_options",
    "Limabean.C118_used"
   ],
   "note": "for every outcome of loading; a currency called dct or booking, which cannot be written, is excluded"
  },
  {
   "property": "C119",
   "status": "partial",
   "theorems": [
    "Limabean.C119_resolved_partial",
    "Limabean.C119_created",
    "Limabean.C119_loaded",
    "Limabean.C119_false"
   ],
   "note": "full for places which the sources have; for others the server ends and the client returns nil instead of throwing, proved by C119_false"
  },
  {
   "property": "C120",
   "status": "proved",
   "theorems": [
    "Limabean.C120_restricted",
    "Limabean.C120_rollup",
    "Limabean.C120_loaded"
   ],
   "note": "accounts without empty parts in their names, as the parser has them; that there is a rollup at all is C55, an inventory C29"
  },
  {
   "property": "C121",
   "status": "proved",
   "theorems": [
    "Limabean.C121_read",
    "Limabean.C121_unambiguous",
    "Limabean.C121_line",
    "Limabean.C121_refused",
    "Limabean.C121_served"
   ],
   "note": "The specification is the grammar of RFC 8259 (Verif/Spec/JsonGrammar.lean), without reference to the reader. serde_json is modelled from its documentation and known behaviour, since its source is not in the repository; the members of an object keep the order in which they are written."
  },
  {
   "property": "C122",
   "status": "proved",
   "theorems": [
    "Limabean.C122_same",
    "Limabean.C122_laws",
    "Limabean.C122_adds",
    "Limabean.C122_rest",
    "Limabean.C122_loaded"
   ],
   "note": "Filters are arbitrary predicates on what they see of a posting (those with regular expressions take the match as a predicate). Amounts per account, currency and cost are added up over all positions; which lots they are spread over is not part of this claim."
  }
 ]
}
