{
 "claims": [
  {
   "property": "C01",
   "status": "proved",
   "theorems": [
    "Verif.C01_identical_accepted"
   ],
   "note": "any environment, any positive recursion budget"
  },
  {
   "property": "C02",
   "status": "proved",
   "theorems": [
    "Verif.C02_both_none",
    "Verif.C02_one_none"
   ],
   "note": ""
  },
  {
   "property": "C03",
   "status": "proved",
   "theorems": [
    "Verif.C03_is_equiv_total",
    "Verif.C03_are_equal_under_sympy_total",
    "Verif.C03_budget_needed"
   ],
   "note": "total for every recursion budget that lets is_equiv enter string_normalize; with less, RecursionError (C03_budget_needed)"
  },
  {
   "property": "C04",
   "status": "proved",
   "theorems": [
    "Verif.C04_equal_normal_forms"
   ],
   "note": ""
  },
  {
   "property": "C05",
   "status": "proved",
   "theorems": [
    "Verif.C05_empty_prediction"
   ],
   "note": ""
  },
  {
   "property": "C13",
   "status": "proved",
   "theorems": [
    "Verif.C13_several_readings"
   ],
   "note": ""
  },
  {
   "property": "C15",
   "status": "proved",
   "theorems": [
    "Verif.C15_any_reference",
    "Verif.C15_no_reference",
    "Verif.C15_total",
    "Verif.C15_other_cases"
   ],
   "note": ""
  },
  {
   "property": "C17",
   "status": "proved",
   "theorems": [
    "Verif.C17_string_normalize_total",
    "Verif.C17_string_normalize_failure",
    "Verif.C17_string_normalize_none"
   ],
   "note": ""
  },
  {
   "property": "C14",
   "status": "proved",
   "theorems": [
    "Verif.C14_verbose_noninterference",
    "Verif.C14_is_equiv_MATH"
   ],
   "note": "two-run simulation over every function that receives verbose"
  },
  {
   "property": "C55",
   "status": "proved",
   "theorems": [
    "Verif.C55_retries_bounded",
    "Verif.C55_call_count"
   ],
   "note": ""
  },
  {
   "property": "C56",
   "status": "proved",
   "theorems": [
    "Verif.C56_one_dollar_pair"
   ],
   "note": ""
  },
  {
   "property": "C57",
   "status": "proved",
   "theorems": [
    "Verif.C57_bad_prompt_type",
    "Verif.C57_bad_provider"
   ],
   "note": ""
  },
  {
   "property": "C58",
   "status": "proved",
   "theorems": [
    "Verif.C58_type_line"
   ],
   "note": ""
  },
  {
   "property": "C59",
   "status": "proved",
   "theorems": [
    "Verif.C59_prompt_verbatim",
    "Verif.C59_message_sent"
   ],
   "note": ""
  },
  {
   "property": "C60",
   "status": "partial",
   "theorems": [
    "Verif.C60_extract_boxed_partial",
    "Verif.C60_refuted",
    "Verif.C60_none_iff"
   ],
   "note": "false as stated: a \\boxed{ at index 0 yields None (C60_refuted); proved for every occurrence at a positive index"
  },
  {
   "property": "C61",
   "status": "proved",
   "theorems": [
    "Verif.C61_accuracy_is_proportion",
    "Verif.C61_accuracy_exists"
   ],
   "note": ""
  },
  {
   "property": "C34",
   "status": "proved",
   "theorems": [
    "Verif.C34_split_bracketed",
    "Verif.C34_split_unbracketed"
   ],
   "note": "a trailing empty element is dropped by the code, so the last element must be non-empty"
  },
  {
   "property": "C35",
   "status": "proved",
   "theorems": [
    "Verif.C35_split_tuple_raises_iff"
   ],
   "note": ""
  },
  {
   "property": "C36",
   "status": "partial",
   "theorems": [
    "Verif.C36_elements_not_merged_partial",
    "Verif.C36_exactly",
    "Verif.C36_refuted"
   ],
   "note": "false as stated (1999,2000 becomes one number); C36_exactly: true if and only if all elements after the first are below 100"
  },
  {
   "property": "C07",
   "status": "proved",
   "theorems": [
    "Verif.C07_ordered_elementwise",
    "Verif.C07_in_exception"
   ],
   "note": ""
  },
  {
   "property": "C08",
   "status": "proved",
   "theorems": [
    "Verif.C08_bracket_kind",
    "Verif.C08_split_vs_single"
   ],
   "note": ""
  },
  {
   "property": "C09",
   "status": "proved",
   "theorems": [
    "Verif.C09_one_to_one"
   ],
   "note": ""
  },
  {
   "property": "C10",
   "status": "partial",
   "theorems": [
    "Verif.C10_order_independent_partial",
    "Verif.C10_refuted"
   ],
   "note": "false as stated: with the numeric tolerance the greedy matching depends on the order (C10_refuted, environment ratEnv); proved for every comparison of elements that always answers, is independent of the state and relates classes to classes"
  },
  {
   "property": "C11",
   "status": "proved",
   "theorems": [
    "Verif.C11_shape_and_entries"
   ],
   "note": ""
  },
  {
   "property": "C12",
   "status": "proved",
   "theorems": [
    "Verif.C12_env",
    "Verif.C12_brackets"
   ],
   "note": "cells without separators; bracket spelling under the hypothesis that no comma looks like a thousands separator"
  },
  {
   "property": "C37",
   "status": "proved",
   "theorems": [
    "Verif.C37_env",
    "Verif.C37_brackets",
    "Verif.C37_vector",
    "Verif.C37_env_ragged",
    "Verif.C37_brackets_ragged"
   ],
   "note": "bracket spelling under the hypothesis that no comma looks like a thousands separator (C36_refuted shows why)"
  },
  {
   "property": "C06",
   "status": "proved",
   "theorems": [
    "Verif.C06_evidence",
    "Verif.C06_not_trivial"
   ],
   "note": ""
  },
  {
   "property": "C38",
   "status": "proved",
   "theorems": [
    "Verif.C38_candidate_pairs",
    "Verif.C38_parse_total"
   ],
   "note": ""
  },
  {
   "property": "C39",
   "status": "proved",
   "theorems": [
    "Verif.C39_lists"
   ],
   "note": ""
  },
  {
   "property": "C40",
   "status": "partial",
   "theorems": [
    "Verif.C40_one_to_one_partial",
    "Verif.C40_refuted"
   ],
   "note": "false as stated (C40_refuted); the part that holds is proved"
  },
  {
   "property": "C41",
   "status": "proved",
   "theorems": [
    "Verif.C41_equations"
   ],
   "note": ""
  },
  {
   "property": "C42",
   "status": "proved",
   "theorems": [
    "Verif.C42_direction",
    "Verif.C42_strictness",
    "Verif.C42_difference"
   ],
   "note": ""
  },
  {
   "property": "C43",
   "status": "partial",
   "theorems": [
    "Verif.C43_never_equal_partial",
    "Verif.C43_refuted"
   ],
   "note": "false as stated (C43_refuted); the part that holds is proved"
  },
  {
   "property": "C44",
   "status": "proved",
   "theorems": [
    "Verif.C44_matrices",
    "Verif.C44_list_matrix"
   ],
   "note": ""
  },
  {
   "property": "C45",
   "status": "proved",
   "theorems": [
    "Verif.C45_complex"
   ],
   "note": ""
  },
  {
   "property": "C46",
   "status": "proved",
   "theorems": [
    "Verif.C46_numeric_tolerance"
   ],
   "note": "under the hypothesis ExactNumbers: the CAS computes exactly on numbers; met by ratEnv (ratExact)"
  },
  {
   "property": "C16",
   "status": "partial",
   "theorems": [
    "Verif.C16_symmetric_partial",
    "Verif.C16_refuted"
   ],
   "note": "false as stated: the numeric tolerance is relative to the reference (C16_refuted); symmetric for None, equality up to white space, and atomic normal forms under a symmetric CAS verdict"
  },
  {
   "property": "C47",
   "status": "proved",
   "theorems": [
    "Verif.C47_symbols_differ",
    "Verif.C47_equal_functions",
    "Verif.C47_draws",
    "Verif.C47_integers_first"
   ],
   "note": ""
  },
  {
   "property": "C48",
   "status": "partial",
   "theorems": [
    "Verif.C48_intervals_partial",
    "Verif.C48_refuted"
   ],
   "note": "false as stated: an empty running intersection is forgotten (C48_refuted); proved when no running intersection but the last is empty, for all unions of intersections whose end points contain no brackets or commas"
  },
  {
   "property": "C49",
   "status": "proved",
   "theorems": [
    "Verif.C49_other_types"
   ],
   "note": ""
  },
  {
   "property": "C50",
   "status": "proved",
   "theorems": [
    "Verif.C50_never_loses"
   ],
   "note": "is_equiv accepts in every state of the libraries"
  },
  {
   "property": "C51",
   "status": "partial",
   "theorems": [
    "Verif.C51_partial",
    "Verif.C51_refuted",
    "Verif.C51_refuted_in_general"
   ],
   "note": "false as stated: the pair returned by the comparison is always true"
  },
  {
   "property": "C52",
   "status": "partial",
   "theorems": [
    "Verif.C52_total_partial",
    "Verif.C52_refuted"
   ],
   "note": "false as stated: TypeError for the default type, AttributeError for answers with several readings"
  },
  {
   "property": "C53",
   "status": "proved",
   "theorems": [
    "Verif.C53_right_hand_sides"
   ],
   "note": ""
  },
  {
   "property": "C54",
   "status": "proved",
   "theorems": [
    "Verif.C54_imaginary_unit"
   ],
   "note": "white space is not a word character (Unicode fact, hypothesis on the tables)"
  },
  {
   "property": "C18",
   "status": "proved",
   "theorems": [
    "Verif.C18_limit_never_reached",
    "Verif.C18_limit_independent"
   ],
   "note": ""
  },
  {
   "property": "C19",
   "status": "proved",
   "theorems": [
    "Verif.C19_no_blank_no_capital"
   ],
   "note": "for the texts the final stage itself produces; the CAS printer is the caller's"
  },
  {
   "property": "C20",
   "status": "partial",
   "theorems": [
    "Verif.C20_integers_partial",
    "Verif.C20_nearest_double",
    "Verif.C20_refuted",
    "Verif.C20_collision"
   ],
   "note": "false beyond 2^53: the integer passes through a binary64 value; proved for every |n| <= 2^53"
  },
  {
   "property": "C22",
   "status": "proved",
   "theorems": [
    "Verif.C22_base_readings"
   ],
   "note": ""
  },
  {
   "property": "C23",
   "status": "proved",
   "theorems": [
    "Verif.C23_percent_readings"
   ],
   "note": ""
  },
  {
   "property": "C21",
   "status": "proved",
   "theorems": [
    "Verif.C21_thousands",
    "Verif.C21_in_context",
    "Verif.C21_one_element"
   ],
   "note": "for properly placed commas; in context of other text too; a blank after the comma is kept"
  },
  {
   "property": "C24",
   "status": "proved",
   "theorems": [
    "Verif.C24_degrees",
    "Verif.C24_integer_degrees"
   ],
   "note": ""
  },
  {
   "property": "C25",
   "status": "proved",
   "theorems": [
    "Verif.C25_clock",
    "Verif.C25_full_hours",
    "Verif.C25_missing_dot"
   ],
   "note": "C25_missing_dot records that the spelling 'p.m' without the last dot loses the afternoon"
  },
  {
   "property": "C33",
   "status": "proved",
   "theorems": [
    "Verif.C33_and_or",
    "Verif.C33_comma"
   ],
   "note": "for all ordinary mathematical elements (Calm: printable ASCII without unit letters and spacing commands, any length); a single separator"
  },
  {
   "property": "C27",
   "status": "partial",
   "theorems": [
    "Verif.C27_spacing",
    "Verif.C27_no_dollar_partial",
    "Verif.C27_no_dollar_refuted"
   ],
   "note": "insertion anywhere in ordinary mathematical answers (not inside a command); no dollar sign remains unless an exception was caught and printed, in which case the raw answer is returned (refuted witness)"
  },
  {
   "property": "C29",
   "status": "partial",
   "theorems": [
    "Verif.C29_brackets",
    "Verif.C29_no_left_refuted"
   ],
   "note": "same normal form proved for ordinary mathematical answers; that no \\left( can remain is refuted by a doubled \\left"
  },
  {
   "property": "C31",
   "status": "partial",
   "theorems": [
    "Verif.C31_member_partial",
    "Verif.C31_braces_refuted",
    "Verif.C31_untouched_partial",
    "Verif.C31_infty_refuted"
   ],
   "note": "for ordinary mathematical sets not in bare braces; the step alters nothing unless \\in follows a letter; 'x \\to \\infty' becomes 'x\\fty' (refuted witness)"
  },
  {
   "property": "C26",
   "status": "partial",
   "theorems": [
    "Verif.C26_units_partial",
    "Verif.C26_wrapped_partial",
    "Verif.C26_pm_refuted"
   ],
   "note": "all numerals, all long units and all short units except the clock words am/pm, with plural endings, blanks and powers, bare or in \\text/\\mbox; 'pm' is listed as a unit but is read as a clock time (refuted witness)"
  },
  {
   "property": "C68",
   "status": "partial",
   "theorems": [
    "Verif.C68_exact",
    "Verif.C68_refuted"
   ],
   "note": "the property is false ('radius' becomes 'ius', ' a+m+' is removed by the unit pattern a.m.); proved instead: exactly which blank-free texts are left alone"
  },
  {
   "property": "C28",
   "status": "partial",
   "theorems": [
    "Verif.C28_mixed_partial",
    "Verif.C28_frac_partial",
    "Verif.C28_negative_refuted"
   ],
   "note": "non-negative mixed numbers in both spellings denote a + b/c for every a, b, c with c nonzero; every negative one is wrong unless b is zero: '-a b/c' denotes -a + b/c (refuted for all)"
  },
  {
   "property": "C32",
   "status": "partial",
   "theorems": [
    "Verif.C32_exact_partial",
    "Verif.C32_error",
    "Verif.C32_refuted"
   ],
   "note": "literals with lower-case e and positive magnitude below 1e308: exact for up to seven significant digits, within one millionth for all integers; refuted for every integer with more than seven significant digits ({:e} prints seven). Zero keeps its spelling and is not covered."
  },
  {
   "property": "C30",
   "status": "partial",
   "theorems": [
    "Verif.C30_idempotent_partial",
    "Verif.C30_fixed",
    "Verif.C30_tidy",
    "Verif.C30_refuted"
   ],
   "note": "idempotent on ordinary mathematical answers in lower case without blanks, commas and mixed numbers (C30_tidy: those that do not read as an integer are their own normal form); refuted in general by '{{x}}' and by '1\\frac23\\frac45', whose second pass even changes the value"
  },
  {
   "property": "C62",
   "status": "partial",
   "theorems": [
    "Verif.L2S.C62_conversion_partial",
    "Verif.L2S.C62_latex2sympy_partial",
    "Verif.L2S.C62_list_partial",
    "Verif.L2S.C62_imaginary_power_refuted",
    "Verif.L2S.C62_zero_exponent_refuted"
   ],
   "note": "every parse tree of the arithmetic fragment (numbers, symbols, + - * / frac, powers, signs, groups, roots, implicit products, named functions, sums, products, integrals, derivative operators and limits with a direction or at infinity) converts to an expression with the meaning of the tree, over any field with any interpretation of the functions; two spellings are converted wrongly: I^p becomes I, and a zero superscript of a function is dropped. Missing: finite limits without a direction (see C73), integrals whose differential is not a separate token, derivatives written as one fraction (the numerator is parsed again), and the parser itself; matrices are C66 and C69."
  },
  {
   "property": "C63",
   "status": "partial",
   "theorems": [
    "Verif.L2S.C63_no_leak",
    "Verif.L2S.C63_kept_partial",
    "Verif.L2S.C63_call_partial",
    "Verif.L2S.C63_lookup",
    "Verif.L2S.C63_percent",
    "Verif.L2S.C63_derivative_refuted",
    "Verif.L2S.C63_refuted"
   ],
   "note": "no leak between calls is proved in full; within a call the bindings are kept for every tree without a derivative fraction, and every derivative fraction erases them (refuted, with a concrete witness)"
  },
  {
   "property": "C64",
   "status": "partial",
   "theorems": [
    "Verif.L2S.C64_globals_partial",
    "Verif.L2S.C64_history_partial",
    "Verif.L2S.C64_declaration_refuted",
    "Verif.L2S.C64_flags_refuted"
   ],
   "note": "independent of the history when the earlier inputs declare no matrix symbol and the tree reads no stale derivative flag; refuted in general by matrix declarations and by the derivative flags left by earlier parses"
  },
  {
   "property": "C65",
   "status": "partial",
   "theorems": [
    "Verif.L2S.C65_operations_partial",
    "Verif.L2S.C65_inverse",
    "Verif.L2S.C65_swap_twice",
    "Verif.L2S.C65_invalid",
    "Verif.L2S.C65_pinned_refuted"
   ],
   "note": "operations, order of the two lists, invertibility and range errors are proved for every matrix and transform list when the parser class has the accessor NUMBER (gen_orig); the pinned gen/PSParser.py has not, and there every arrow raises AttributeError (refuted for all)"
  },
  {
   "property": "C66",
   "status": "partial",
   "theorems": [
    "Verif.L2S.C66_negation_refuted"
   ],
   "note": "false: a unary minus in front of anything converted to a matrix raises TypeError, for all trees and states (the refutation is complete, nothing of the claim holds)"
  },
  {
   "property": "C67",
   "status": "partial",
   "theorems": [
    "Verif.L2S.C67_names_partial",
    "Verif.L2S.C67_imaginary_refuted"
   ],
   "note": "exact characterisation (iff) of equal symbols for all tokens of the grammar and all subscripts; accents over a text with an underscore not covered; refuted for the letter I, which drops its subscript"
  },
  {
   "property": "C69",
   "status": "partial",
   "theorems": [
    "Verif.L2S.C69_matrix_partial",
    "Verif.L2S.C69_explicit_partial",
    "Verif.L2S.C69_sizes_partial",
    "Verif.L2S.C69_misfits",
    "Verif.L2S.C69_difference_refuted"
   ],
   "note": "value of matrix algebra for explicit matrices of all sizes, and over any algebra, for all nestings of sums, differences, products, juxtapositions, scalar multiples and quotients; sizes that do not fit raise (C69_misfits, given that SymPy checks sizes); refuted for differences whose right side is a product (AttributeError)"
  },
  {
   "property": "C70",
   "status": "partial",
   "theorems": [
    "Verif.C70_decimal_literals_partial",
    "Verif.C70_refuted"
   ],
   "note": "for all pairs of literals that are integers up to 2^53 or below 10^9 and at least 2e-7 away from every integer; any CAS that computes exactly, any parsers of which one reads literals and none misreads them; refuted for literals within 1e-7 of an integer, which are rounded to it before the comparison"
  },
  {
   "property": "C71",
   "status": "proved",
   "theorems": [
    "Verif.C71_integers"
   ],
   "note": "whole pipeline: normalisation, splitting, candidates, tolerance; beyond 2^53 see C20_collision"
  },
  {
   "property": "C72",
   "status": "proved",
   "theorems": [
    "Verif.L2S.C72_sum",
    "Verif.L2S.C72_product",
    "Verif.L2S.C72_series",
    "Verif.L2S.C72_integral",
    "Verif.L2S.C72_improper",
    "Verif.L2S.C72_derivative"
   ],
   "note": "over the real numbers with Mathlib's sums, interval integrals and derivatives; the library is assumed to build the Sum, Product, Integral and Derivative objects it is asked for"
  },
  {
   "property": "C73",
   "status": "partial",
   "theorems": [
    "Verif.L2S.C73_right_partial",
    "Verif.L2S.C73_left_partial",
    "Verif.L2S.C73_infinity_partial",
    "Verif.L2S.C73_two_sided_partial",
    "Verif.L2S.C73_two_sided_refuted"
   ],
   "note": "limits with a direction, limits at infinity and two-sided limits that exist have the right value; a limit without direction that does not exist is converted to the limit from the right"
  },
  {
   "property": "C74",
   "status": "partial",
   "theorems": [
    "Verif.C74_points_partial",
    "Verif.C74_integer_points_partial",
    "Verif.C74_refuted"
   ],
   "note": "exact characterisation for lists of at least two literals as in C70 in round or square brackets, none after the first unsigned with three digits before the point; any CAS that computes exactly and compares intervals as sets of points; the claim fails exactly for two pairs in round brackets with equal coordinates each, such as (1,1) and (2,2), which are both also read as the empty open interval"
  },
  {
   "property": "C75",
   "status": "proved",
   "theorems": [
    "Verif.C75_integer_sets"
   ],
   "note": "integers of at most 53 bits, those after the first below 100 so that no comma is taken for a thousands separator (C36); any iteration order of Python sets; any CAS that computes exactly"
  },
  {
   "property": "C76",
   "status": "proved",
   "theorems": [
    "Verif.Grammar.C76_parse",
    "Verif.Grammar.C76_latex2sympy"
   ],
   "note": "any field, interpretation of the functions, binding of the letters and history of earlier conversions; any CAS satisfying SoundLib (nodeLib over the reals does); the lexer and parser are the modelled ones"
  },
  {
   "property": "C77",
   "status": "partial",
   "theorems": [
    "Verif.Grammar.C77_product_partial",
    "Verif.Grammar.C77_operator",
    "Verif.Grammar.C77_division",
    "Verif.Grammar.C77_cdot_read",
    "Verif.Grammar.C77_refuted"
   ],
   "note": "holds when no operator follows the argument; with an operator the argument goes on after it (C77_operator, C77_division, for all phrases), so the full claim is refuted"
  },
  {
   "property": "C78",
   "status": "partial",
   "theorems": [
    "Verif.Grammar.C78_base_partial",
    "Verif.Grammar.C78_log_read",
    "Verif.Grammar.C78_refuted",
    "Verif.Grammar.C78_power_refuted"
   ],
   "note": "holds when no digit follows the index; otherwise refuted"
  },
  {
   "property": "C79",
   "status": "partial",
   "theorems": [
    "Verif.L2S.C79_difference_partial",
    "Verif.L2S.C79_value_partial",
    "Verif.L2S.C79_unnamed",
    "Verif.L2S.C79_refuted",
    "Verif.L2S.C79_order_refuted"
   ],
   "note": "holds when the limits name the variable and the upper limit is written first; limits without symbols are ignored (C79_unnamed, for all expressions and all numbers), so such a difference is 0; the usual order of the limits is not parsed; SymPy's substitution is assumed to be right at points where the expression is defined"
  },
  {
   "property": "C80",
   "status": "proved",
   "theorems": [
    "Verif.C80_acceptance"
   ],
   "note": ""
  },
  {
   "property": "C81",
   "status": "partial",
   "theorems": [
    "Verif.L2S.C81_declared_partial",
    "Verif.L2S.C81_sum_refuted",
    "Verif.L2S.C81_vector_refuted"
   ],
   "note": "holds for products of two sizes; a sum in the exponent is accepted as a pair of sizes, and one size alone is an IndexError"
  },
  {
   "property": "C82",
   "status": "partial",
   "theorems": [
    "Verif.C82_by_value_partial",
    "Verif.C82_spelling",
    "Verif.C82_refuted"
   ],
   "note": "holds for decimals, signed fractions in both notations and unsigned mixed numbers; a mixed number with a minus sign is read as -a + b/c; the libraries' parsers are assumed to give sums of such terms their value"
  },
  {
   "property": "C83",
   "status": "proved",
   "theorems": [
    "Verif.C83_complex",
    "Verif.C83_set",
    "Verif.C83_vector",
    "Verif.C83_function"
   ],
   "note": "that the element-wise comparison is positive is C51"
  },
  {
   "property": "C84",
   "status": "partial",
   "theorems": [
    "Verif.L2S.C84_judged_by_value_partial",
    "Verif.L2S.C84_same_value_partial",
    "Verif.L2S.C84_blanks_refuted"
   ],
   "note": "texts without variables, blanks and sequences with a meaning to the normaliser, and decimal literals; SymPy is assumed to evaluate the expressions built exactly (hypotheses met by the real numbers); answers with blanks can be changed by the normaliser"
  },
  {
   "property": "C85",
   "status": "proved",
   "theorems": [
    "Verif.Grammar.C85_sum",
    "Verif.Grammar.C85_product",
    "Verif.Grammar.C85_series",
    "Verif.Grammar.C85_derivative",
    "Verif.Grammar.C85_right",
    "Verif.Grammar.C85_left",
    "Verif.Grammar.C85_limit",
    "Verif.Grammar.C85_infinity",
    "Verif.Grammar.C85_minus_infinity"
   ],
   "note": "texts of the notation of C76, also nested and as parts of other expressions through C76; any CAS satisfying SoundLib; limits without side are claimed if they exist; integrals are the subject of another property"
  },
  {
   "property": "C86",
   "status": "partial",
   "theorems": [
    "Verif.Grammar.C86_text_partial",
    "Verif.Grammar.C86_integral_partial",
    "Verif.Grammar.C86_above_partial",
    "Verif.Grammar.C86_below_partial",
    "Verif.Grammar.C86_everywhere_partial",
    "Verif.Grammar.C86_length_partial",
    "Verif.Grammar.C86_refuted"
   ],
   "note": "texts in which no two differentials stand in the same group of braces (each integral of a longer text is then read as far as its differential); two integrals side by side are read wrongly (C86_refuted); nested double integrals are not covered; differentials inside a fraction are C132"
  },
  {
   "property": "C87",
   "status": "partial",
   "theorems": [
    "Verif.Grammar.C87_list_partial",
    "Verif.Grammar.C87_relation",
    "Verif.Grammar.C87_lists_partial",
    "Verif.Grammar.C87_relations_partial",
    "Verif.Grammar.C87_refuted"
   ],
   "note": "lists of at least two items in which three digits do not follow a comma (1, 234 is read as 1234: C87_refuted); items are expressions or one relation between two expressions, not chains of relations; lists in parentheses are not lists of the grammar; texts with integrals need their differentials apart (C86)"
  },
  {
   "property": "C88",
   "status": "proved",
   "theorems": [
    "Verif.Grammar.C88_longest",
    "Verif.Grammar.C88_tokens",
    "Verif.Grammar.C88_text",
    "Verif.Grammar.C88_rules",
    "Verif.Grammar.C88_file"
   ],
   "note": "C88_file is about the lexer rules of PS.g4 as Spec/PSLexer writes them down, C88_longest, C88_tokens and C88_text about the table of the model; C88_rules is the link between the two"
  },
  {
   "property": "C89",
   "status": "partial",
   "theorems": [
    "Verif.Grammar.C89_accepted",
    "Verif.Grammar.C89_part",
    "Verif.Grammar.C89_rejected_partial",
    "Verif.Grammar.C89_rest_refuted",
    "Verif.Grammar.C89_refuted",
    "Verif.Grammar.C89_kinds_refuted"
   ],
   "note": "for the text after preparation (latex2sympy2.py:55-70); C89_accepted is about texts read as a whole. As the rule math does not require the end of the text, ANTLR may return the tree of a beginning only: then this beginning is balanced (C89_part), but the rest is ignored (C89_rest_refuted). The preparation removes an unmatched bracket before a matrix (C89_refuted), and brackets of a call may be of different kinds (C89_kinds_refuted)"
  },
  {
   "property": "C90",
   "status": "partial",
   "theorems": [
    "Verif.Grammar.C90_entries",
    "Verif.Grammar.C90_algebra_partial",
    "Verif.Grammar.C90_det",
    "Verif.Grammar.C90_entries_apart",
    "Verif.Grammar.C90_algebra_apart_partial",
    "Verif.Grammar.C90_det_apart",
    "Verif.Grammar.C90_negation_refuted",
    "Verif.Grammar.C90_difference_refuted"
   ],
   "note": "pmatrix, bmatrix and vmatrix written with the notation of C76–C86 in the entries; matrix expressions for square matrices; SymPy's matrix arithmetic and det are hypotheses (SoundMatrix, SoundAlg, SoundDet); not row operations (C65), not unary minus and differences of products, which raise"
  },
  {
   "property": "C91",
   "status": "proved",
   "theorems": [
    "Verif.Grammar.C91_tokens",
    "Verif.Grammar.C91_text",
    "Verif.Grammar.C91_accepted",
    "Verif.Grammar.C91_bound"
   ],
   "note": "C91_accepted needs of ANTLR only that a returned tree is one that the grammar gives to a beginning of the text. Which of several trees is returned is the order of alternatives, see section 3"
  },
  {
   "property": "C92",
   "status": "proved",
   "theorems": [
    "Verif.Grammar.C92_tree",
    "Verif.Grammar.C92_text",
    "Verif.Grammar.C92_part"
   ],
   "note": "about the trees the converter receives; C92_part needs of ANTLR only that a returned tree is one that the grammar gives to a beginning of the text"
  },
  {
   "property": "C93",
   "status": "partial",
   "theorems": [
    "Verif.Grammar.C93_order_partial",
    "Verif.Grammar.C93_chain_read",
    "Verif.Grammar.C93_chain_refuted"
   ],
   "note": "all of it except chains of powers, which are read from the left"
  },
  {
   "property": "C94",
   "status": "partial",
   "theorems": [
    "Verif.L2S.C94_same_partial",
    "Verif.L2S.C94_apart_partial",
    "Verif.L2S.C94_refuted"
   ],
   "note": "functions of the same variables that agree within the tolerance wherever the variables lie between 1 and 10 are accepted; functions of different variables or nowhere within the tolerance are rejected; in between the verdict depends on the numbers drawn"
  },
  {
   "property": "C95",
   "status": "partial",
   "theorems": [
    "Verif.C95_elementwise",
    "Verif.L2S.C95_lists_partial",
    "Verif.L2S.C95_pairs_partial",
    "Verif.L2S.C95_brackets_refuted",
    "Verif.L2S.C95_coordinates_refuted"
   ],
   "note": "lists with three or more elements, lists without brackets, and pairs in brackets whose coordinates have no brackets of their own; not a bracketed pair against a list without brackets, and not lists in curly brackets"
  },
  {
   "property": "C96",
   "status": "partial",
   "theorems": [
    "Verif.C96_entrywise",
    "Verif.L2S.C96_matrices_partial",
    "Verif.L2S.C96_determinants_refuted"
   ],
   "note": "both answers are matrix environments with tidy cells; determinants (vmatrix) are compared as matrices, which is refuted; not a matrix environment against the notation with brackets"
  },
  {
   "property": "C97",
   "status": "partial",
   "theorems": [
    "Verif.C97_unions_partial",
    "Verif.C97_pairs_refuted"
   ],
   "note": "the two answers are not both single intervals in brackets of one kind (refuted for those, which C95 covers); the union sign is `\\cup`, intersections are the subject of C124; one of the texts is refused by the three parsers (hypothesis `Unread`)"
  },
  {
   "property": "C98",
   "status": "partial",
   "theorems": [
    "Verif.C98_kinds_partial",
    "Verif.C98_pairs_refuted"
   ],
   "note": "lists of two elements are not separated from longer lists or from unions (`[1,2]` is both, refuted); matrices are those with at least two rows and two columns (a row, a column or a single cell is a list or a number for the code, refuted); lists in braces are excluded; a union is one that none of the parsers reads (hypothesis `Unread`); the environment prints the integers it reads (hypothesis `PrintsIntegers`)"
  },
  {
   "property": "C99",
   "status": "partial",
   "theorems": [
    "Verif.C99_notations_partial",
    "Verif.L2S.C99_values_partial",
    "Verif.C99_transitive_refuted"
   ],
   "note": "one answer is a `matrix` environment and the other is written with brackets: at least two rows in round or square brackets, or a vector written as a list with or without brackets; not braces, not one row in double brackets; two answers with brackets of different kinds are not compared as matrices (C99_transitive_refuted)"
  },
  {
   "property": "C100",
   "status": "partial",
   "theorems": [
    "Verif.L2S.C100_equations_partial",
    "Verif.L2S.C100_equations_apart_partial",
    "Verif.L2S.C100_inequalities_partial",
    "Verif.L2S.C100_strictness",
    "Verif.L2S.C100_disequations",
    "Verif.L2S.C100_definitions_partial",
    "Verif.L2S.C100_numbers",
    "Verif.L2S.C100_solutions_refuted",
    "Verif.L2S.C100_inequalities_refuted",
    "Verif.L2S.C100_disequations_refuted",
    "Verif.L2S.C100_definitions_refuted"
   ],
   "note": "relations are judged by the difference of their sides, not by their solutions (refuted); functions that agree at some of the sampled points only, and differences of sides that are numbers, are not covered"
  },
  {
   "property": "C101",
   "status": "partial",
   "theorems": [
    "Verif.C101_allowed",
    "Verif.C101_variables_refuted",
    "Verif.C101_fraction_partial",
    "Verif.C101_fraction_refuted",
    "Verif.C101_matrix"
   ],
   "note": "`_is_frac` accepts every text with one of the letters f, r, a, c (refuted); the exact set of texts it accepts is proved"
  },
  {
   "property": "C102",
   "status": "partial",
   "theorems": [
    "Verif.L2S.C102_sets_partial",
    "Verif.L2S.C102_order_refuted",
    "Verif.C102_notations_partial",
    "Verif.L2S.C102_notation_refuted",
    "Verif.C102_braces"
   ],
   "note": "sets of numbers without variables whose elements are written without `|` and, in the reference, without brackets; the order of the elements matters (refuted), and sets differ from the same elements in other notations (refuted)"
  },
  {
   "property": "C103",
   "status": "partial",
   "theorems": [
    "Verif.Ascii.C103_notation_partial",
    "Verif.Ascii.C103_limit_refuted",
    "Verif.Ascii.C103_several_refuted",
    "Verif.Ascii.C103_indefinite",
    "Verif.Ascii.C103_indefinite_refuted",
    "Verif.Ascii.C103_derivative",
    "Verif.Ascii.C103_derivative_refuted",
    "Verif.Ascii.C103_ambiguous_refuted"
   ],
   "note": "all objects without limits, derivatives and integrals without bounds are printed in the notation; for those three the printer raises or prints tuples (refuted); the texts are ambiguous (refuted)"
  },
  {
   "property": "C104",
   "status": "partial",
   "theorems": [
    "Verif.C104_report_partial",
    "Verif.C104_end_refuted",
    "Verif.C104_lines_refuted",
    "Verif.C104_object"
   ],
   "note": "token types from 0 on and texts of one line; the end of the text is reported as the literal name `'\\%'` and the number of the line is ignored (refuted)"
  },
  {
   "property": "C105",
   "status": "proved",
   "theorems": [
    "Verif.C105_key",
    "Verif.C105_lines",
    "Verif.C105_script"
   ],
   "note": "the progress bar is not modelled"
  },
  {
   "property": "C106",
   "status": "partial",
   "theorems": [
    "Verif.L2S.C106_number_function_partial"
   ],
   "note": "answers in LaTeX notation as in C84 and C94, not those whose only variable is `i`; an expression with variables that always takes the same value is outside the claim: whether it is accepted depends on what SymPy's simplification finds"
  },
  {
   "property": "C107",
   "status": "partial",
   "theorems": [
    "Verif.L2S.C107_complex_partial",
    "Verif.L2S.C107_parts_refuted",
    "Verif.L2S.C107_variables_refuted"
   ],
   "note": "texts in LaTeX notation as in C84 whose only variable is `i`, and decimal literals; each part is compared relative to that part of the reference, so a small imaginary part is ignored in the prediction and required in the reference (refuted); beside another variable `i` is an ordinary variable (refuted)"
  },
  {
   "property": "C108",
   "status": "partial",
   "theorems": [
    "Verif.L2S.C108_lists_partial",
    "Verif.L2S.C108_matrices_partial",
    "Verif.L2S.C108_complex_lists_partial",
    "Verif.L2S.C108_complex_matrices_partial"
   ],
   "note": "elements as in C84, C94, C106 (formulas) and C107 (complex numbers); two formulas are to agree at all or at none of the points where the variables lie between 1 and 10; lists with at least three elements or without brackets; unordered lists in which no element has two partners"
  },
  {
   "property": "C109",
   "status": "partial",
   "theorems": [
    "Verif.L2S.C109_solution",
    "Verif.L2S.C109_solutions_partial",
    "Verif.L2S.C109_names_refuted"
   ],
   "note": "the names on the left sides are ignored (refuted); right sides that are numbers as in C84; lists without brackets in which no value has two partners"
  },
  {
   "property": "C110",
   "status": "partial",
   "theorems": [
    "Verif.L2S.C110_pairs_partial",
    "Verif.L2S.C110_intervals_refuted"
   ],
   "note": "pairs that are the same interval for all values of the variables are judged equivalent though their coordinates differ (refuted); formulas as in C108"
  },
  {
   "property": "C111",
   "status": "partial",
   "theorems": [
    "Verif.L2S.C111_integers",
    "Verif.L2S.C111_drawn",
    "Verif.L2S.C111_always",
    "Verif.L2S.C111_refuted",
    "Verif.L2S.C111_chance_refuted"
   ],
   "note": "false as stated (C111_refuted, C111_chance_refuted); proved instead: agreement at the whole numbers from 1 to 10 suffices in every run (any CAS that computes exactly), and for functions of one variable it is also necessary (CAS of functions with constant random sources); differences that are constants below 1/1000 may also be accepted by the simplification"
  },
  {
   "property": "C112",
   "status": "partial",
   "theorems": [
    "Verif.L2S.C112_chain_partial",
    "Verif.L2S.C112_spaced_partial",
    "Verif.L2S.C112_refuted"
   ],
   "note": "false as stated (C112_refuted); proved instead: the values at the ends of a chain of accepted pairs differ by less than 5/1000 per step, and on answers whose values are equal or at least 5/1000 apart the verdict is an equivalence relation; answers as in C84"
  },
  {
   "property": "C113",
   "status": "partial",
   "theorems": [
    "Verif.L2S.C113_drawn",
    "Verif.L2S.C113_always",
    "Verif.L2S.C113_refuted"
   ],
   "note": "proved in full for formulas in any number of variables whose difference is not nearly constant, for the CAS of functions (C94) with random sources that can return any point; false for single runs (C113_refuted). Sufficiency is proved for every exact CAS (C111_integers); differences that are constants below 1/1000 may also be accepted by the simplification"
  },
  {
   "property": "C114",
   "status": "partial",
   "theorems": [
    "Verif.Grammar.C114_converted",
    "Verif.L2S.C114_chains_partial",
    "Verif.L2S.C114_refuted"
   ],
   "note": "the conversion is proved in full: chains of any number of relations, the last one outermost. The verdict is proved for two different chains and for a chain against an inequality; a chain against an equation, a number or a formula is C117. Chains that say the same are never judged equivalent unless the texts are the same (C114_refuted). Assumption about SymPy: with evaluate=False it keeps a relation of a relation, and has no differences or reciprocals of relations"
  },
  {
   "property": "C115",
   "status": "partial",
   "theorems": [
    "Verif.L2S.C115_numbers",
    "Verif.L2S.C115_formulas_partial",
    "Verif.L2S.C115_unlike",
    "Verif.L2S.C115_false_refuted",
    "Verif.L2S.C115_turned_refuted"
   ],
   "note": "numbers as right sides: exact verdict; a number and a formula that varies: always False; formulas that agree at some of the sampled points only are not covered (C111, C113 treat bare formulas). As a comparison of solutions the verdict is wrong in both directions (refuted)"
  },
  {
   "property": "C116",
   "status": "proved",
   "theorems": [
    "Verif.L2S.C116_measures",
    "Verif.L2S.C116_units_refuted",
    "Verif.L2S.C116_degrees_refuted"
   ],
   "note": "from the text to the verdict, for answers of the four kinds in any combination and order; percent signs are left out (their readings go through the printing of floats, C23). As a comparison of quantities the verdict is wrong (refuted): units are dropped, and a degree sign may be dropped"
  },
  {
   "property": "C117",
   "status": "proved",
   "theorems": [
    "Verif.L2S.C117_expressions",
    "Verif.L2S.C117_definitions",
    "Verif.L2S.C117_equations",
    "Verif.L2S.C117_chains"
   ],
   "note": "from the text to the verdict, in either order. Assumptions about SymPy: relations are not numbers and have no differences (RelationsApart), and two relations that expand to the same object hold for the same values (ExpandsTruly). An equation that defines a name is judged by its right side against expressions and equations (C100, C115)"
  },
  {
   "property": "C118",
   "status": "partial",
   "theorems": [
    "Verif.Grammar.C118_several_partial",
    "Verif.Grammar.C118_nested_refuted",
    "Verif.Grammar.C118_bare_refuted"
   ],
   "note": "proved from the text on for any number of arguments; the functions themselves are SymPy's, taken as a parameter. False for calls within calls and for calls without parentheses (refuted). Missing: arguments of three digits after a comma, arguments with a command before a letter, powers of calls, `\\operatorname`"
  },
  {
   "property": "C119",
   "status": "partial",
   "theorems": [
    "Verif.Grammar.C119_text",
    "Verif.L2S.C119_formulas_partial",
    "Verif.L2S.C119_numbers",
    "Verif.L2S.C119_unlike",
    "Verif.L2S.C119_inverse_refuted"
   ],
   "note": "proved from the text to the verdict for a function of one variable, whatever its letter and that of its argument; the CAS (SymPy) is a parameter. For formulas the verdict is determined as in C94. False as a comparison of functions (refuted): the head is ignored. Missing: several arguments, arguments that are not one letter, function names with subscripts"
  },
  {
   "property": "C120",
   "status": "partial",
   "theorems": [
    "Verif.Grammar.C120_text",
    "Verif.L2S.C120_formulas_partial",
    "Verif.L2S.C120_numbers",
    "Verif.L2S.C120_unlike",
    "Verif.L2S.C120_argument_refuted",
    "Verif.L2S.C120_product_refuted"
   ],
   "note": "the reading of the text is proved for any number of arguments (C120_text); the verdict for one argument that is a letter or a numeral; the CAS (SymPy) is a parameter. For formulas the verdict is determined as in C94. False as a comparison of what is said of the function (refuted): the arguments are ignored. False for a sum as the only argument and for \\left and \\right, which are read as products (refuted). Missing: verdicts for several arguments (see C121), function names with subscripts"
  },
  {
   "property": "C121",
   "status": "partial",
   "theorems": [
    "Verif.L2S.C121_formulas_partial",
    "Verif.L2S.C121_numbers",
    "Verif.L2S.C121_unlike"
   ],
   "note": "proved from the text to the verdict for any number of arguments; the CAS (SymPy) is a parameter, and its Interval is taken to refuse relations as end points. For two arguments, where the code first tries to read the text as an interval, the text after the comma, once closing brackets are removed, must be an equation, as it is if the right side has no brackets, or raise, as it does if it is left unbalanced (uneven_raises). For formulas the verdict is determined as in C94. Missing: three digits after a comma"
  },
  {
   "property": "C122",
   "status": "partial",
   "theorems": [
    "Verif.L2S.C122_lists_partial",
    "Verif.L2S.C122_systems_partial",
    "Verif.L2S.C122_words",
    "Verif.L2S.C122_words_refuted"
   ],
   "note": "proved from the text to the verdict for lists of any length and matrices; the CAS (SymPy) is a parameter that computes correctly. The claim that 'and' and 'or' are told apart is refuted. Missing: inequalities whose differences of sides agree at some, but not all, of the points where the variables lie between 1 and 10, pairs in brackets (also read as intervals), lists in which an inequality has two partners"
  },
  {
   "property": "C123",
   "status": "partial",
   "theorems": [
    "Verif.L2S.C123_formulas_partial",
    "Verif.L2S.C123_numbers_partial",
    "Verif.L2S.C123_unlike_partial",
    "Verif.L2S.C123_grouped_refuted",
    "Verif.L2S.C123_thousands_refuted"
   ],
   "note": "proved from the text to the verdict; the CAS (SymPy) is a parameter whose gcd, lcm, Max and Min compute correctly. That a call with two arguments is no interval is C125. Formulas as in C94, calls as in C118 (arguments without commas, no powers; no three digits after a comma). Violated by three digits after a comma: with every CAS, a call whose arguments look like one number with thousands separators is judged equivalent to the call with this number, for all numbers and the four commands (C123_grouped_refuted); so \\max(1,234), which is converted to the greatest of 1 and 234, is judged as 1234 and different from \\max(234,1) (C123_thousands_refuted)"
  },
  {
   "property": "C124",
   "status": "partial",
   "theorems": [
    "Verif.C124_meets_partial",
    "Verif.C124_refuted"
   ],
   "note": "the two answers are not both single intervals in brackets of one kind (as in C97); no intersection is empty before its last interval (refuted otherwise: the empty set is forgotten and the verdict is wrong); the signs are `\\cup` and `\\cap`; one of the texts is refused by the three parsers (hypothesis `Unread`)"
  },
  {
   "property": "C125",
   "status": "proved",
   "theorems": [
    "Verif.L2S.C125_raises",
    "Verif.L2S.C125_interval"
   ],
   "note": "for all texts, from the lexer to the exception, and for every parser that gives trees of the grammar to beginnings of the text (the rule math does not require the end of the text); the second theorem is for answers that normalisation leaves alone (Neat)"
  },
  {
   "property": "C126",
   "status": "partial",
   "theorems": [
    "Verif.L2S.C126_refuted",
    "Verif.L2S.C126_order_refuted",
    "Verif.L2S.C126_verdict_refuted",
    "Verif.L2S.C126_token",
    "Verif.L2S.C126_pair",
    "Verif.L2S.C126_symbol",
    "Verif.L2S.C126_products_partial"
   ],
   "note": "violated for the letter d: the lexer reads d and a following command as one token, for every command (C126_token), and the converter makes one symbol of it (C126_symbol); d\\cdot 2 is twice the symbol dcdot (C126_refuted). In the same way d and a following letter are one symbol (C126_pair), so bdc is not b times d times c (C126_order_refuted) and the answers bdc and bcd are judged different by is_equiv over a CAS of real functions (C126_verdict_refuted). The property is proved for the other letters as first factor except e, E and I (C126_products_partial), with everything C76 covers as second factor"
  },
  {
   "property": "C127",
   "status": "partial",
   "theorems": [
    "Verif.L2S.C127_refuted",
    "Verif.L2S.C127_token",
    "Verif.L2S.C127_powers_partial"
   ],
   "note": "violated for the exponent T: ^T and ^{T} are one token of the rule transpose, whatever follows (C127_token), and 2^T does not depend on T, however the functions of the CAS are interpreted (C127_refuted; SymPy's transpose of a number is the number). This concerns latex2sympy itself: is_equiv lowers answers first (C128), so that there ^T is the power ^t, also after a matrix. The property is proved for texts in which the exponent is not read as a transpose (part of Written), for the letters other than d, e, E and I as exponents (C127_powers_partial)"
  },
  {
   "property": "C128",
   "status": "partial",
   "theorems": [
    "Verif.C128_normal",
    "Verif.C128_case",
    "Verif.L2S.C128_refuted"
   ],
   "note": "for answers of printable ASCII characters without blanks and without the words the normaliser removes (Cased), that do not read as integers; for every CAS. That variables are told apart by case is refuted: A+2a and a+2A, and \\Pi and \\pi, are judged equivalent"
  },
  {
   "property": "C129",
   "status": "partial",
   "theorems": [
    "Verif.L2S.C129_refuted",
    "Verif.L2S.C129_verdict_refuted",
    "Verif.L2S.C129_iterated_partial"
   ],
   "note": "violated: two signs are the factorial of the factorial, for every number from 3 on (C129_refuted, where the factorial of the CAS is that of natural numbers), so that 3!! is judged equivalent to 720 and not to 3 (C129_verdict_refuted, over a CAS of real functions with factorials). Proved is what is computed instead, for every factor of the notation of C76 and every number of signs (C129_iterated_partial); with one sign it is the factorial"
  },
  {
   "property": "C130",
   "status": "partial",
   "theorems": [
    "Verif.L2S.C130_refuted"
   ],
   "note": "violated: x+1E5 is judged equivalent to x+5e and not to x+100000 (C130_refuted, from the text to the verdict over a CAS of real functions), though latex2sympy alone reads it as x+100000: is_equiv lowers the answer before it is read, and the lexer knows only the capital E (PS.g4:163,176). For numbers alone the property is C32, for formulas whose numbers have no exponent C94"
  },
  {
   "property": "C131",
   "status": "partial",
   "theorems": [
    "Verif.L2S.C131_second_refuted",
    "Verif.L2S.C131_prime_refuted"
   ],
   "note": "violated: \\frac{d^2}{dx^2}x^3 is converted to d^2 times the inverse of dx^2 times x^3, with symbols d and dx (C131_second_refuted), and f'(x) to the transpose of f times x, which is 0 at x = 0 whatever f is (C131_prime_refuted). The value in the second theorem holds for every interpretation of the functions of the CAS. First derivatives in the notation d/dx are C85; that no other notation for higher derivatives is understood is not proved"
  },
  {
   "property": "C132",
   "status": "partial",
   "theorems": [
    "Verif.L2S.C132_inside_partial",
    "Verif.L2S.C132_logarithm",
    "Verif.L2S.C132_refuted"
   ],
   "note": "for every converted integrand with one symbol that looks like a differential, the integral is taken over its variable and the integrand has the value with 1 in its place (C132_inside_partial, over any field and any CAS whose atoms and subs do what they say, the symbols in any order); \\int_1^2\\frac{dx}{x} is log 2 from the text on (C132_logarithm). Violated if another name of the integrand begins with d: \\int_1^2\\frac{dx}{x+d_1} is an integral over a variable _1 if the symbols are listed from the left (C132_refuted). Missing: the texts of all such integrands, of which only the example is followed, and differentials of Greek letters"
  }
 ]
}