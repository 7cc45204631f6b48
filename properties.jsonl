{"id": "C01", "title": "Identical answers are always accepted", "statement": "is_equiv(a, b) is True whenever a and b are the same string up to surrounding whitespace, whatever the LaTeX parsers and the CAS would do with them (fail, time out, loop, mutate global state).", "quantifier": "all pairs of strings with equal str.strip(); all behaviours of the external parsers/CAS; all prior histories; both verbose settings", "why_tests_cant": "the strings, the CAS behaviours and the histories are all unbounded; tests sample a handful of answers with one CAS version", "anchors": ["math_evaluation/core/evaluations.py:is_equiv"]}
{"id": "C02", "title": "None answers", "statement": "is_equiv(None, None) is True and is_equiv returns False when exactly one side is None; in both cases nothing is parsed.", "quantifier": "all strings on the non-None side, all CAS behaviours and histories", "why_tests_cant": "needs every string on the other side", "anchors": ["math_evaluation/core/evaluations.py:is_equiv"]}
{"id": "C03", "title": "is_equiv is total", "statement": "is_equiv never raises and always returns a Boolean, for any two strings or None, even when every parser/CAS call raises or times out and whatever the recursion budget is; and the same holds for are_equal_under_sympy.", "quantifier": "all pairs of Optional[str], all exception behaviours of every external call, all recursion limits >= 1, all states", "why_tests_cant": "exceptions may come out of any external call on any input; tests cannot enumerate them", "anchors": ["math_evaluation/core/evaluations.py:is_equiv", "math_evaluation/core/latex_parser.py:are_equal_under_sympy"]}
{"id": "C04", "title": "Equal normal forms are accepted", "statement": "If string_normalize maps both answers to the same string then is_equiv accepts the pair without consulting the CAS for the comparison.", "quantifier": "all pairs of strings", "why_tests_cant": "all inputs", "anchors": ["math_evaluation/core/evaluations.py:is_equiv", "math_evaluation/core/latex_normalize.py:string_normalize"]}
{"id": "C05", "title": "An empty prediction is never accepted against a non-empty answer", "statement": "If the prediction normalises to the empty string and the reference does not normalise to the same string (and the two are not equal up to whitespace), is_equiv returns False.", "quantifier": "all predictions with an empty normal form, all references, all CAS behaviours", "why_tests_cant": "all inputs", "anchors": ["math_evaluation/core/evaluations.py:is_latex_equiv"]}
{"id": "C06", "title": "No acceptance without evidence", "statement": "Whenever is_equiv returns True there is a finite evidence tree: equality up to whitespace, equal normal forms, equal interval sets, an accepted element-wise/one-to-one decomposition into tuples, sets or matrices whose parts are themselves accepted, or a CAS verdict of equality on the two normal forms.", "quantifier": "all inputs accepted by is_equiv; all CAS behaviours; nesting depth unbounded", "why_tests_cant": "the recursion is_equiv -> split -> is_equiv is unbounded in depth", "anchors": ["math_evaluation/core/evaluations.py:is_equiv", "math_evaluation/core/evaluations.py:is_latex_equiv", "math_evaluation/core/evaluations.py:is_equiv_possible_tuple", "math_evaluation/core/evaluations.py:is_equiv_possible_matrix", "math_evaluation/core/evaluations.py:is_equiv_possible_intervals"]}
{"id": "C07", "title": "Ordered answers are compared in order", "statement": "Two bracketed answers [a1,...,an] and [b1,...,bm] (or with parentheses) are accepted by the tuple comparison exactly when n = m and every ai is accepted against bi, in order (the only exception being a prediction that has the literal element \\in).", "quantifier": "all lengths, all elements", "why_tests_cant": "lengths and elements unbounded", "anchors": ["math_evaluation/core/evaluations.py:is_equiv_possible_tuple", "math_evaluation/core/latex_normalize.py:split_tuple"]}
{"id": "C08", "title": "Bracket kind matters for split answers", "statement": "An answer in square brackets with at least two elements never equals, via the tuple comparison, one in parentheses or an unbracketed list, and conversely.", "quantifier": "all lengths, all elements", "why_tests_cant": "unbounded", "anchors": ["math_evaluation/core/evaluations.py:is_equiv_possible_tuple"]}
{"id": "C09", "title": "Unordered answers are matched one-to-one", "statement": "When two comma-separated answers are accepted by the set comparison, there is an injective assignment of the distinct reference elements to distinct prediction elements such that every assigned pair was accepted; with equally many elements it is a bijection.", "quantifier": "all finite sets of elements, all iteration orders of the Python sets, all CAS behaviours", "why_tests_cant": "needs every set and every hash order", "anchors": ["math_evaluation/core/evaluations.py:is_equiv_possible_tuple"]}
{"id": "C10", "title": "Verdict on unordered answers does not depend on listing order or hash seed", "statement": "Permuting the elements of a comma-separated reference or prediction, or changing PYTHONHASHSEED (i.e. the set iteration order), does not change the verdict of the set comparison.", "quantifier": "all permutations of all finite sets, all iteration orders", "why_tests_cant": "iteration order is chosen at process start; a test run sees one", "anchors": ["math_evaluation/core/evaluations.py:is_equiv_possible_tuple"]}
{"id": "C11", "title": "Matrices are compared by shape and entry", "statement": "The matrix comparison accepts two split matrices exactly when they have the same number of rows, rows have the same length, and all corresponding entries are accepted.", "quantifier": "all shapes, all entries", "why_tests_cant": "shapes unbounded", "anchors": ["math_evaluation/core/evaluations.py:is_equiv_possible_matrix"]}
{"id": "C12", "title": "Row vectors and column vectors are the same matrix answer", "statement": "split_matrix gives the same list of entries for the row-vector and the column-vector spelling of a vector, both for the LaTeX environment and for the bracket spelling.", "quantifier": "all vectors of length >= 2", "why_tests_cant": "length unbounded", "anchors": ["math_evaluation/core/latex_normalize.py:split_matrix"]}
{"id": "C13", "title": "Ambiguous notations are accepted under any reading", "statement": "If normalisation yields several readings (degrees, percent, base-b digits, p.m. times) is_equiv accepts exactly when some reading of the reference is accepted against some reading of the prediction, provided no earlier pair of readings raises.", "quantifier": "all sets of readings, all iteration orders", "why_tests_cant": "all sets", "anchors": ["math_evaluation/core/evaluations.py:is_equiv"]}
{"id": "C14", "title": "verbose only affects printing", "statement": "The verdict of is_equiv, and every call made to the external parsers/CAS, is the same for verbose=True and verbose=False.", "quantifier": "all inputs, all CAS behaviours, all recursion depths", "why_tests_cant": "a two-run (hyper) property over all inputs", "anchors": ["math_evaluation/core/evaluations.py:is_equiv", "math_evaluation/core/evaluations.py:is_latex_equiv", "math_evaluation/core/latex_parser.py:are_equal_with_simplify"]}
{"id": "C15", "title": "Any annotated ground truth suffices", "statement": "is_equiv_MATH with a list of references is True exactly when some reference in the list is accepted, False for the empty list, the plain is_equiv verdict for a single string, and an assertion failure for anything else.", "quantifier": "all lists of references, all predictions", "why_tests_cant": "list length unbounded", "anchors": ["demo.py:is_equiv_MATH"]}
{"id": "C16", "title": "Verdict is symmetric", "statement": "is_equiv(a, b) = is_equiv(b, a).", "quantifier": "all pairs of strings", "why_tests_cant": "a relation over all pairs", "anchors": ["math_evaluation/core/evaluations.py:is_equiv", "math_evaluation/core/latex_parser.py:_diff_equal"]}
{"id": "C17", "title": "string_normalize is total", "statement": "string_normalize never raises: on an internal failure it returns its argument unchanged; on a string it returns a string or a set of strings.", "quantifier": "all strings, all CAS behaviours", "why_tests_cant": "all inputs", "anchors": ["math_evaluation/core/latex_normalize.py:string_normalize"]}
{"id": "C18", "title": "Nested wrappers terminate", "statement": "Unwrapping nested \\text{...}/\\mbox{...}/set-builder wrappers terminates, within a recursion depth bounded by the length of the answer, and the result does not depend on the recursion limit once it exceeds the length.", "quantifier": "all strings, all nesting depths", "why_tests_cant": "nesting depth unbounded", "anchors": ["math_evaluation/core/latex_normalize.py:_string_normalize"]}
{"id": "C19", "title": "Normal forms are lower-case and free of blanks", "statement": "Every string returned by the final normalisation stage contains no space character, and no ASCII upper-case letter, unless it is the printed form of an integer produced by the CAS.", "quantifier": "all strings", "why_tests_cant": "all inputs", "anchors": ["math_evaluation/core/latex_normalize.py:further_string_normalize"]}
{"id": "C20", "title": "Integers are normalised to themselves", "statement": "For every integer n the answer str(n) has normal form str(n); in particular distinct integers have distinct normal forms.", "quantifier": "all integers", "why_tests_cant": "unbounded integers; the code goes through binary64", "anchors": ["math_evaluation/core/latex_normalize.py:further_string_normalize", "math_evaluation/core/latex_normalize.py:_is_float", "math_evaluation/core/latex_normalize.py:_is_int"]}
{"id": "C21", "title": "Thousands separators are ignored", "statement": "Removing properly placed thousands commas turns the comma-grouped decimal spelling of n into the plain spelling, for every natural number n.", "quantifier": "all natural numbers", "why_tests_cant": "unbounded", "anchors": ["math_evaluation/core/latex_normalize.py:_strip_properly_formatted_commas"]}
{"id": "C22", "title": "Positional base notation", "statement": "An answer digits_base (or digits_{base}) normalises to the two readings 'digits' and the decimal spelling of sum d_i * base^i.", "quantifier": "all digit strings, all bases", "why_tests_cant": "unbounded digit strings", "anchors": ["math_evaluation/core/latex_normalize.py:_str_to_decimal", "math_evaluation/core/latex_normalize.py:_string_normalize"]}
{"id": "C23", "title": "Percentages have both readings", "statement": "x% and x\\% normalise to the two readings x and x/100 (as binary64 numbers) for every float literal x.", "quantifier": "all float literals", "why_tests_cant": "unbounded", "anchors": ["math_evaluation/core/latex_normalize.py:_string_normalize"]}
{"id": "C24", "title": "Degrees have both readings", "statement": "An answer X^\\circ (or X^{\\circ}) with numeric X normalises to the two readings X and X/180*\\pi.", "quantifier": "all decimal numerals", "why_tests_cant": "unbounded", "anchors": ["math_evaluation/core/latex_normalize.py:_string_normalize"]}
{"id": "C25", "title": "Clock times", "statement": "hh:mm[:ss] normalises to the list [h, m] (or [h, m, s] if s is non-zero, or just h if minutes and seconds are zero), and with p.m. to the two readings h mod 12 and h mod 12 + 12.", "quantifier": "all two-digit hours, minutes and seconds", "why_tests_cant": "the claim is about every digit combination, spacing and meridiem spelling, not a sample", "anchors": ["math_evaluation/core/latex_normalize.py:_str_to_time_list"]}
{"id": "C26", "title": "Units are ignored", "statement": "For every number and every listed long unit (with optional plural s/es, optional blanks) and every listed short unit separated by a blank, number+unit has the same normal form as the number; the same for \\text{unit}/\\mbox{unit}.", "quantifier": "all decimal numerals x all units in the tables", "why_tests_cant": "numerals unbounded", "anchors": ["math_evaluation/core/latex_normalize.py:_string_normalize", "math_evaluation/core/constants.py:UNIT_LIST"]}
{"id": "C27", "title": "Dollar signs and LaTeX spacing commands are ignored", "statement": "No string reading contains a dollar sign after normalisation, and inserting a dollar sign or a spacing command (\\! \\, \\: \\;) in a plain answer does not change its normal form.", "quantifier": "all plain strings, all positions", "why_tests_cant": "all inputs", "anchors": ["math_evaluation/core/latex_normalize.py:_string_normalize"]}
{"id": "C28", "title": "Mixed numbers denote a + b/c", "statement": "The normal form of 'a b/c' and 'a\\frac bc' is a sum denoting a + b/c, and that of '-a b/c' denotes -(a + b/c).", "quantifier": "all digit strings a, b, c", "why_tests_cant": "unbounded", "anchors": ["math_evaluation/core/latex_normalize.py:_inject_implicit_mixed_number"]}
{"id": "C29", "title": "\\left and \\right brackets are plain brackets", "statement": "After normalisation no \\left(, \\left[, \\right), \\right] remains and an answer written with them has the same normal form as the one written with plain brackets.", "quantifier": "all strings", "why_tests_cant": "all inputs", "anchors": ["math_evaluation/core/latex_normalize.py:_string_normalize"]}
{"id": "C30", "title": "string_normalize is idempotent", "statement": "Normalising a normal form changes nothing.", "quantifier": "all strings", "why_tests_cant": "all inputs", "anchors": ["math_evaluation/core/latex_normalize.py:string_normalize"]}
{"id": "C31", "title": "Membership prefixes are dropped and nothing else", "statement": "An answer 'x \\in S' has the normal form of S; an answer containing \\infty or \\int but no membership is not altered by this step.", "quantifier": "all strings", "why_tests_cant": "all inputs", "anchors": ["math_evaluation/core/latex_normalize.py:_string_normalize"]}
{"id": "C32", "title": "Scientific notation keeps the value", "statement": "A float literal with an exponent that is an integer normalises to mantissa*10^{exponent} with the same value.", "quantifier": "all float literals", "why_tests_cant": "unbounded", "anchors": ["math_evaluation/core/latex_normalize.py:float_to_latex_scientific", "math_evaluation/core/latex_normalize.py:further_string_normalize"]}
{"id": "C33", "title": "'and'/'or' separate elements like a comma", "statement": "Words and/or between elements (also in \\text{}) are normalised to a comma separator.", "quantifier": "all element strings", "why_tests_cant": "all inputs", "anchors": ["math_evaluation/core/latex_normalize.py:_string_normalize"]}
{"id": "C34", "title": "split_tuple recovers the elements", "statement": "Joining n >= 2 bracket-balanced elements without top-level commas with commas (inside [], (), {} or no brackets) and splitting again gives back exactly these elements, in order, and the kind of bracket.", "quantifier": "all n, all balanced elements that contain no adjacent thousands group", "why_tests_cant": "n and nesting depth unbounded", "anchors": ["math_evaluation/core/latex_normalize.py:split_tuple"]}
{"id": "C35", "title": "split_tuple rejects exactly unbalanced counts", "statement": "split_tuple raises exactly when the number of opening brackets differs from the number of closing brackets.", "quantifier": "all strings", "why_tests_cant": "all inputs", "anchors": ["math_evaluation/core/latex_normalize.py:split_tuple"]}
{"id": "C36", "title": "Elements are never merged", "statement": "Comma-separated numbers are split into as many elements as were listed.", "quantifier": "all lists of integers", "why_tests_cant": "all lists", "anchors": ["math_evaluation/core/latex_normalize.py:split_tuple", "math_evaluation/core/latex_normalize.py:_strip_properly_formatted_commas"]}
{"id": "C37", "title": "split_matrix recovers rows and columns", "statement": "Rendering an m x n array of cells as a LaTeX matrix environment or as nested brackets and splitting gives back the array.", "quantifier": "all shapes, all cells without separators", "why_tests_cant": "shapes unbounded", "anchors": ["math_evaluation/core/latex_normalize.py:split_matrix"]}
{"id": "C38", "title": "CAS comparison tries all pairs of parses", "statement": "are_equal_under_sympy is True exactly when some pair of parse candidates compares equal and no pair before it (in order) raises; otherwise False.", "quantifier": "all candidate lists, all CAS behaviours", "why_tests_cant": "all CAS behaviours", "anchors": ["math_evaluation/core/latex_parser.py:are_equal_with_simplify", "math_evaluation/core/latex_parser.py:are_equal_under_sympy"]}
{"id": "C39", "title": "Parsed lists are compared element-wise in order", "statement": "Two parsed lists compare equal iff they have equal length and corresponding elements compare equal.", "quantifier": "all lengths", "why_tests_cant": "unbounded", "anchors": ["math_evaluation/core/latex_parser.py:_are_equal_latex_sympy"]}
{"id": "C40", "title": "Parsed sets are compared one-to-one", "statement": "Two parsed sets compare equal only if their elements can be paired one-to-one.", "quantifier": "all finite sets", "why_tests_cant": "all sets", "anchors": ["math_evaluation/core/latex_parser.py:_are_equal_latex_sympy"]}
{"id": "C41", "title": "Equations are compared up to overall sign", "statement": "Two equations l=r and l'=r' compare equal iff l-r equals l'-r' or -(l-r) equals l'-r'.", "quantifier": "all equations", "why_tests_cant": "all inputs", "anchors": ["math_evaluation/core/latex_parser.py:_are_equal_latex_sympy"]}
{"id": "C42", "title": "Inequalities are compared up to direction, not strictness", "statement": "a<b and b>a reduce to the same comparison; a strict inequality is never equal to a non-strict one.", "quantifier": "all inequalities, all CAS behaviours", "why_tests_cant": "all inputs", "anchors": ["math_evaluation/core/latex_parser.py:_are_equal_latex_sympy", "math_evaluation/core/latex_parser.py:_ineq_to_expr"]}
{"id": "C43", "title": "Disequations are compared as unordered pairs", "statement": "a != b and c != d compare equal when {a,b} and {c,d} do.", "quantifier": "all disequations", "why_tests_cant": "all inputs", "anchors": ["math_evaluation/core/latex_parser.py:_uneq_to_set", "math_evaluation/core/latex_parser.py:_are_equal_latex_sympy"]}
{"id": "C44", "title": "Parsed matrices are compared by shape and entry", "statement": "Two parsed matrices compare equal iff same shape and all entries compare equal; a list equals a matrix iff it has the same shape up to transposing vectors and equal entries.", "quantifier": "all shapes", "why_tests_cant": "unbounded", "anchors": ["math_evaluation/core/latex_parser.py:_are_equal_latex_sympy", "math_evaluation/core/latex_parser.py:_list_to_mat"]}
{"id": "C45", "title": "Complex numbers need both parts equal", "statement": "Two complex values compare equal iff real parts compare equal and imaginary parts compare equal.", "quantifier": "all values", "why_tests_cant": "all inputs", "anchors": ["math_evaluation/core/latex_parser.py:_are_equal_latex_sympy"]}
{"id": "C46", "title": "Numeric tolerance", "statement": "Two plain real numbers g (reference) and v compare equal iff g = v, or g is 0 and |g-v| < 0.001, or |g| >= 1 and |g-v| < 0.005, or 0 < |g| < 1 and |g-v|/|g| < 0.001.", "quantifier": "all real numbers", "why_tests_cant": "continuum of inputs", "anchors": ["math_evaluation/core/latex_parser.py:_diff_equal", "math_evaluation/core/latex_parser.py:_are_equal_latex_sympy"]}
{"id": "C47", "title": "Random sampling never rejects equal functions and needs equal variables", "statement": "The sampling comparison is False when the free symbols differ and True when both sides evaluate to the same number on every assignment; it draws at most 10 assignments per rng, integers first, then reals.", "quantifier": "all expressions, all random streams", "why_tests_cant": "all random streams", "anchors": ["math_evaluation/core/latex_parser.py:_numerical_equal"]}
{"id": "C48", "title": "Interval answers denote the right point set", "statement": "Unions and intersections of intervals are interpreted as set union and intersection, with the end-point openness given by the brackets.", "quantifier": "all unions of intersections of intervals", "why_tests_cant": "unbounded expressions", "anchors": ["math_evaluation/core/latex_normalize.py:126-160"]}
{"id": "C49", "title": "Untyped and unknown types fall back to is_equiv", "statement": "For an answer type mentioning none of Complex, Set, Vector, Function, is_equiv_type returns is_equiv's verdict.", "quantifier": "all type strings, all answers", "why_tests_cant": "all inputs", "anchors": ["math_evaluation/core/type_evaluations.py:is_equiv_type"]}
{"id": "C50", "title": "A type hint never loses an accepted answer", "statement": "Whenever is_equiv accepts and is_equiv_type does not raise, is_equiv_type accepts.", "quantifier": "all inputs and types", "why_tests_cant": "all inputs", "anchors": ["math_evaluation/core/type_evaluations.py:is_equiv_type"]}
{"id": "C51", "title": "Set and Vector hints do not accept wrong answers", "statement": "is_equiv_type(.., 'Set') / 'Vector' accepts only if the element-wise comparison or is_equiv accepts.", "quantifier": "all inputs", "why_tests_cant": "all inputs", "anchors": ["math_evaluation/core/type_evaluations.py:is_equiv_vector", "math_evaluation/core/type_evaluations.py:is_equiv_set", "math_evaluation/core/type_evaluations.py:is_equiv_type"]}
{"id": "C52", "title": "is_equiv_type is total", "statement": "is_equiv_type never raises, also with the default answer_type.", "quantifier": "all inputs", "why_tests_cant": "all inputs", "anchors": ["math_evaluation/core/type_evaluations.py:is_equiv_type", "math_evaluation/core/type_evaluations.py:is_equiv_complex"]}
{"id": "C53", "title": "Function answers are compared by right-hand side", "statement": "For type Function, two answers whose text after the first '=' is accepted by is_equiv are accepted, whatever the left-hand sides are (provided they parse).", "quantifier": "all answers", "why_tests_cant": "all inputs", "anchors": ["math_evaluation/core/type_evaluations.py:is_equiv_function", "math_evaluation/core/type_evaluations.py:try_to_parse_function"]}
{"id": "C54", "title": "Imaginary unit detection", "statement": "_str_to_complex leaves strings without i/I unchanged, replaces every I, and otherwise replaces exactly those i that are not adjacent to a word character, or directly follow a digit.", "quantifier": "all strings", "why_tests_cant": "all inputs", "anchors": ["math_evaluation/core/latex_normalize.py:_str_to_complex"]}
{"id": "C55", "title": "LLM retries are bounded", "statement": "get_llm_type calls the LLM at most max_try times, stops at the first response that contains a type, returns that type, and returns None exactly when no try succeeded.", "quantifier": "all LLM behaviours (failures, garbage), all max_try", "why_tests_cant": "all response histories", "anchors": ["math_evaluation/llms/llm_models.py:get_llm_type"]}
{"id": "C56", "title": "Answer is quoted by exactly one dollar pair", "statement": "The answer text placed in the prompt always starts and ends with $ and contains exactly two $.", "quantifier": "all answers", "why_tests_cant": "all strings", "anchors": ["math_evaluation/llms/llm_models.py:get_llm_type"]}
{"id": "C57", "title": "Unknown prompt type or provider is rejected before any call", "statement": "get_llm_type raises ValueError without calling the LLM for a prompt type other than 1 or 2; create_llm raises for providers other than openai and tongyi.", "quantifier": "all ints, all provider strings", "why_tests_cant": "all inputs", "anchors": ["math_evaluation/llms/llm_models.py:get_llm_type", "math_evaluation/llms/llm_models.py:create_llm"]}
{"id": "C58", "title": "Extracted type is the rest of the line after Type:", "statement": "The returned type is the text after the first 'Type:' (leading blanks skipped) up to the end of line; it contains no newline.", "quantifier": "all responses", "why_tests_cant": "all strings", "anchors": ["math_evaluation/llms/llm_models.py:get_llm_type"]}
{"id": "C59", "title": "Prompt embeds question and answer verbatim", "statement": "The prompt sent is the template with question and answer inserted verbatim, braces in them are not interpreted.", "quantifier": "all questions and answers", "why_tests_cant": "all strings", "anchors": ["math_evaluation/llms/llm_models.py:get_llm_type", "math_evaluation/llms/prompts.py"]}
{"id": "C60", "title": "Boxed answer extraction", "statement": "extract_boxed returns the text between the last \\boxed{ and the last }, and None when there is no \\boxed{.", "quantifier": "all outputs", "why_tests_cant": "all strings", "anchors": ["example_tora_eval.py:extract_boxed"]}
{"id": "C61", "title": "Accuracy is a proportion", "statement": "The reported accuracy is (number of accepted predictions)/(number of records), between 0 and 1.", "quantifier": "all files", "why_tests_cant": "all inputs", "anchors": ["example_tora_eval.py"]}
{"id": "C62", "title": "latex2sympy preserves arithmetic meaning", "statement": "For every parse tree built from numbers, symbols, + - * / \\frac, powers, unary signs, groups, roots and implicit products, the expression produced has the standard mathematical value under every assignment.", "quantifier": "all parse trees of any depth, all assignments", "why_tests_cant": "trees unbounded", "anchors": ["latex2sympy/latex2sympy2.py:convert_add", "latex2sympy/latex2sympy2.py:convert_mp", "latex2sympy/latex2sympy2.py:convert_unary", "latex2sympy/latex2sympy2.py:convert_frac", "latex2sympy/latex2sympy2.py:add_flat", "latex2sympy/latex2sympy2.py:mul_flat"]}
{"id": "C63", "title": "Variable bindings do not leak between calls", "statement": "The variable_values passed to one latex2sympy call never influence a later call, and within a call every \\variable{} occurrence sees the passed bindings.", "quantifier": "all call histories", "why_tests_cant": "all histories", "anchors": ["latex2sympy/latex2sympy2.py:latex2sympy", "latex2sympy/latex2sympy2.py:convert_frac"]}
{"id": "C64", "title": "Parsing does not depend on history", "statement": "latex2sympy of a string gives the same expression whatever was parsed before.", "quantifier": "all call histories", "why_tests_cant": "all histories", "anchors": ["latex2sympy/latex2sympy2.py:convert_relation", "latex2sympy/latex2sympy2.py:convert_atom"]}
{"id": "C65", "title": "Matrix arrows apply row operations", "statement": "The elementary transforms of a matrix arrow act as the named 1-based row/column operations, are invertible, and swapping twice is the identity; first the second list then the first list is applied.", "quantifier": "all matrices, all transform lists", "why_tests_cant": "unbounded", "anchors": ["latex2sympy/latex2sympy2.py:convert_elementary_transform", "latex2sympy/latex2sympy2.py:convert_matrix"]}
{"id": "C66", "title": "Negated matrices can be parsed", "statement": "A unary minus in front of a matrix denotes its negation.", "quantifier": "all matrices", "why_tests_cant": "all inputs", "anchors": ["latex2sympy/latex2sympy2.py:convert_unary"]}
{"id": "C67", "title": "Subscripts name symbols canonically", "statement": "x_a and x_{a} denote the same symbol for one-character a; different (base, subscript) pairs give different symbols.", "quantifier": "all names", "why_tests_cant": "all strings", "anchors": ["latex2sympy/latex2sympy2.py:convert_atom"]}
{"id": "C68", "title": "Unit removal removes only units", "statement": "The removal of units leaves every answer unchanged that contains no unit as a separate word; words and formulas that merely contain the letters of a unit are not altered.", "quantifier": "all strings", "why_tests_cant": "all strings and all table entries", "anchors": ["math_evaluation/core/latex_normalize.py:_string_normalize", "math_evaluation/core/constants.py:UNIT_LIST"]}
{"id": "C69", "title": "Matrix arithmetic keeps order and meaning", "statement": "Sums, differences, products, juxtapositions and scalar multiples or quotients of square matrices are converted to matrix expressions with the value of matrix algebra; factors are never reordered.", "quantifier": "all nestings of matrix expressions, all sizes, all states", "why_tests_cant": "unbounded expressions and matrices", "anchors": ["latex2sympy/latex2sympy2.py:convert_add", "latex2sympy/latex2sympy2.py:convert_mp", "latex2sympy/latex2sympy2.py:mat_mul_flat", "latex2sympy/latex2sympy2.py:mat_add_flat"]}
{"id": "C70", "title": "Decimal answers are compared by value", "statement": "For all decimal literals g and v, is_equiv(g, v) never raises and is True exactly if the value of v is within the tolerance of C46 around the value of g.", "quantifier": "all pairs of decimal literals, all environments reading literals exactly", "why_tests_cant": "unbounded literals; the verdict passes through normalisation, binary64 rounding, splitting, three parsers and the CAS comparison", "anchors": ["math_evaluation/core/evaluations.py:is_equiv", "math_evaluation/core/evaluations.py:is_latex_equiv", "math_evaluation/core/latex_normalize.py:further_string_normalize", "math_evaluation/core/latex_parser.py:are_equal_under_sympy"]}
{"id": "C71", "title": "Integer answers are accepted iff equal", "statement": "For all integers m and n of at most 53 bits, is_equiv(str(m), str(n)) is True if m = n and False otherwise, in both verbosity modes.", "quantifier": "all pairs of integers up to 2^53 in absolute value, all environments reading literals exactly", "why_tests_cant": "2^107 pairs", "anchors": ["math_evaluation/core/evaluations.py:is_equiv"]}
{"id": "C72", "title": "Calculus notation means what it says", "statement": "For all parse trees, a sum, product, series, definite or improper integral and a derivative operator over a body are converted to an expression whose value is the sum, product, series, integral or derivative of the function the body denotes, with the written variable bound and the written bounds.", "quantifier": "all parse trees of the fragment of C62, all bounds, all assignments of the symbols, all libraries building the requested objects", "why_tests_cant": "a swapped bound or a wrongly bound variable shows only for bodies that are not symmetric in it; bodies are unbounded", "anchors": ["latex2sympy/latex2sympy2.py:handle_integral", "latex2sympy/latex2sympy2.py:handle_sum_or_prod", "latex2sympy/latex2sympy2.py:convert_frac"]}
{"id": "C73", "title": "Limits are taken from the written side", "statement": "For all parse trees, a limit is converted to an expression whose value is the limit of the body from the written side, or the two-sided limit if no side is written; a limit that does not exist gets no value.", "quantifier": "all parse trees of the fragment of C62, all points, all assignments", "why_tests_cant": "for continuous bodies both sides agree, so ordinary samples cannot tell the sides apart", "anchors": ["latex2sympy/latex2sympy2.py:handle_limit"]}
{"id": "C74", "title": "Points are compared coordinate by coordinate", "statement": "For all lists of at least two decimal literals in round or square brackets, is_equiv is True if and only if the brackets are the same, the lengths are the same and every coordinate of the prediction is within the tolerance of the reference coordinate.", "quantifier": "all lists of literals of any length, both kinds of brackets, all environments computing exactly", "why_tests_cant": "lists are unbounded and the verdict goes through four stages (normalisation, interval, tuple, CAS) any of which may accept too early; sampled points seldom have equal coordinates", "anchors": ["math_evaluation/core/evaluations.py:is_equiv", "math_evaluation/core/evaluations.py:is_equiv_possible_intervals", "math_evaluation/core/evaluations.py:is_equiv_possible_tuple", "math_evaluation/core/latex_normalize.py:126-160"]}
{"id": "C75", "title": "Unordered lists of integers are compared as sets", "statement": "For all lists of at least two integers written with commas and without brackets, is_equiv is True if and only if the same integers occur in both, whatever the order, the repetitions and the iteration order of Python sets.", "quantifier": "all lists of integers (53 bits, below 100 after the first), all set iteration orders", "why_tests_cant": "unbounded lists; the hash seed changes the iteration order from run to run", "anchors": ["math_evaluation/core/evaluations.py:is_equiv", "math_evaluation/core/evaluations.py:is_equiv_possible_tuple", "math_evaluation/core/latex_normalize.py:split_tuple"]}
{"id": "C76", "title": "LaTeX notation is read with the usual precedence", "statement": "For all texts written in ordinary LaTeX notation (decimal numbers, percentages, variables (Latin and Greek letters), pi, e, sums, products with and without operators, quotients, signs, powers, factorials, brackets, absolute values, floors, ceilings, fractions, roots, binomial coefficients, remainders, sums and products with a range, limits, derivatives, logarithms, functions and inverse functions applied to arguments in parentheses or to the product without operators that follows), latex2sympy returns an expression whose value is the value of the notation under the usual precedence of operators, however blanks are placed.", "quantifier": "all texts of the notation of any length and nesting, all values of the variables, all states of the converter", "why_tests_cant": "the grammar is ambiguous and unboundedly nested; which parse ANTLR prefers depends on everything that follows, so that a wrong precedence shows up only for particular combinations of neighbours", "anchors": ["latex2sympy/PS.g4", "latex2sympy/latex2sympy2.py:latex2sympy", "latex2sympy/gen/PSParser.py", "latex2sympy/gen/PSLexer.py"]}
{"id": "C77", "title": "Argument of a function without parentheses", "statement": "A function that is written without parentheses is applied to the factors that follow it up to the next operator or function: `\\sin x \\cdot \\cos x` is sin(x)·cos(x), and `\\sin 2x\\cos y` is sin(2x)·cos(y).", "quantifier": "all functions, arguments and texts of the notation", "why_tests_cant": "depends on the combination of the argument, the operator and what follows; the converter answers without any sign that it has read another product", "anchors": ["latex2sympy/PS.g4:mp_nofunc", "latex2sympy/PS.g4:func", "latex2sympy/latex2sympy2.py:convert_func"]}
{"id": "C78", "title": "Index and exponent without braces", "statement": "A subscript or an exponent without braces is the one character that follows, as in TeX: `\\log_2 16` is the logarithm of 16 to the base 2.", "quantifier": "all texts of the notation", "why_tests_cant": "right for every one-digit argument and for every argument that begins with a letter or a bracket; wrong for all others", "anchors": ["latex2sympy/PS.g4:subexpr", "latex2sympy/PS.g4:supexpr", "latex2sympy/PS.g4:number"]}
{"id": "C79", "title": "Evaluation bars", "statement": "An expression followed by an evaluation bar with limits is the value at the upper limit minus the value at the lower limit, and with one limit the value there, whether or not the limits name the variable and in either order of the limits.", "quantifier": "all expressions, limits and texts", "why_tests_cant": "the wrong readings are well-formed expressions; whether a limit is used depends on the symbols in it", "anchors": ["latex2sympy/latex2sympy2.py:do_subs", "latex2sympy/latex2sympy2.py:convert_postfix", "latex2sympy/PS.g4:eval_at"]}
{"id": "C80", "title": "Acceptance always has a reason", "statement": "is_equiv(a, b) is True exactly if a and b are equal up to surrounding white space, or normalise to the same string, or some pair of their readings is accepted by is_latex_equiv after all pairs before were rejected without an exception; an exception never counts as acceptance.", "quantifier": "all answers, all environments, all states", "why_tests_cant": "all environments, including those that raise at any point", "anchors": ["math_evaluation/core/evaluations.py:is_equiv"]}
{"id": "C81", "title": "Declared matrices have the declared size", "statement": "After `A \\in R^{n \\times m}` the name A is a matrix symbol with n rows and m columns; every other exponent is refused with an explanation.", "quantifier": "all names, sizes and states", "why_tests_cant": "all states and sizes; wrong declarations go through silently", "anchors": ["latex2sympy/latex2sympy2.py:convert_relation", "latex2sympy/latex2sympy2.py:convert_atom"]}
{"id": "C82", "title": "Numbers are judged by value in every notation", "statement": "Two answers written as decimals, fractions b/c or \\frac{b}{c}, or mixed numbers (with either fraction), with or without a sign, are accepted exactly if their values are within the tolerance; two spellings of one number are interchangeable.", "quantifier": "all numbers in all these notations, all pairs of notations, all states", "why_tests_cant": "infinitely many numbers times all pairs of notations; the wrong readings are well-formed numbers", "anchors": ["math_evaluation/core/latex_normalize.py:string_normalize", "math_evaluation/core/evaluations.py:is_equiv", "math_evaluation/core/evaluations.py:is_latex_equiv"]}
{"id": "C83", "title": "Typed checks compare the right texts, and an exception is no acceptance", "statement": "If is_equiv_type accepts, then is_equiv accepted the answers, or: for Complex, the normal forms with the imaginary unit marked were accepted by is_latex_equiv; for Set, the texts inside the brackets of the normal forms were compared without an exception; for Vector, the normal forms put into brackets were compared without an exception; for Function, is_equiv accepted the texts after the first '=' of the normal forms.", "quantifier": "all answers, environments and states", "why_tests_cant": "all environments, including those that raise at any point", "anchors": ["math_evaluation/core/type_evaluations.py:is_equiv_type", "math_evaluation/core/type_evaluations.py:is_equiv_complex", "math_evaluation/core/type_evaluations.py:is_equiv_set", "math_evaluation/core/type_evaluations.py:is_equiv_vector", "math_evaluation/core/type_evaluations.py:is_equiv_function"]}
{"id": "C84", "title": "Answers in LaTeX notation are judged by the values they denote", "statement": "Two answers without variables, written in LaTeX notation (sums, products, quotients, powers, roots, fractions, brackets, functions, decimals), are accepted exactly if the numbers they denote by the usual rules of precedence are within the tolerance; two notations of one number are always accepted.", "quantifier": "all texts of the notation, all pairs of them, all states", "why_tests_cant": "infinitely many expressions and pairs; normaliser, lexer, parser, converter and comparison all take part", "anchors": ["math_evaluation/core/evaluations.py:is_equiv", "math_evaluation/core/evaluations.py:is_latex_equiv", "math_evaluation/core/latex_normalize.py:string_normalize", "math_evaluation/core/latex_parser.py:are_equal_under_sympy", "math_evaluation/core/latex_parser.py:_sympy_parse"]}
{"id": "C85", "title": "Texts of sums, products, series, derivatives and limits are converted to their values", "statement": "For all texts \\sum_{i=a}^{b} t, \\prod_{i=a}^{b} t, \\sum_{i=a}^{\\infty} t, \\frac{d}{dx} t, \\lim_{x\\to p^{+}} t, \\lim_{x\\to p^{-}} t, \\lim_{x\\to p} t (if it exists) and \\lim_{x\\to\\pm\\infty} t whose parts are texts of the notation, with Latin or Greek variables and blanks anywhere, latex2sympy returns an expression whose value is the sum, product, series, derivative or limit of the function written as t.", "quantifier": "all bounds, points, bodies, variables and values of other variables, all states of the converter", "why_tests_cant": "bodies are unboundedly nested, and how far the body extends depends on everything that follows; the values are those of analysis", "anchors": ["latex2sympy/PS.g4", "latex2sympy/latex2sympy2.py:convert_func", "latex2sympy/latex2sympy2.py:handle_sum_or_prod", "latex2sympy/latex2sympy2.py:handle_limit", "latex2sympy/latex2sympy2.py:convert_frac"]}
{"id": "C86", "title": "Texts of integrals are converted to the integral", "statement": "For all texts \\int_{a}^{b} t dx whose bounds (also infinite) and integrand are texts of the notation, alone and as parts of other expressions, latex2sympy returns an expression whose value is the integral of the function of x written as t.", "quantifier": "all bounds, integrands, variables and values of other variables, all states of the converter", "why_tests_cant": "where the integrand ends depends on everything that follows, and integrands are unboundedly nested; the values are those of analysis", "anchors": ["latex2sympy/PS.g4", "latex2sympy/latex2sympy2.py:convert_func", "latex2sympy/latex2sympy2.py:handle_integral", "latex2sympy/latex2sympy2.py:get_differential_var"]}
{"id": "C87", "title": "Texts of lists and relations are converted item by item", "statement": "For all texts that list two or more items separated by commas or by semicolons, without brackets or in [...], \\{...\\}, \\left[...\\right], \\left\\{...\\right\\}, where each item is an expression or a relation (=, <, >, \\leq, \\geq, \\neq, ...) between two expressions, latex2sympy returns the list of what the items say, in order; a text of a single relation is converted to that relation between the values of its sides.", "quantifier": "all numbers of items, all expressions as items or sides, all separators and brackets, all states of the converter", "why_tests_cant": "commas also occur inside numbers, brackets and arguments of functions at any depth; that no other complete parse comes first is a statement about all parses", "anchors": ["latex2sympy/PS.g4", "latex2sympy/latex2sympy2.py:latex2sympy", "latex2sympy/latex2sympy2.py:convert_relation"]}
{"id": "C88", "title": "The lexer divides every text into longest matches", "statement": "For all texts, the lexer returns the tokens ts exactly if ts is the division of the text from left to right into longest matches of the rules of the grammar, ties going to the earlier rule; blanks and \\$ are skipped, nothing else is lost, and a text with a position where no rule matches is rejected.", "quantifier": "all texts", "why_tests_cant": "that a longer match never exists and that an earlier rule never matches is a statement about all rules and all continuations", "anchors": ["latex2sympy/PS.g4", "latex2sympy/gen/PSLexer.py", "latex2sympy/latex2sympy2.py:latex2sympy"]}
{"id": "C89", "title": "Texts with unbalanced brackets are rejected", "statement": "For all texts read as a whole by latex2sympy, there are as many opening as closing round, square and curly brackets, and no bracket is closed before it is opened; if only a beginning of the text is read, this holds for the beginning; other texts raise an exception.", "quantifier": "all texts, all states of the converter", "why_tests_cant": "that no derivation of an unbalanced text exists is a statement about all parses of all rules", "anchors": ["latex2sympy/PS.g4", "latex2sympy/gen/PSParser.py", "latex2sympy/latex2sympy2.py:latex2sympy"]}
{"id": "C90", "title": "Matrices, determinants and matrix expressions are read from the text", "statement": "For all texts \\begin{pmatrix} a & b \\\\ c & d \\end{pmatrix} (or bmatrix) with any number of rows and columns, latex2sympy returns the matrix with the values of the entries in their places; vmatrix is converted to the determinant; sums, differences, products and multiples of square matrices have the value of matrix algebra, in order.", "quantifier": "all texts of matrices of any shape, of determinants of any size and of matrix expressions of any nesting; all blanks between the signs; all values of the letters; all states of the converter", "why_tests_cant": "shapes, nesting and entries are unbounded; order of rows, columns and factors shows only in asymmetric examples", "anchors": ["latex2sympy/PS.g4", "latex2sympy/gen/PSParser.py", "latex2sympy/latex2sympy2.py:convert_matrix"]}
{"id": "C91", "title": "The texts accepted are exactly those of the grammar", "statement": "For all texts, the parser has a parse of the whole text exactly if the tokens of the text are derived from the rule math of PS.g4; whenever latex2sympy returns a value, a beginning of the text is derived by the grammar.", "quantifier": "all texts, all sequences of tokens", "why_tests_cant": "both that every derivable text is accepted and that no other text is are statements about infinitely many texts", "anchors": ["latex2sympy/PS.g4:351-642", "latex2sympy/gen/PSParser.py", "latex2sympy/latex2sympy2.py:latex2sympy"]}
{"id": "C92", "title": "The parse tree stands for the text", "statement": "For all texts, every part of the parse tree stands for the part of the text where it was written, in the role in which it was written; numbers and names have the text of their tokens; no token of the text is left out, used twice or exchanged with another.", "quantifier": "all texts, all sequences of tokens, all parses", "why_tests_cant": "a swap of two children in a rare combination of rules is visible only in texts that combine just these", "anchors": ["latex2sympy/PS.g4:351-642", "latex2sympy/gen/PSParser.py", "latex2sympy/latex2sympy2.py:latex2sympy"]}
{"id": "C93", "title": "Precedence and associativity of operators", "statement": "For all texts, sums, differences, products and quotients are read from the left, chains of powers from the right, multiplication binds closer than addition, and signs, postfix operators and powers bind closer than multiplication.", "quantifier": "all texts, all nodes of their trees", "why_tests_cant": "the order is a property of all nodes of all trees of unbounded depth", "anchors": ["latex2sympy/PS.g4:397-443", "latex2sympy/gen/PSParser.py", "latex2sympy/latex2sympy2.py:convert_add"]}
{"id": "C94", "title": "Answers with variables are judged by the functions they denote", "statement": "For all pairs of answers in LaTeX notation with variables, the verdict is True if they denote the same function of the same variables and False if they denote different functions, whatever random numbers are drawn and whatever SymPy's simplification finds.", "quantifier": "all pairs of texts, all functions, all sequences of random numbers, all CAS environments that compute exactly", "why_tests_cant": "the verdict depends on random sampling and on what simplify happens to find for each pair; a test sees one run of one pair", "anchors": ["math_evaluation/core/latex_parser.py:239-283", "math_evaluation/core/latex_parser.py:409-450", "math_evaluation/core/evaluations.py:is_equiv", "latex2sympy/latex2sympy2.py:latex2sympy"]}
{"id": "C95", "title": "Lists of answers in LaTeX notation are compared element by element", "statement": "For all lists of answers in LaTeX notation, in round or square brackets or without brackets, the verdict is True exactly if the brackets are the same and the values of the elements agree within the tolerance: in order if in brackets, in any order if not.", "quantifier": "all lists of any length, all texts of elements, all environments that compute exactly", "why_tests_cant": "the number of elements, their notations and their order are unbounded; intervals and tuples share a notation, so that the verdict depends on which reading is tried first", "anchors": ["math_evaluation/core/evaluations.py:58-79", "math_evaluation/core/evaluations.py:82-141", "math_evaluation/core/evaluations.py:is_equiv"]}
{"id": "C96", "title": "Matrices of answers in LaTeX notation are compared entry by entry", "statement": "For all matrices of answers in LaTeX notation in `matrix` environments, the verdict is True exactly if the matrices have the same shape (a row vector is a column vector) and the values of corresponding entries agree within the tolerance.", "quantifier": "all arrays of any size, all texts of entries, all environments that compute exactly", "why_tests_cant": "the number of rows and columns and the notations of the entries are unbounded; row separators and column separators pass through the whole string normalisation", "anchors": ["math_evaluation/core/evaluations.py:144-183", "math_evaluation/core/latex_normalize.py:116-130", "math_evaluation/core/evaluations.py:is_equiv"]}
{"id": "C97", "title": "Unions of intervals are judged by the sets of points they denote", "statement": "For all unions of intervals, bounded or not, the verdict is True exactly if the two unions contain the same points, in whatever order and with whatever overlaps the intervals are written.", "quantifier": "all numbers of intervals, all texts of end points, all bracket kinds, all environments whose set operations are exact", "why_tests_cant": "the number of intervals and the notations of the end points are unbounded; the same text passes through the normalisation, the interval stage, the list stage and the parsers", "anchors": ["math_evaluation/core/evaluations.py:58-97", "math_evaluation/core/latex_normalize.py:126-160", "math_evaluation/core/evaluations.py:is_equiv"]}
{"id": "C98", "title": "Answers of different kinds are never judged equivalent", "statement": "A number, a list, a matrix and a union of intervals are never judged equivalent to each other, in either order, whatever their texts.", "quantifier": "all literals, expressions, lists, matrices and unions of intervals; all environments that print the integers they read", "why_tests_cant": "the texts of every kind are unbounded, and each pair of kinds runs through a different sequence of stages, with fall-through from one to the next", "anchors": ["math_evaluation/core/evaluations.py:58-182", "math_evaluation/core/evaluations.py:is_latex_equiv"]}
{"id": "C99", "title": "Matrices in different notations are compared entry by entry", "statement": "A matrix in a LaTeX environment and a matrix in nested brackets, or a vector written as a list, are judged equivalent, in either order, exactly if they have the same shape (row vectors being column vectors) and corresponding entries are judged equivalent.", "quantifier": "all sizes, all texts of the entries, all environments and bracket kinds, all parsers and computer algebra systems that decide the entries", "why_tests_cant": "sizes and entries are unbounded; the two notations are split by different code and pass through the list stage, which rejects them before the matrix stage accepts", "anchors": ["math_evaluation/core/evaluations.py:100-182", "math_evaluation/core/latex_normalize.py:480-540"]}
{"id": "C100", "title": "Equations, inequalities and definitions are compared from the text to the verdict", "statement": "Two equations in LaTeX notation are judged equivalent if the differences of their sides are the same function up to the sign, two inequalities if the differences, smaller side minus greater side, are the same function; they are judged not equivalent if these functions are nowhere within the tolerance. Strict and non-strict inequalities, and different disequations, are not equivalent. Equations that define a name are judged by their right sides, also against a bare expression.", "quantifier": "all texts in LaTeX notation without words with a meaning to the normaliser, all functions of any number of variables, all values drawn, all computer algebra systems that compute correctly (but may raise or find nothing)", "why_tests_cant": "the texts, the functions and the values drawn for the variables are unbounded, and the verdict depends on which of three parsers contribute candidates", "anchors": ["math_evaluation/core/latex_parser.py:22-74", "math_evaluation/core/latex_parser.py:108-167", "math_evaluation/core/latex_parser.py:324-347", "math_evaluation/core/latex_parser.py:400-450"]}
{"id": "C101", "title": "The helper functions that classify texts accept exactly the described texts", "statement": "`should_allow_eval` allows a text exactly if at most two different letters remain when `sqrt` and `frac` are removed, no `^` is followed by a brace or parenthesis, and no `^` is followed by two digits or by digits and another `^`; `_is_frac` accepts exactly the texts that are fractions.", "quantifier": "all texts; for `should_allow_eval` every notion of letter", "why_tests_cant": "the texts are unbounded, and a pattern with a character class instead of a word behaves correctly on all fractions", "anchors": ["math_evaluation/core/latex_parser.py:77-97", "math_evaluation/core/latex_normalize.py:80-81", "math_evaluation/core/latex_normalize.py:112-113", "math_evaluation/core/constants.py:21-22"]}
{"id": "C102", "title": "Sets in braces are judged as sets", "statement": "Two finite sets of numbers written `\\{a,b,...\\}` are judged equivalent exactly if they have the same elements within the tolerance; a set in plain braces `{a,b,...}` is judged as the same set.", "quantifier": "all element texts and their number, all values, all computer algebra systems with real arithmetic", "why_tests_cant": "the sets and the notations of their elements are unbounded; whether the order of the elements matters shows only on reordered sets", "anchors": ["math_evaluation/core/evaluations.py:58-79", "math_evaluation/core/evaluations.py:100-142", "math_evaluation/core/latex_normalize.py:384-387", "math_evaluation/core/latex_normalize.py:435-494", "math_evaluation/core/latex_parser.py:286-451"]}
{"id": "C103", "title": "The AsciiMath printer writes every construction in AsciiMath notation", "statement": "Limits, integrals with and without bounds, sums, products, factorials, derivatives, absolute values, equations, powers and roots are printed in AsciiMath notation from the texts of their parts, and different expressions get different texts.", "quantifier": "all expression trees, all inherited printing methods", "why_tests_cant": "expressions are nested without bound; the failures need a construction, such as a limit, that no test prints", "anchors": ["latex2sympy/asciimath_printer.py:4-50"]}
{"id": "C104", "title": "Reports of syntax errors show the source, the position and the expected tokens", "statement": "For every syntax error an exception is raised whose text consists of an explanation naming exactly the expected tokens if they are fewer than ten, the source, and a marker below the offending character.", "quantifier": "all sources, messages, positions and sets of expected tokens, every table of token names", "why_tests_cant": "positions, sources and sets of tokens are unbounded; the errors need a special token or a text of several lines", "anchors": ["latex2sympy/latex2sympy2.py:117-141", "latex2sympy/gen/PSParser.py:452-500"]}
{"id": "C105", "title": "The script for answer types prints one line per question and never fails with a key", "statement": "Without a key the script stops with ValueError before anything is sent; with one it prints one line per question, in order: the type named by the first of at most five responses that names one, or None.", "quantifier": "all behaviours of the service, all lists of questions and answers, all keys", "why_tests_cant": "the service may fail, answer or change at any call", "anchors": ["llm_type.py:1-44", "math_evaluation/llms/llm_models.py:45-80"]}
{"id": "C106", "title": "A number and an expression whose value varies are never judged equivalent", "statement": "For every answer without variables and every answer that denotes a function taking at least two values, the verdict is False, whichever of them is the reference, whatever random numbers are drawn and whatever SymPy's expansion and simplification find.", "quantifier": "all pairs of texts, all numbers, all functions, all CAS environments that compute exactly", "why_tests_cant": "the function may agree with the number at all points tried; the verdict depends on what simplify returns for each pair", "anchors": ["math_evaluation/core/latex_parser.py:259-283", "math_evaluation/core/latex_parser.py:409-450", "math_evaluation/core/evaluations.py:is_equiv"]}
{"id": "C107", "title": "Complex numbers are judged by their real and imaginary parts", "statement": "For all pairs of answers in LaTeX notation that are complex numbers when i is the imaginary unit, the verdict is True exactly if the real parts and the imaginary parts agree within the tolerance; i is the imaginary unit in every answer.", "quantifier": "all pairs of texts and literals, all complex numbers, all CAS environments that compute exactly", "why_tests_cant": "the values of the parts are unbounded, and the replacement of i depends on which symbols the other parts of an answer leave", "anchors": ["math_evaluation/core/latex_parser.py:170-178", "math_evaluation/core/latex_parser.py:382-398", "math_evaluation/core/evaluations.py:is_equiv"]}
{"id": "C108", "title": "Lists and matrices of formulas and of complex numbers are judged element by element", "statement": "For all pairs of lists or matrices whose elements are formulas with or without variables, or complex numbers, the verdict is True exactly if brackets or shape agree and corresponding elements have the same variables and values, respectively the same real and imaginary parts, within the tolerance.", "quantifier": "all pairs of lists of any length and matrices of any shape, all formulas and complex numbers in LaTeX notation, all CAS environments that compute exactly, all values drawn", "why_tests_cant": "lists and matrices are unbounded in size, and each element goes through normalisation, parsing and random sampling of its own", "anchors": ["math_evaluation/core/evaluations.py:is_equiv", "math_evaluation/core/latex_parser.py:are_equal_under_sympy"]}
{"id": "C109", "title": "Solutions of systems are judged by names and values", "statement": "For all pairs of answers that give variables the values of numbers, such as x=1,y=2, the verdict is True exactly if both give the same values to the same variables; bare numbers are judged as values.", "quantifier": "all lists of equations of names and numbers and of bare numbers, of any length, all CAS environments that compute exactly", "why_tests_cant": "names and values are unbounded, and the verdict comes from the interplay of list splitting, the kinds of relations and the comparison of right sides", "anchors": ["math_evaluation/core/latex_parser.py:400-407", "math_evaluation/core/latex_parser.py:108-139", "math_evaluation/core/evaluations.py:is_equiv"]}
{"id": "C110", "title": "Points whose coordinates are formulas are judged coordinate by coordinate", "statement": "For all pairs of formulas in round or square brackets, such as (x,2x), the verdict is True exactly if the brackets are the same and corresponding coordinates have the same variables and values.", "quantifier": "all pairs of formulas, all brackets, all CAS environments that compute exactly", "why_tests_cant": "the formulas are unbounded, and the verdict comes from the interplay of two readings, as an interval and as a list", "anchors": ["math_evaluation/core/latex_normalize.py:126-158", "math_evaluation/core/evaluations.py:is_latex_equiv", "math_evaluation/core/evaluations.py:is_equiv"]}
{"id": "C111", "title": "The verdict on functions does not depend on chance", "statement": "For all pairs of answers that denote functions of variables, the verdict is the same whatever random numbers are drawn, and functions that differ beyond the tolerance somewhere are not judged equivalent in every run.", "quantifier": "all pairs of formulas with variables, all sequences of random numbers, all CAS environments that compute exactly", "why_tests_cant": "a test sees one sequence of random numbers per run, and the formulas are unbounded", "anchors": ["math_evaluation/core/latex_parser.py:239-256", "math_evaluation/core/latex_parser.py:441-450"]}
{"id": "C112", "title": "The verdict is transitive", "statement": "For all answers a, b, c that denote numbers: if a and b are judged equivalent and b and c are, so are a and c.", "quantifier": "all triples (and chains of any length) of answers in LaTeX notation, all CAS environments that compute exactly", "why_tests_cant": "the answers and the length of the chains are unbounded", "anchors": ["math_evaluation/core/latex_parser.py:259-283", "math_evaluation/core/evaluations.py:is_equiv"]}
{"id": "C113", "title": "Formulas in several variables are judged by independent random values", "statement": "Every variable receives a random number of its own: two formulas of the same variables whose difference is not nearly constant are judged equivalent whatever is drawn if and only if they agree within the tolerance at all points whose coordinates are whole numbers from 1 to 10, and for every point of disagreement there are draws that lead to rejection.", "quantifier": "all pairs of formulas in the same variables (any number), all points, all random sources", "why_tests_cant": "the formulas, the number of variables and the sequences of random numbers are unbounded", "anchors": ["math_evaluation/core/latex_parser.py:239-256", "math_evaluation/core/latex_parser.py:441-450"]}
{"id": "C114", "title": "Chains of inequalities are compared by text only", "statement": "A chain of relations such as 1<x<3 is read as a relation whose left side is the chain without its last part. A chain of two or more relations is therefore judged equivalent to no other text that is a chain of relations or an inequality, whatever its parts mean.", "quantifier": "all chains of any number of relations between expressions, all CAS's that keep relations of relations and have no arithmetic of relations", "why_tests_cant": "the expressions and the number of relations are unbounded", "anchors": ["latex2sympy/latex2sympy2.py:144-164", "math_evaluation/core/latex_parser.py:108-160"]}
{"id": "C115", "title": "An equation that defines a name is judged against any equation by the right sides", "statement": "If the left side of at least one of two different equations is a name, the verdict is that on the two right sides, whatever the other left side is: for numbers, True exactly if they agree within the tolerance; for formulas as for bare formulas; False for a number and a formula that varies.", "quantifier": "all pairs of equations in LaTeX notation of which one has a name as its left side, all CAS's that compute exactly", "why_tests_cant": "the left sides, right sides and random numbers are unbounded", "anchors": ["math_evaluation/core/latex_parser.py:115-127", "math_evaluation/core/latex_parser.py:400-407"]}
{"id": "C116", "title": "Numbers with units, dollar signs, spacing and degree signs are judged by their values", "statement": "Two different answers, each a number without variables, possibly with dollar signs and spacing commands, or a decimal literal with a unit or a degree sign, are judged equivalent exactly if a value of the one and a value of the other agree within the tolerance, where a literal with a degree sign has as values the number and the number of radians, and any other answer its number; units are not compared.", "quantifier": "all pairs of such answers in either order, all CAS's that compute exactly", "why_tests_cant": "numbers, units, positions of the marks and numerical notations combine without bound", "anchors": ["math_evaluation/core/evaluations.py:29-55", "math_evaluation/core/latex_normalize.py:_string_normalize", "math_evaluation/core/constants.py:UNIT_LIST"]}
{"id": "C117", "title": "Inequalities, equations and expressions are not judged equivalent to each other", "statement": "An inequality or a chain of relations is never judged equivalent to a number, to a formula or to an equation that defines a name; an equation that defines no name is never judged equivalent to a number or a formula; an inequality is not judged equivalent to an equation that defines no name unless they hold for the same values of the variables; a chain of two or more relations, the last of which is not ≠, is never judged equivalent to an equation that defines no name.", "quantifier": "all pairs of such answers in LaTeX notation, in either order, all random numbers, all CAS's that do no arithmetic with relations", "why_tests_cant": "the sides of the relations, the numbers and the formulas vary without bound, and the sampling draws random numbers", "anchors": ["math_evaluation/core/latex_parser.py:286-450", "math_evaluation/core/latex_parser.py:103-131", "math_evaluation/core/evaluations.py:29-55"]}
{"id": "C118", "title": "Functions of several arguments are applied to the values of all arguments in their order", "statement": "latex2sympy of a text \\gcd, \\lcm, \\max or \\min with arguments in parentheses, with any blanks and with or without \\left and \\right, returns the value of the function of the values of the arguments, in their order.", "quantifier": "all numbers of arguments, all arguments in LaTeX notation, all states of the converter, all interpretations of the functions", "why_tests_cant": "the arguments and their number vary without bound; the grammar has several ways to read what follows the opening parenthesis, and the arguments are read a second time from their text", "anchors": ["latex2sympy/latex2sympy2.py:901-947", "latex2sympy/PS.g4:569-602", "latex2sympy/PS.g4:635"]}
{"id": "C119", "title": "The definition of a function is judged by its right side only", "statement": "is_equiv of a definition f(x)=... or f^{-1}(x)=... and another definition, an equation y=... or a formula or number alone gives the verdict on the right sides, in either order, whatever the letters of the functions and arguments.", "quantifier": "all letters, all right sides in LaTeX notation, all spellings, all behaviours of the CAS that compute correctly", "why_tests_cant": "letters, formulas and spellings vary without bound, and the parser chooses between an application and a product", "anchors": ["latex2sympy/latex2sympy2.py:948-964", "latex2sympy/PS.g4:603-605", "latex2sympy/PS.g4:623", "math_evaluation/core/latex_parser.py:116-126", "math_evaluation/core/latex_parser.py:401-407"]}
{"id": "C120", "title": "The value of a function at arguments is read in full and judged by the right side", "statement": "latex2sympy reads f(a,b,...)=... and f^{-1}(a,b,...)=... as the equation between the function f of SymPy at the values of all arguments in their order (or one over it) and the right side; is_equiv judges such an equation as its right side.", "quantifier": "all letters, all lists of arguments and right sides in LaTeX notation, all spellings, all behaviours of the CAS that compute correctly", "why_tests_cant": "the number of arguments, the arguments and the right sides vary without bound, and the arguments are parsed twice, the second time piece by piece from their text", "anchors": ["latex2sympy/latex2sympy2.py:948-964", "latex2sympy/PS.g4:603-605", "latex2sympy/PS.g4:621-623", "math_evaluation/core/latex_parser.py:116-126", "math_evaluation/core/latex_parser.py:401-407"]}
{"id": "C121", "title": "Commas inside brackets do not split an answer: values of functions of several variables are judged as a whole", "statement": "is_equiv of f(a,b,...)=... or f^{-1}(a,b,...)=... and another such equation, an equation y=... or a formula or number alone gives the verdict on the right sides: the answer is neither split at the commas of the arguments nor taken for an interval.", "quantifier": "all letters, all lists of arguments and right sides in LaTeX notation, all spellings, all behaviours of the CAS that compute correctly", "why_tests_cant": "the number of arguments, the arguments and the right sides vary without bound, and three readings of the text (interval, list, equation) compete", "anchors": ["math_evaluation/core/evaluations.py:66-79", "math_evaluation/core/latex_normalize.py:126-158", "math_evaluation/core/latex_normalize.py:435-493", "math_evaluation/core/latex_parser.py:116-126"]}
{"id": "C122", "title": "Lists of inequalities are judged inequality by inequality", "statement": "is_equiv of two lists or matrices of inequalities such as x<-1,x>3 is True exactly if corresponding inequalities are both strict or both not strict and have the same difference of sides, in any order for lists without brackets; 'and' and 'or' between them are told apart.", "quantifier": "all lists and matrices of inequalities in LaTeX notation, of any length, all CAS environments that compute correctly", "why_tests_cant": "the inequalities and the lengths of the lists vary without bound, and the verdict comes from the interplay of list splitting, strictness and sampling", "anchors": ["math_evaluation/core/evaluations.py:is_equiv", "math_evaluation/core/latex_parser.py:108-139", "math_evaluation/core/latex_normalize.py:126-158"]}
{"id": "C123", "title": "Maxima, minima, divisors and multiples of several arguments are judged by their values", "statement": "is_equiv of \\max, \\min, \\gcd or \\lcm of several arguments and another such answer, a formula or a number gives the verdict on the values: the answer is neither split at the commas of the arguments nor taken for an interval (violated by three digits after a comma, which are taken for thousands).", "quantifier": "all lists of arguments in LaTeX notation, all spellings, all behaviours of the CAS that compute correctly", "why_tests_cant": "the number of arguments and the arguments vary without bound, and three readings of the text (interval, list, expression) compete", "anchors": ["math_evaluation/core/evaluations.py:66-79", "math_evaluation/core/latex_normalize.py:126-158", "math_evaluation/core/latex_normalize.py:435-493", "latex2sympy/latex2sympy2.py:901-947"]}
{"id": "C124", "title": "Unions of intersections of intervals are judged by the sets of points they denote", "statement": "For all unions of intersections of intervals, bounded or not, the verdict is True exactly if the two answers denote the same set of points.", "quantifier": "all numbers of intersections and of intervals in each, all texts of end points, all bracket kinds, all environments whose set operations are exact", "why_tests_cant": "the number of intervals, the way they are joined and the notations of the end points are unbounded", "anchors": ["math_evaluation/core/evaluations.py:58-97", "math_evaluation/core/latex_normalize.py:126-160"]}
{"id": "C125", "title": "Functions of several arguments without parentheses are refused and never intervals", "statement": "latex2sympy raises on every text that begins with \\gcd, \\lcm, \\max or \\min and contains no opening parenthesis; therefore no answer that begins with one of these, as \\max(x,3), is taken for an interval although it has one comma between brackets.", "quantifier": "all texts after the command, all states of the module, all behaviours of the CAS", "why_tests_cant": "what follows the command is any text, which may parse in any way or not at all", "anchors": ["latex2sympy/latex2sympy2.py:901-947", "latex2sympy/PS.g4:588-600", "latex2sympy/PS.g4:635-636", "math_evaluation/core/latex_normalize.py:435-493"]}
{"id": "C126", "title": "A product is the product of its factors, whatever the letters", "statement": "Letters side by side are converted to their product; a letter, a sign of multiplication (*, \\times or \\cdot) and a factor are converted to the product of the letter and the factor, for every letter (violated: after d a letter or a command is read as part of the symbol).", "quantifier": "all letters, all factors of the notation, all blanks and commands after d, all states of the module", "why_tests_cant": "the lexer decides by the longest match, which depends on the letter and on any text after it; tests use x and y", "anchors": ["latex2sympy/PS.g4:160", "latex2sympy/latex2sympy2.py:689-691", "latex2sympy/latex2sympy2.py:1112-1126"]}
{"id": "C127", "title": "A power with a variable as exponent is this power", "statement": "A base, ^ and a variable, with or without braces, are converted to the power of the base with the variable as exponent (violated for T, which is read as a transpose).", "quantifier": "all bases of the notation, all variables, all texts after the exponent, all states of the module", "why_tests_cant": "the exponent T is not among the names of the tests, and the base may be any formula", "anchors": ["latex2sympy/PS.g4:353", "latex2sympy/latex2sympy2.py:530-538"]}
{"id": "C128", "title": "Answers are compared without regard to case, but variables are told apart", "statement": "Answers that differ only in the case of their letters are judged equivalent, as text answers should be; variables that differ in case are different variables (violated: the whole answer is lowered before it is read).", "quantifier": "all answers of ASCII characters outside the words with a meaning to the normaliser, all CAS behaviours", "why_tests_cant": "any letters of any answer may differ in case", "anchors": ["math_evaluation/core/latex_normalize.py:407-414", "math_evaluation/core/evaluations.py:25-37"]}
{"id": "C129", "title": "One sign of the factorial is the factorial, two are the double factorial", "statement": "A number followed by ! is converted to its factorial, a number followed by !! to its double factorial, the product of every second number (violated: two signs give the factorial of the factorial).", "quantifier": "all factors, all numbers of signs, all states of the module, all CAS with a correct factorial", "why_tests_cant": "the numbers, the factors and the number of signs vary without bound, and the values agree for 1 and 2", "anchors": ["latex2sympy/PS.g4:422", "latex2sympy/latex2sympy2.py:505-515"]}
{"id": "C130", "title": "Numbers in scientific notation keep their value inside formulas", "statement": "In a formula, a number with an exponent such as 1E5 has the value of the number: is_equiv judges the formula as the one with the number written out (violated: the capital E is lowered and then read as Euler's number).", "quantifier": "all recursion budgets, printing or not, all values of the variables", "why_tests_cant": "tests use numbers in scientific notation alone, where another branch of the normaliser applies", "anchors": ["latex2sympy/PS.g4:163-176", "math_evaluation/core/latex_normalize.py:386-414"]}
{"id": "C131", "title": "Second derivatives and primes denote derivatives", "statement": "latex2sympy converts \\frac{d^2}{dx^2} f to an expression with the value of the second derivative, and f'(x) to one with the value of the derivative of f at x (violated: only a single differential below the bar is recognised, and the prime is the transpose).", "quantifier": "all values of the variables; for the prime all functions f with non-zero derivative at 0 and all interpretations of the functions of the CAS", "why_tests_cant": "the converted expression depends on symbols d and dx and on an uninterpreted transpose; that it differs from the derivative is a statement about all interpretations", "anchors": ["latex2sympy/latex2sympy2.py:746-790", "latex2sympy/latex2sympy2.py:525-540", "latex2sympy/PS.g4:353"]}
{"id": "C132", "title": "The differential of an integral may stand in the integrand", "statement": "An integral whose differential stands inside the integrand, as in \\int_a^b \\frac{dx}{f(x)}, is converted to the integral over that variable of the integrand with 1 for the differential (violated if another symbol of the integrand has a name beginning with d).", "quantifier": "all integrands, all orders in which the CAS lists their symbols, all values of the variables", "why_tests_cant": "which symbol is taken depends on the order of a Python set, which varies between runs", "anchors": ["latex2sympy/latex2sympy2.py:994-1031"]}
