# A Lean 4 model of parsevasp

This file says what is modelled, how each property of `properties.jsonl` is stated and proved, what is trusted
and what was found to be false of the code.  Status per property is in `MANIFEST.json`.

## 1. Layout

* `lean/Verif/Py/*`     Python run-time vocabulary: strings (lists of characters), `split`, `strip`, `readlines`,
  `splitlines`, `int()`, `float()`, number formatting, insertion-ordered dictionaries, `Res` (exceptions and exit codes as values).
* `lean/Verif/Model/*`  one module per file in `/repo/parsevasp`; every definition cites file and lines.
* `lean/Verif/Spec/*`   small specifications that do not use the model's helpers.
* `lean/Verif/Lemmas/*` helper lemmas.
* `lean/Verif/Props/*`  the property theorems (named `Cnn_...`), each with a non-vacuity `example`.
* `tools/`              scripts which produce `properties.jsonl` and check the manifest.
* `seeded/LOG.jsonl`    log of deliberate bugs put in a scratch copy of the model, and which theorems noticed.

## 2. Conventions of the model

* A Python string is a `List Char` (`Str`).  Unicode white space is the full list used by `str.isspace`; `lower`/`upper` and
  digits are ASCII only.
* `sys.exit(code)` is the value `Res.exit code`, an uncaught exception is `Res.raise kind`, a normal return is `Res.ok v`.
* A `dict` is an insertion-ordered association list with the update semantics of CPython.
* Numbers: a Python float is an exact rational, `inf`, `-inf` or `nan`.  Binary64 rounding is NOT modelled: `float(s)` is the exact
  decimal value of the literal, arithmetic is exact, `'{:w.pf}'` rounds the exact value half-to-even (CPython formats the exact
  binary value, correctly rounded).  `str(float)` (used only by INCAR) is a parameter with stated laws (see C02).
  For C101 the readers of KPOINTS and POSCAR are also modelled with machine numbers (`Model/Floats`); for C111 and C112 the coordinate
  conversions and the POSCAR reader and writer are modelled with machine arithmetic (`Model/PoscarMachine`).
* numpy arrays are nested lists / functions of indices; `reshape`, `swapaxes`, `asarray` are modelled by their index maps.
* XML: an element tree (tag, attributes, text, children); the XML tokenizer (lxml/ElementTree) is not modelled.
* Files: a file is its text; a file handle is the list of lines still to be read.  Opening/closing is modelled only for C46.

## 3. Plan per property

| id | modelled | proof |
|----|----------|-------|
| C01 | `Incar._write`, `_convert_value_to_string` | write = map over insertion sort of keys; sortedness and permutation by induction |
| C02 | `_write` then `_from_list` | token lemmas: split of joined tokens, classification of printed ints / floats / strings; induction over the entries. False for lists of bools, `inf`/`nan`: negations |
| C03 | `_from_list` | fold over assignments = right-most lookup |
| C04 | `_from_list` | line-wise parse ignores everything after `#`; induction over lines |
| C05 | `_clean_entry`, `_test_string_for_bool`, `test_string_content` | case analysis over token kinds, for every token list |
| C06 | `validate` | loop = first offending key |
| C07 | `modify/delete/get/get_dict` | refinement to `key -> Option value`, induction over the operation list |
| C08 | `get(..., comment=True)` | false: negation; partial: the first component is the value |
| C09 | the three constructors' guards | all 2^n combinations; false, negations and exact characterisation |
| C10 | `readlines` vs `splitlines` | false (trailing `;`); partial for the texts where they agree |
| C11 | `_from_list` errors | per-line characterisation, first failing entry decides |
| C12,C13 | `_sort_and_group_sites`, writer | permutation, contiguity, stable order, counts; run-length encoding inverse |
| C14 | species assignment loop | loop invariant; false for zero counts (negation) |
| C15 | `_write` then `_from_list` | formatted numbers re-parse to the rounded rational; line structure |
| C16,C43 | `dir_to_cart`, `cart_to_dir`, `lat_to_reclat` | linear algebra over a field |
| C17 | comment handling | idempotence |
| C18 | `delete_site`, `modify` | list lemmas; negative indices: negation |
| C19 | `_from_dict` | false: negation; partial |
| C20 | `_from_list` VASP 4 test | false with padded counts; partial |
| C21-C26 | `kpoints.py` reader, writer, modify, checks | as for POSCAR; C23/C25/C26 negations |
| C27 | `get` | false: always raises on stored entries |
| C28-C32 | `outcar.py` | fold over lines; decision table; C32 negation |
| C33-C36 | `stream.py` | fold over lines x triggers; abstract matcher (regex search is a parameter) |
| C37-C39 | `doscar.py` | column tables decided completely; slices |
| C40 | `eigenval.py` | block structure by induction |
| C41 | `chgcar.py` | index arithmetic of reshape |
| C42 | `potcar.py` | decision logic |
| C44,C45,C57,C60 | `utils.py` | list / string lemmas |
| C46 | `base.py`, `utils.file_handler` | trace of open/write/close events |
| C47-C56,C59 | `vasprun.py`, regular parser | index maps over an element tree (`Model/Xml`, `Model/Vasprun`), decision logic |
| C53,C77 | both parsers | simulation: what the regular parser finds in a document is what the event automaton has stored after the events of the document (`Props/Event*`) |
| C58 | `outcar.py:_parse_timings_memory` | depends on last 50 lines only |
| C61 | `incar.py` get/modify/delete | lower-casing lemmas; negation |
| C62,C63 | `poscar.py` `_from_dict`, site lines | per-site lemma and induction over the sites |
| C64-C66 | `outcar.py` tables | fold over lines, last occurrence |
| C67,C68 | `doscar.py` names, header | decided tables, header parse |
| C69 | constructors of the read-only parsers | case analysis (`Props/Sources`) |
| C70 | `potcar.py` metadata | tokenisation of entries, fold over entries |
| C71,C72,C75 | `vasprun.py` constructor, number conversion, parameters | case analysis, tree lookups |
| C73,C74,C76 | `vasprun.py` other k-points, interpolated dos, response | index maps |
| C78-C80 | `vasprun.py` getters (`Model/VasprunApi`) | composition of constructor and getter |
| C81,C82 | dictionaries given back to the constructors (`kpoints.py`, `incar.py` `get_dict`, `_from_dict`) | exact form of the dictionary, induction over its items |
| C85,C86 | objects in memory (`Model/KpointsHeap`, `Model/PoscarHeap`): references, sharing, mutation | heap invariants, simulation of the value model by the heap model |
| C83,C84 | `stream.py` properties, shipped `stream.yml` with a concrete engine for its dot patterns (`Model/StreamRegex`, `Model/StreamYml`) | membership theorems of C33-C35, correctness of the matcher |
| C87-C89 | disk, buffered writes, crash points (`Model/Files`) | induction on runs of a small-step relation; composition with the round trips |
| C90 | constructor, parser and getters of `Vasprun` composed | composition |
| C97-C99 | input files cut off at any byte (`Props/CutPoscar`, `CutIncar`, `CutKpoints`), composing with the crash points of C87 | as for C91-C96 |
| C100 | blank lines appended to any accepted file of any type (`Props/BlankEnd`, `BlankKpoints`, `BlankPoscar`, `BlankOutput`) | every reader is shown to ignore lines of blanks and newlines behind the last line it needs, by the monotonicity lemmas of C91-C99; where it does not, the failure is proved for every such file |
| C101 | write, read, write again with machine numbers (`Model/Floats`, `Props/StableFloats`, `StableIncar`, `StableKpoints`, `StablePoscar`) | a machine number nearest to the printed decimal is at most as far from it as the number printed, so it prints the same (with the tie rule of the printer only); the writers see numbers only through their print, the rest is the round trips of C02, C13, C21-C23 and the header of C17 |
| C102 | two texts that agree word by word (`Props/Spacing`, `SpacingInput`, `SpacingOutput`, `SpacingIncar`, `SpacingChgcar`) | line by line: every reader looks at a line through `words`, `strip` and, in POSCAR, its first character, so the results are equal expressions; blocks of EIGENVAL by induction over the lines; the violations by computing the changed result from the one of the given file |
| C103 | a text `u` and `u ++ "\n"` (`Props/FinalNewline`, `FinalNewlineOut`) | the lines differ in the last one only, by a newline; corollaries of C102 where it applies, else line by line (OUTCAR: the regular expressions, `contains`, `strip` and `words` do not see the newline; EIGENVAL: the last block; standard output: patterns without newlines) |
| C104 | the editing methods and constructors as sequences of statements over memory, assignments before an exception stay (`Model/Effects`, `Props/Effects`) | every method equals "all of the pure model or nothing"; histories by induction; for `_from_dict` an invariant of the loop (every Site as before or converted) |
| C105 | Incar objects with lists as references (`Model/IncarHeap`), programs of calls | simulation by a world without references, induction over the program |
| C106 | readers of KPOINTS, POSCAR, INCAR, DOSCAR, EIGENVAL; `lower` on texts | cutting into lines and words commutes with `lower`, numbers are invariant, each reader commutes with `lower` up to the comment; INCAR by a relation on entries |
| C107 | `VaspStream` as an object: setters, constructor, `check_line`, `__str__` (`Model/VaspStream`) | invariant over assignment sequences; constructor as a chain, equal to the one of `Model/Stream` on every configuration entry |
| C108 | handlers as text and position (`Model/Handler`), all constructors on them, `_set_file_size` and `_set_xml_truncated` call by call | induction over programs of constructions and seeks; the vasprun.xml sequence equals `Model/Vasprun.begin` |
| C109 | results as trees built in a memory of cells (`Model/Results`), getters return references, programs of constructions, getter calls, item reads and assignments | invariant: every cell, variable and field belongs to one object; induction over programs; cells refer to earlier cells, so a replaced item is seen |
| C110 | `get_dict` for both parsers (`Model/VasprunDict`) | case analysis on the object; an inductive specification of the status; concrete documents for the violations |
| C111 | `dir_to_cart`, `cart_to_dir`, `lat_to_reclat` over a machine arithmetic (`Arith` in `Model/PoscarMachine`) | standard error analysis of the dot product from the rounding law; residual of the inverse; binary64 shown to satisfy the law |
| C112 | reader and writer of POSCAR over a machine arithmetic (`Model/PoscarMachine`), tied to the exact model by `exact_read`, `exact_write` | the printed decimal is a fixed point of read, convert, print when the error is below half a unit; then as C04/C101 |
| C113 | the regular parser of `Model/Vasprun` on two trees, `full` and `cut`, related by `CutOff` (a prefix of the document in document order, open elements closed) | `CutAll` is preserved by each step of a path and, if the elements are not nested, by `.//`; rows found in the cut tree are a prefix of those in the full one, then each fetch function in turn. Trusted: lxml with `recover=True` returns such a tree. Not expressed: the event parser on truncated text |
| C114 | `Model/Poscar.lean` (`validate`, `modify`, `modifySite`, `deleteSite`) | specification `Typed`/`Fits`; case analysis on values, induction over histories of calls |
| C115 | `Model/Kpoints.lean`, `Model/Poscar.lean` constructors | lines of file and string correspond up to the newline; every reader of a line sees words or stripped text only |
| C116 | constructors, `modify`, `delete_site`, `write` and getters of all parsers | every definition decomposed: its exits are those of its parts; a concrete input for each code |
| C117 | `kinds`, `configured_streams`, `str()` of `Stream` | the order of `dict.update`; the tables as functions of the list of triggers, by induction over kinds and entries |
| C118 | the single `write` calls of `_write` of INCAR, KPOINTS and POSCAR, a file with a position (`Model/Output`) | texts of programs of writes (`Props/OutputText`), one `write` for many, cases of failure |
| C119 | the composition of C87 (killed writes), `Model/Output` (single writes) and C97-C99 (cut files) | which beginnings a crash leaves, then the cut theorems; violations from the cut violations |
| C120 | `Model/Newlines` (what `open(..., 'r')` makes of line ends); the readers of all parsers | `universal` undoes both kinds of line ends; per parser: lines that differ only in their end are read alike (induction over the text); violations where the code looks at the end of a line |
| C121 | `Model/Poscar` (`readHeader`, `makeCell`, `readPos`) | header inverted part by part; two texts related by `Rescaled` give the same header up to the factor and the same sites by induction over the loop |
| C122 | `Model/Poscar` (`readTail`, `readVecs`, `readPredAfter`, `assemble`) | the tail decides by first letter or blank line; block reader inverted line by line; sites indexed in the order of the loop |
| C123 | `Model/NpText` (new: `np.fromstring` on every text; CHGCAR and the rows of vasprun.xml with it), `Model/Poscar`, `Doscar`, `Eigenval` | specification `Damaged` (a star, or a sign neither first nor behind `e`); the literal grammar of `float()` and of `strtod` leaves no such place; the reading loop by induction over the words |
| C124 | `Model/DoscarFull`, `Model/PoscarCounts`, `Model/ChgcarFull` (new: the same code for every integer as a count: Python's rules for negative positions and slices, NumPy's for `reshape`), `Model/Eigenval`, `Model/Kpoints` | the new models agree with the old ones where those describe the code (`Agree`); accepted files return as many as announced; for each impossible count that is accepted a theorem over all files with that count put in place |
| C125 | `Model/DoscarFull`, `Model/EigenvalFull`, `Model/ChgcarFull`, `Model/OutcarFull` (new: numbers are finite, infinite or not a number; `np.fromstring` and the division with them) | specification `Shows` (the literal a word is for `float()`); every returned number is shown by its word; acceptance does not depend on which numbers are special (`C125_outcar_accepted`, `C125_outcar_refused`: exactly which OUTCAR files, as C148) |
| C126 | nothing new (`Model/Incar`) | specification `Trailing` (a line that ends with `;` and has no comment); the assignments of such a line are those in front of the `;` and, without the newline, an empty one, which exits 102; induction over the lines |
| C127 | nothing new (`DoscarFull`, `EigenvalFull`, `ChgcarFull`, `parseZ` where they exist) | relation `RaisesIn` (every exception of a call lies in a set) with lemmas for every combinator, one lemma per function of a parser; a damaged text for each exception shows the sets cannot be smaller. Ragged arrays are `ValueError` (NumPy 1.24 and later) |
| C128 | nothing new | specification `History` of edits of a list with their fates, shown total and deterministic; the calls follow it, by induction over the history |
| C129 | nothing new | all sixteen combinations, with the contents as variables |
| C130 | nothing new | inversion of the check of each entry; the forward direction from C25 and C114 |
| C131 | nothing new | the history of C128, its count of deletions by induction; the writer of C21 with announced number and points apart; a text that lists too few points stops the loop at the first missing line |
| C132 | nothing new | the fixed point of C17; the two headers are equal iff removing `#` and stripping leaves the first unchanged |
| C133 | nothing new | membership and counts in the numbered list by induction, then C28 |
| C134 | nothing new | invariant of the loop over positions with any counts: what is left of the present slot and of the slots to come |
| C135 | nothing new | both scans at once, by induction on the lines: the streams without history are the first records of those with history |
| C136 | nothing new | inversion of `np.fromstring` on numbers followed by an overflow; cases on the number of numbers |
| C137 | nothing new | C128 for the sites left, C12/C13 for their order, C15 for the text |
| C138 | nothing new | the places of the points by induction on the pairs of lines |
| C139 | nothing new | the invariant that every entry can be stored, by induction on the history; C02's round trip and C07's map |
| C140 | nothing new | C49's lemma on the stored steps, the exceptional case of one row and two steps computed, and the status check unfolded in every accepted document |
| C141 | nothing new | both directions for a single call from C24's specification of a well typed object; histories by induction |
| C142 | nothing new | both directions for a single call by cases; histories by induction |
| C143 | nothing new | `fitRow` characterised by a relation; the lemmas of C48 and C55 for any number of columns |
| C144 | nothing new | from C140 |
| C145 | `Model/IndexArg`: the index argument as any object | equality with the calls of the base models for numbers; by cases otherwise; induction over histories |
| C146 | `Model/ChgcarMachine`: CHGCAR with an arithmetic that is left open | calculus of relative errors; the grid by the same specification as C41; equality with `Model/Chgcar` for exact arithmetic |
| C147 | `Model/Bytes`: strict UTF-8 decoding in front of `Newlines.universal` and of each class' `init` | decoding is inverse to an independently written encoder in both directions, and encoders have the prefix property |
| C148 | `Model/Outcar` | success of each step is equivalent to a condition on the line, the lines below and two facts about the lines above; invariant over the lines |
| C149 | `Model/EigenvalFull` | success of each reading step is equivalent to a condition on the words of the line; the splitting at blank lines gives no empty block exactly if there are no surplus blank lines (induction over the lines) |
| C150 | `Model/DoscarFull` | success of each reading step is equivalent to a condition on the words of the lines; lists of converted lines and of lines in step |
| C151 | `Model/Poscar`, `Model/PoscarCounts` | success of each reading step is equivalent to a condition on the lines; induction over the positions with the names and counts that are left; lines counted from the end for negative counts |
| C152 | `Model/Kpoints` | success of each reading step is equivalent to a condition on the lines; the checks after reading fail only for what has nothing to sample |
| C153 | `Model/Incar` | success of an entry is equivalent to a condition on its words; the faults are exhaustive and each one ends the reading in its own way, so the first one decides; success of the fold over the items of a dictionary |
| C154 | `Spec/Regex`, scanners of `Model/Potcar`, `Utils`, `Outcar`, `Eigenval`, `Vasprun` | an independent backtracking engine is specified as the list of all ways in order of preference; each scanner of the model is shown to find the first way of its pattern, by induction over the text; the same for POTCAR's region, the OUTCAR time and memory lines, word splits and the shipped stream triggers |
| C155 | `Potcar.init` | the converters are shown to give exactly what the relation `Reads` says (real numbers by the pattern itself, `C154_real`), the entries are the matches of the pattern (`C154_entries`), and the loop succeeds or fails at the first unreadable entry |
| C91-C96 | output files cut off at any byte (`Props/Cut*`, `Lemmas/Cut`): the same parser on `p` and on `p ++ q` | lines of a text and of its beginning; monotonicity of each parser |

A property whose full English claim is false of the code is kept in `properties.jsonl` as a user would state it; it has status
`partial`, one or more `Cnn_violation*` theorems (the claim fails, on a concrete input or for a whole class of inputs) and one or
more `Cnn_..._partial` theorems (what does hold, for all inputs that satisfy the stated hypotheses).

## 4. Trusted base

* Lean's kernel (4.33.0) and the three standard axioms: every theorem in the manifest depends on at most `propext`,
  `Classical.choice` and `Quot.sound` (checked with `#print axioms`; `tools/axioms.sh` repeats this for all of them).  There is no axiom
  of our own, no unfinished proof, and nothing that rests on compiled code.  Concrete documents are evaluated with
  `decide +kernel`, that is by the kernel.
* The reading of `/repo` recorded in the comments of `lean/Verif/Model` (no code was run), and of the parts of CPython, numpy,
  lxml, re and yaml listed below.
  The models of the built-in functions (`split`, `strip`, `splitlines`, `int`, `float`, `format`, `repr`, ...) and of the regular expressions that occur in
  the repository were compared with CPython 3.11 on some 500000 random inputs (`tools/pydiff`; nothing of the project was run): the only differences are
  `int` and `float` of decimal digits beyond ASCII, listed in section 5.
* The parameters of the model.  They are universally quantified in the theorems, so nothing is assumed about them unless a
  theorem says so:
  - `Engine` (stream.py): which line a compiled regular expression matches (for the shipped configuration, and for the expressions of the other
    parsers, the scanners of the model are proved equal to a semantics of regular expressions with the priorities of `re`, C154);
  - `Lxml` (vasprun.py): the tree `lxml.etree.parse` returns and the events `iterparse` delivers for a text, with the amount
    of text visible at each start event; the C53 theorems require that both come from one document;
  - `FloatEnv` (incar.py): the rounding of a decimal literal to a binary64 number, represented by its shortest round-trip digits, with
    the laws "the result is in normal form" and "the digits of the result round to the result"; the digits of `str(float)` are modelled;
  - `Floats` (C101, kpoints.py and poscar.py): a set of machine numbers that contains zero and has a largest element, an integer, with `float(s)` a nearest
    one (`Floats.binary64` is an instance, so the laws are satisfiable by the real numbers of the machine);
  - `Arith` (C111, C112): product, dot product and inverse of the machine; theorems state the accuracy they need (`Rounding`, `DotOk`,
    `Inverted`, `Close`); `Arith.ieee` (round each operation to nearest, left to right) is proved to satisfy the law for the dot product;
  - `2 pi` (lattice): a symbol, nonzero.

## 5. What is modelled and what is not

`python3 tools/coverage.py -a` lists all functions of `/repo/parsevasp` with the number of their lines cited in the model.

Modelled (all code paths, exceptions and exit codes as values):

* `incar.py`: constructor, `_from_list/_from_string/_from_file/_from_dict`, `_clean_entry`, bool test, `modify`, `delete`, `get`,
  `get_dict`, `get_string`, `_write`, validation.  Values are ints, floats, bools, strings and lists of them.
* `poscar.py`: constructor, all readers, sorting and grouping, direct/cartesian, `modify`, `delete_site`, `get_dict`, writer,
  velocities and predictors, `Site`.
* `kpoints.py`: constructor, all readers, checks, `modify`, `delete_point`, writer, `get_dict`, `Kpoint`.
* `outcar.py`, `doscar.py`, `eigenval.py`, `chgcar.py`, `potcar.py`, `stream.py`, `utils.py`, `base.py`: everything that decides a
  value; see the comments for each simplification.
* `vasprun.py`: constructor, parsing mode, truncation, `_parsew` with all `_fetch_*w`, `_parsee` with `_process_event` as an
  automaton over start and end events, all number conversions, all getters.
* `Model/KpointsHeap`, `Model/PoscarHeap`: the same objects with references instead of values, so that two objects can share a
  list, a dictionary, a `Site` or a `Kpoint`; every method reads and updates the heap.  Proved to simulate the value models.
* `Model/StreamRegex`, `Model/StreamYml`: the shipped `stream.yml` with a concrete matcher for the pattern language it uses (literal
  characters and the dot); other configurations keep the abstract `Engine`.
* `Model/Files`: paths, open, buffered writes flushed at any moment, close, and a kill between any two steps; which class writes
  what (`Writer`), with the `chop` flag for `remove_newline`.

Functions without a citation of their own are either thin wrappers whose body is cited or inlined where they are called (`_parse`, `_from_file`,
`_from_string`, `_find`, `_fetch_kpointsw`, `_fetch_kpointsww`, `Poscar.get_string`, `Poscar._get_key`, `Poscar._check_dict`, the abstract methods and the
logger of `base.py`), the identity (`Kpoints._to_direct`, `Kpoints._to_cart`), never called (`Xml._convert_array1D_i`) or print only (`Stream.__repr__`).

Not modelled:

* binary64 rounding (except in C02, C101, C111, C112 and C146), overflow and signed zero: numbers are exact rationals, `inf`/`nan` literals are a separate value or the
  outcome `outOfModel` (which no theorem counts as acceptance); the models of C125 have them as values;
* texts beyond ASCII for `lower`/`upper`/digits (white space is the full Unicode list); decoding errors of handlers (for files by path: C147);
* logging: messages are dropped, only their exit codes are kept;
* the XML tokenizer, the regular expression engine, the YAML reader (parameters, see above);
* timing, and operating system errors other than a missing file, a path that cannot be opened and a kill of the process: no full
  disk, no other process writing the same path, no file objects left open by a failed call;
* the scripts, tests and packaging of the repository.

## 6. Seeded bugs

`tools/mutate.py NAME` applies each edit in `seeded/mutants/NAME.json` to a scratch copy of the model in `/tmp/mut`, rebuilds and records in
`seeded/LOG.jsonl` which theorems no longer prove.  An edit that survives is either equivalent for the English claim (the log says why) or led
to a stronger theorem (the log names it).

## 7. Findings: theorems that show a claim to be false of the code

<!-- findings: generated by tools/findings.py -->
* `C02_violation_bool_list`: Violation of C02: a list of truth values (as in `ROTATE = .TRUE. .FALSE.`) comes back as a list of strings.
* `C02_violation_inf`: A float environment with the overflow of binary64.
* `C02_violation_raw_list`: Violation of C02 through `modify`: a list given for MAGMOM comes back as a text.
* `C02_violation_singleton`: Violation of C02 through `modify`: a list of one element comes back as a scalar.
* `C04_violation_every`: C04 is false for every accepted file with a line that ends with `;`: with any comment appended to that line the file is refused with exit code 102.
* `C04_violation_semicolon`: C04 is violated for a file line ending with `;`: `"NSW = 1;"` is accepted, `"NSW = 1;# c"` exits 102.
* `C05_violation_nan`: C05 is false for `nan` and `inf`, which are float literals: every entry of a typed tag with such a token among its values raises `ValueError`.
* `C08_violation`: C08 is violated on every stored entry: the second component is again the value, never the comment text.
* `C10_violation`: C10 is violated by a trailing semicolon: accepted from a file, exit 102 from a string.
* `C10_violation_formfeed`: C10 is violated by a form feed inside a comment: ignored in a file, an entry of its own in a string.
* `C11_violation_empty_tag`: C11 is violated: an entry without tag raises an uncaught `IndexError` instead of a documented exit.
* `C11_violation_every_empty_tag`: C11 is false for every entry without a tag: if the entries in front of it are good, the text ends with an uncaught `IndexError`.
* `C11_violation_every_special`: C11 is false for every value with the literal of an infinite number or NaN, but for the tags whose text is kept: if the entries in front of it are good, the text ends with an uncaught `ValueError`.
* `C11_violation_nan`: C11 is violated: the well formed entry `EDIFF = nan` raises an uncaught `ValueError`.
* `C14_violation`: C14 is false: with the counts `1 0 1` for `H He Li` the second site is read as helium instead of lithium.
* `C17_violation_empty`: C17 is false for the empty comment: the trailing blank of the first header is lost in the second.
* `C17_violation_hash`: C17 is false for a comment with `#`.
* `C18_violation`: C18 is false for negative positions: `delete_site(-n)` deletes the `n`-th site from the end instead of being refused.
* `C18_violation_name`: C18 is false for the entry name: `modify('comment', site, 0)` replaces site 0 and not the comment, on every object.
* `C19_violation`: C19 is false, for every structure with at least one site and both coordinate systems: `Poscar(poscar_dict=p.get_dict(direct))` is accepted, but the object cannot be written (`AttributeError`), because its sites are still dictionaries.
* `C20_violation_padded`: C20 is false for padded count lines: a sixth line that begins with a blank, or has two blanks in a row, or a blank before its line end, is never recognised, so the text is not refused with 301.
* `C23_violation_string`: C23 is false for strings: whenever there are more than two points, reading the written text back as a string yields additional points without coordinates.
* `C24_violation_comment`: C24 is false: `modify('comment', None)` and then `modify('comment', 5)` leaves an invalid object.
* `C24_violation_divisions`: C24 is false: `modify('divisions', None)` on an automatic grid leaves an object with nothing to sample.
* `C24_violation_num`: C24 is false: `modify('num_kpoints', None)` returns normally and leaves an invalid object.
* `C25_violation_name`: C25 is false: an undocumented entry name is accepted with any value.
* `C25_violation_vectors`: C25 is false: the documented entry `generating_vectors` cannot be modified, whatever the value.
* `C26_violation`: C26 is false: deleting any point of any explicit KPOINTS that announces its number of points leaves an object whose text announces one point more than it lists.
* `C26_violation_unreadable`: ... and such a text cannot be read back.
* `C29_violation`: C29 is false: a single iteration line of ionic step 2 in an unfinished run is a consistent but not a contained breach.
* `C31_violation`: C31 is false for a text that ends inside a table: `IndexError` instead of exit 600.
* `C32_violation`: C32 is false, for every accepted OUTCAR: the announced key `non-symmetrized` holds `None`, even if the file has the table.
* `C37_violation`: C37 is false with spin: the integrated density of states (12, 13 in the file) is reported as (11, 12), the `p` part (3, 4) as (2, 3), the `d` part (5, 6) as (3, 4).
* `C39_violation_header`: C39 is false if a row of the total density of states prints the numbers of the header: the rows behind it are taken for the first block.
* `C39_violation_short`: C39 is false for a file with one ion that ends early: it is accepted and fewer rows than announced are returned.
* `C40_violation_end`: C40 is false for a blank line at the end: no text with at least seven lines that ends with one is accepted.
* `C40_violation_inside`: C40 is false for blank lines inside a block: the part behind the blank line is taken for another k-point.
* `C41_violation_flat`: C41 violated: a file whose lattice vectors lie in a plane (or whose scaling factor is zero) is accepted like any other (`C125_chgcar_accepted`), and no value of its densities is finite.
* `C41_violation_handed`: C41 is false for left-handed cells: the density has the wrong sign.
* `C41_violation_scaling`: C41 is false for negative scaling factors: the printed number 8 in a cell of volume 8 becomes -1/64.
* `C44_violation_duplicate`: C44 is violated: a line containing two of the elements is returned twice.
* `C44_violation_string`: C44 is violated for a string selector: Python 3 strings are iterable, so every line is tested against the single characters; a line not containing the string is returned.
* `C45_violation`: C45 is violated by every non-finite literal: it is called `'int'` although `int()` rejects it.
* `C46_violation_empty_path`: C46 is violated by an empty path: the key is present, no documented exit is taken and `_write` fails with `AttributeError` on the string `''`.
* `C46_violation_not_closed`: C46 is violated when the writer fails: the file named by the path is opened and never closed by `write`.
* `C47_violation_steps`: Eigenvalues in two calculations (ionic steps) are taken together and refused.
* `C48_violation_columns`: C48 is false for every other number of columns (three without magnetic quantum numbers, sixteen with f orbitals): all projections of the accepted document are zero, whatever is printed.
* `C49_violation_one_atom`: C49 is false for one atom and two steps: the positions and forces of the last step are replaced by those of the first.
* `C49_violation_single`: C49 is false for a single step: all steps are two steps.
* `C50_violation_incomplete`: C50 fails without completeness: if the last electronic step lacks one of the energies, `electronic_steps`, taken from the last type, does not fit the array of the other.
* `C53_violation_dielectrics`: Nothing about the dielectric functions: the regular parser stores a dictionary of `None`, the event driven one `None`.
* `C53_violation_epsilon`: The dielectric tensor is not read by the event driven parser.
* `C53_violation_fermi`: Two Fermi energies in a density of states: the event driven parser stops the program with status 500, the regular one takes the first.
* `C53_violation_interpolated_dos`: Only an interpolated density of states: the regular parser returns it as the density of states too.
* `C53_violation_order`: The density of states in front of the atoms: the event driven parser stops the program with status 501.
* `C53_violation_parameter`: An element named like a parameter in another place: the event driven parser takes it, the regular one does not.
* `C53_violation_projected`: Eigenvalues given only with the projections: the event driven parser returns them, the regular one does not.
* `C53_violation_single`: A single ionic step: the regular parser stores it twice, as step 1 and step 2, the event driven one once.
* `C53_violation_two_dos`: Two densities of states: the regular parser takes the rows of both together, the event driven one keeps the last.
* `C53_violation_unnamed`: A table without name in an ionic step: an uncaught `KeyError` with the event driven parser; the regular one does not look at it.
* `C54_violation_names`: The present symbols of the elements 113 to 118 are not known.
* `C55_violation_columns`: C55 is false for every other number of columns (four without magnetic quantum numbers, seventeen with f orbitals, four times as many with noncollinear spins): the partial densities are zeros.
* `C55_violation_mixed`: C55 is false for a document with an interpolated density of states beside the regular one: the rows of both are taken together, and the first block of the partial densities, that of the first atom, holds the rows of both atoms.
* `C56_violation`: C56 is false if the file has no such data: an unknown word is not noticed.
* `C61_violation`: C61 is violated: `modify('ENCUT', ...)` stores under `encut`, but `get('ENCUT')` finds nothing and `delete('ENCUT')` deletes nothing.
* `C61_violation_every`: C61 is false for every spelling that is not in lower case: whatever the source of the object and the history of `modify` and `delete`, `get` finds nothing under it and `delete` removes nothing - not even the entry `modify` has just stored under this spelling.
* `C67_violation`: C67 is false for 37 columns: the ninth orbital is called `x2-y2` there, everywhere else `dx2-y2`.
* `C70_violation_exponent`: C70 is false of the program for numbers with a positive exponent sign: the file is refused.
* `C70_violation_semicolon`: C70 is false of the program for entries behind a `;` without blank: `ZVAL` is lost.
* `C71_violation`: C71 is false: a missing file is an `AttributeError` (no exit code), and so is every larger file behind a text handler a `TypeError`.
* `C72_violation_columns`: C72 is false for rows: a row with three numbers where the first row has two is stored as zeros, silently.
* `C72_violation_overflow`: C72 is false for rows: a row that overflows in the first number is stored as zeros, whatever its length.
* `C72_violation_spread`: C72 is false for rows: if the second number overflows the first is stored in all places.
* `C77_violation_digits`: Or, when only the first characters of an energy are visible, another energy is reported.
* `C77_violation_energy`: If nothing of the texts is visible at the start events, reading the final energies ends with an uncaught `TypeError`,
* `C77_violation_version`: and the version, the parameters and the divisions are missing or partly read.
* `C78_violation`: The English claim is false: the Fermi level is printed, but asking for it ends with an uncaught `TypeError`, for both parsers.
* `C79_violation_status`: The English claim is false without structures: any word is accepted as status.
* `C80_violation_event`: The English claim is false for the event driven parser, whatever the document is: both calls end with an uncaught exception, `TypeError` without dielectric functions and `KeyError` with them.
* `C81_violation_points`: C81 is false with explicit points: for every valid object with at least one point, in explicit or line mode, the constructor accepts the dictionary, but the object cannot be written: its points are lists.
* `C82_violation_mark`: C82 is false for a text with `#` given to `modify`: its end is lost in the second object.
* `C83_violation_history`: C83 is false with history: one stream, found in two lines, counts twice, and `str()` calls this two unique ones.
* `C85_violation_dict`: C85 is false for a dictionary given to two objects: for every valid dictionary with a point, deleting the first point of the first object deletes the first point of the second object as well, and of the dictionary of the caller.
* `C85_violation_list`: C85 is false for a list given to two objects: deleting the first point of the first object deletes the first point of the second.
* `C86_violation_cells`: C86 is false for `Site` objects given to two objects: the first construction converts a cartesian `Site` for its own cell, the second one takes the result for direct coordinates in its own cell. So the second object does not hold the given point, but the point that has in its cell the same direct coordinates as the given one has in the first cell; and the `Site` of the caller has changed.
* `C86_violation_dict`: C86 is false for a dictionary given to two objects: deleting the first site of the first object deletes the first site of the second object as well, and of the dictionary of the caller.
* `C87_violation_crash`: The claim of C87 a crash breaks: for any text to be written and any file there was, a kill right after `open` leaves the path empty — neither the old nor the new content.
* `C87_violation_potcar`: C87 is violated by `Potcar.write(file_path=p)`: it returns normally and the file is empty.
* `C87_violation_read_only`: C87 is violated by every read-only parser (vasprun, OUTCAR, DOSCAR, EIGENVAL, CHGCAR, stream): `write(file_path=p)` is refused with `NotImplementedError`, and on every execution the file is empty afterwards.
* `C87_violation_refused`: C87 is violated by a KPOINTS or POSCAR object whose check fails at the beginning of `_write`: the documented exit is taken and the file that was there is empty.
* `C92_violation_accepted`: C92 is false: whatever the complete file is, cut at the end of any line with words behind the header it is accepted as well (and has zeros for what is missing).
* `C92_violation_digit`: C92 is false inside a line, too: without its last characters a file is accepted with another eigenvalue.
* `C93_violation_digit`: A cut inside the last number is accepted; another number is returned.
* `C93_violation_missing`: C93 is false of every DOSCAR with a partial density of states: cut at the end of a line anywhere between the total density of states and the second line of energies, it is accepted and reported as a complete calculation without partial density of states.
* `C93_violation_short`: A cut inside the block of the only ion is accepted; fewer rows than energies are returned.
* `C94_violation_collinear`: C94 is false of every noncollinear CHGCAR: cut in front of the third or fourth data set it is accepted; in the first case its magnetization along x is reported as a collinear magnetization, in the second it has none.
* `C94_violation_digit`: A cut inside the last number is accepted; another density is returned.
* `C94_violation_none`: C94 is false of every CHGCAR with a magnetization: cut behind its first data set it is accepted as the file of a calculation without spin.
* `C97_violation_digit`: A cut inside the last number of the positions is accepted; the atom stands elsewhere.
* `C97_violation_velocities`: C97 is false of every POSCAR with velocities or predictors: cut behind the positions it is accepted, without them.
* `C98_violation_again`: C98 is false for a tag assigned twice: cut between the two assignments the file is accepted with the first value.
* `C98_violation_digit`: C98 is false inside a line: without its last characters the file is accepted with another value.
* `C99_violation_digit`: C99 is false inside a line: the file is accepted with another mesh.
* `C99_violation_line`: C99 is false of every KPOINTS in line mode: cut behind its fourth or any later line it is accepted, without the points behind the cut; cut behind the fourth line there is none left.
* `C99_violation_shifts`: C99 is false for shifts: a mesh cut behind its divisions is accepted without shifts; with a sixth line the shifts are ignored.
* `C99_violation_tetra`: C99 is false for the tetrahedra: cut behind the points the file is accepted without them.
* `C100_violation_eigenval`: C100 is false of EIGENVAL: no file with complete lines is accepted with a blank line at its end.
* `C100_violation_line`: C100 is false in line mode for a line of blanks: it is read as a point without coordinates.
* `C100_violation_mesh`: C100 is false of every mesh without shifts: one blank line behind its four lines is read as an empty list of shifts.
* `C100_violation_outcar`: C100 is false: fifty blank lines at the end of any OUTCAR hide all run statistics.
* `C100_violation_points`: C100 is false of every KPOINTS that ends with its list of points: with a blank line behind it the file is refused with an `IndexError`.
* `C100_violation_positions`: C100 is false of every POSCAR that ends with its positions: with two blank lines behind them it is refused with an `IndexError`.
* `C100_violation_shifts`: C100 is false of every mesh with shifts on its fifth and last line: a blank line behind it, and, if the file is still accepted, it is read without the shifts.
* `C100_violation_velocities`: C100 is false of every POSCAR that ends with velocities: with a blank line behind them it is refused with an `IndexError`.
* `C101_violation_comment`: C101 is false for a comment with `#` (and for the empty one, `C17_violation_empty`): the second text is another one.
* `C101_violation_path`: C101 is false for every path of more than two points that is read as a string: the object cannot be written at all.
* `C102_violation_chgcar`: C102 is false for the repetitions of the grid line: if no repetition of the grid line is spelled exactly as the first one, the magnetization is lost without complaint, provided that augmentation occupancies stand before it.
* `C102_violation_incar`: C102 is false for INCAR files in general: a blank behind a `;` at the end of a line makes any file be refused with code 102 that is accepted without it.
* `C102_violation_kpoints`: C102 is false in line mode: blanks on an empty line add a point without coordinates.
* `C102_violation_poscar`: C102 is false for POSCAR: a blank before `Direct` on the eighth line makes the reader take the positions for cartesian ones, without any complaint: the comment, the cell and the species stay, and every position `x` of the file is replaced by the one whose cartesian coordinates are `scaling * x`.
* `C103_violation_incar`: C103 is false for an INCAR file that ends with a `;`: with a newline behind it the file may be accepted, without the newline any such file is refused with code 102.
* `C104_violation_poscar`: The claim C104 is false for the construction of a `Poscar`: with a comment that is neither a string nor `None` it is refused (exit code 13), but the `Site` objects of the caller have been converted; for every invertible cell and every cartesian `Site`.
* `C105_violation`: The claim C105 is false for lists the caller changes in place: two objects are given the list `l` for a tag; then the caller assigns to one place of the list, and both objects hold the changed list, without any call on them (and without any check of the new element).
* `C105_violation_get`: The same for a list handed out by `get`: the caller changes it and the object holds the changed list.
* `C106_violation_incar`: C106 is false of other spellings: a truth value written in another mixture of cases stays text, while the same letters in lower case are a truth value.
* `C107_violation`: C107 fails for the pattern: any object that is not a string is stored, by the setter and the constructor, and then no line can be checked.
* `C108_violation_empty`: What the classes make of an empty file: INCAR an object without tags (nothing is reported), the scanner with the shipped configuration one that reports `nostart` and no error or warning of the text; the others fail.
* `C108_violation_used_up`: C108 fails for a handler that has been read: without a `seek` in between, a second object is the one made from an empty file, whatever the text is and whatever else has been done.
* `C109_violation`: C109: a change in place of a result (`x = o.get_...(); x[k] = v`) is a change of the object: from then on the getter returns the changed value, and no longer what was parsed.
* `C110_violation_final`: C110: the status `final`, named by the documentation of the getters for the last step, is refused by each of them whenever there is something to return (and only then).
* `C110_violation_initial`: C110: asking for the first forces of such a document in event mode is an uncaught `KeyError`, although there are forces.
* `C110_violation_version`: C110: the dictionary is not everything: the version is missing in it.
* `C113_violation_born`: C113 is false for the Born charges: cut off behind the first row of the second atom there are two tables of two rows, and the last row of the first atom begins the table of the second.
* `C113_violation_eigenvalues`: C113: cut off inside the eigenvalues the whole file is refused, with the exit code of wrong sizes, though everything before is complete.
* `C113_violation_energies`: C113 is false for the energies, in general: if the step in which the file was cut off has no energies yet, those of all earlier steps are lost.
* `C113_violation_first_last`: C113 is false if only the first and the last step are extracted: cut off in the forces of the third step, the last forces are one row of the second step and one of the third.
* `C113_violation_last`: C113 is false for the last step: three steps, cut off in the positions of the third, which are given for one of the two atoms; the forces and the stress of the last step are empty tables.
* `C113_violation_number`: C113 is false for a cut inside a number: the beginning of the number is read.
* `C113_violation_partial_dos`: C113 is false for the partial densities: two atoms and two energies, cut off behind the first atom, and the second energy of the first atom is given as the density of the second atom.
* `C113_violation_spin`: C113 is false for two spins: cut off behind the first spin component, its eigenvalues are given as those of a calculation without spin, though `ISPIN` is two.
* `C114_violation_comment`: C114 is false for the comment: once it is `None`, which is allowed, anything is accepted.
* `C114_violation_elements`: C114 is false for lists: `modify('sites', list)` accepts a list of anything.
* `C114_violation_name`: C114 is false for names: any value is stored under any name that merely contains the name of an entry.
* `C114_violation_none`: C114 is false for `None`: `modify('unitcell', None)` and `modify('sites', None)` are accepted by every well typed object and leave one that is not (the check looks at the stored value instead).
* `C114_violation_site`: C114 is false for a single site: `modify('sites', None, i)` stores `None` as site `i` whenever all sites are `Site` objects.
* `C115_violation`: C115 is false in line mode: every text (in which the line breaks are newlines) that is accepted from a file and has empty lines between or behind its points is accepted from a string as well, but each empty line is a further point, without coordinates.
* `C115_violation_breaks`: C115 is false for other line breaks: a form feed in the comment is part of the comment in a file and ends the line in a string.
* `C116_violation_poscar`: C116 is false for a missing entry: code 12 is documented for it, but the message is looked up under a wrong key, so that it is a `KeyError`, for every dictionary without one of the entries (here those with `Site` objects in direct coordinates).
* `C117_violation`: C117 is false if two kinds differ in case only: the inverse stream is listed twice.
* `C118_violation`: C118 is false for a KPOINTS object in line mode followed by any other object with a text: a NUL character comes in between, in every file.
* `C119_violation_empty`: C119 is false for every INCAR: a write killed right after the file was opened leaves an empty file, which is accepted without any tag.
* `C119_violation_line`: C119 is false for every KPOINTS in line mode: a write killed behind the fourth line leaves a file that is accepted without any points.
* `C119_violation_velocities`: C119 is false for every POSCAR with velocities: a write killed behind the positions leaves a file that is accepted without them.
* `C120_violation_chgcar`: C120 is false for every CHGCAR read from a file handler that does not translate line ends: with Windows line ends it is refused.
* `C120_violation_eigenval`: C120 is false for every EIGENVAL with the blank line VASP writes behind the header: from a file handler that does not translate line ends it is refused with Windows line ends.
* `C120_violation_incar`: C120 is false for an INCAR line that ends with a `;`, read from a file handler that does not translate line ends: with Windows line ends it is refused.
* `C120_violation_line`: C120 is false for every KPOINTS in line mode with empty lines between the points, read from a file handler that does not translate line ends: with Windows line ends every empty line gives a point without coordinates.
* `C120_violation_outcar`: C120 is false for every OUTCAR with memory statistics: with Windows line ends, from a file handler that does not translate them, it is accepted but only the times are reported, no line `...: ... kBytes`.
* `C120_violation_predictors`: C120 is false for every POSCAR with predictors: with Windows line ends they are lost silently, from a string as from a file handler that does not translate line ends.
* `C120_violation_stream`: C120 is false for the standard output from a file handler that does not translate line ends: behind the name of the error `RSPHER` without its full stop the dot of the pattern finds the carriage return.
* `C121_violation_factors`: C121 is false for the three scaling factors (one per axis) VASP accepts on the second line: all but the first are ignored without a complaint. Whatever follows the first word of that line has no effect.
* `C121_violation_zero`: C121 is false for a scaling factor of zero, which VASP refuses: texts with it are accepted (see below), and the object then has a zero cell whatever the three vectors are.
* `C122_violation_blank`: C122 is false for the files VASP itself writes (CONTCAR), where a blank line, without a header, separates positions and velocities: the vectors behind it are returned as predictors and no site has a velocity.
* `C122_violation_mixed`: C122 is false for cartesian positions followed by velocities under a `Direct` header: the velocities, though direct, are converted as if they were cartesian, without a complaint.
* `C123_violation_chgcar`: C123 is false for the last number of a CHGCAR data set: if it runs into junk (`0.25-100` for a tiny number, `1.5****`), the junk and everything behind it are ignored and the beginning of the field is taken as the number, without a complaint.
* `C123_violation_row`: C123 is false for all other numbers of a row of vasprun.xml: a damaged number makes the whole row zero (or, as the second field, spreads the first number over the row), without a complaint.
* `C123_violation_vasprun`: C123 is false for the last number of every row of vasprun.xml: if it runs into junk (`0.25-100`, `1.5****`), the beginning of the field is taken as the number, without a complaint.
* `C124_violation_chgcar`: C124 violated: if one of the numbers of grid points of a file (with a single data set that is not empty) is replaced by any negative number, the file is still accepted, with the same density.
* `C124_violation_chgcar_dims`: C124 violated: any numbers on the grid line whose product is the number of values printed are accepted as the extents of the density, also if they are not three.
* `C124_violation_doscar`: C124 is false of DOSCAR files with a negative number of energies: take any accepted file without anything behind its `n` energies, and print a number `-m` above `-n` in place of `n`. The file is accepted, and the last `m` energies are left out.
* `C124_violation_eigenval`: C124 is false of EIGENVAL files without spins: take any accepted file and print zero as the number of spins on its first line. The file is accepted, with all its k-points and not a single eigenvalue.
* `C124_violation_kpoints`: C124 is false of KPOINTS files with a negative number of tetrahedra: take any accepted explicit file with tetrahedra and print a negative number in place of the number of tetrahedra. The file is accepted, without any tetrahedra.
* `C124_violation_poscar`: C124 is false of POSCAR files whose numbers of ions add up to less than zero: take any accepted file with at least one site and no selective flags, and print other numbers of ions that add up to -1. The file is accepted as a structure without sites.
* `C125_violation_doscar`: C125 is false of the partial density of states: if a number of the header (such as the Fermi level) is not a number, the header is not recognised where it is repeated in front of the ions (not a number is not equal to itself), and the partial density of states is lost, whatever the file holds.
<!-- end of findings -->

Differences between the event driven and the regular parser of vasprun.xml (hypotheses `Doc` and `Usual` of the C53 theorems exclude them):
a single ionic step is stored under two keys or one; `extract_all` is ignored by the event parser; dielectric functions are `None` or a
dictionary of `None`, and the tensors are never read by the event parser; parameters are matched by name anywhere and the last wins;
missing species exit 501; of several eigenvalue or dos elements the last is kept, or all are concatenated; an interpolated dos is
mixed into the regular one; a partial dos in front of the total one is lost; an unnamed `varray` or `i` is a `KeyError`; projected
eigenvalues are read again; of special k-points the last wins; of final energies the last or the first wins; text is read at
start events.
