C01 | proved | 
C02 | partial | Full claim is false: lists of truth values, non-finite floats, modify() with a list for MAGMOM/SYSTEM or a one-element list (proved violations). Proved for every parsed file without them and for every storable entry set.
C03 | proved | 
C04 | partial | False for every file line ending with ';' (violation proved for all of them; exact form: C126); proved for all other lines and all positions.
C05 | partial | Typing proved for integer, float, text and mixed token lists, raw tags, objects; nan/inf tokens raise (proved violation).
C06 | proved | 
C07 | proved | 
C08 | partial | get(tag, comment=True) returns the value twice (proved violation); the value half is proved.
C10 | partial | False for a trailing ';' and for form feeds (proved violations); proved for all other texts.
C11 | partial | Exit codes 101/102 and that nothing is dropped proved; the claim that no exception escapes is false (violations proved for every entry without tag and every value with inf or nan).
C45 | partial | False exactly for the literals of inf/nan (proved for every such literal).
C61 | partial | get/delete/modify differ in case handling: no spelling that is not lower case is ever found (violation proved for every source, history and such spelling).
C09 | partial | all three constructors: no source and exactly one source proved; some combinations of two sources are accepted (violations proved)
C44 | partial | List selector returns each matching line once per matching element (proved); false for lines matching twice and for a string selector (proved violations).
C46 | partial | Target discipline proved; a failing writer leaves the file open and an empty path is not refused (proved violations).
C57 | proved | 
C60 | proved | 
C21 | proved | explicit round trip for every number of points >= 1, optional tetrahedra, every precision, all three kinds of source
C22 | proved | Gamma, Monkhorst-Pack and generating vectors; shifts None becomes zero
C23 | partial | file/handler proved for all point lists, string only for at most two points; false for strings beyond that (violation proved)
C24 | partial | false for modify('num_kpoints',None), ('divisions',None), and comment None then non-string (violations); proved for all other histories
C25 | partial | generating_vectors is refused and names containing an allowed name are accepted (violations); the rest proved
C26 | partial | false after delete_point (violation, for every object); proved for every object made from a text
C27 | partial | Kpoints and Poscar: false: get of a present entry always raises AttributeError (violation for every entry); missing entries give None
C12 | proved | for every list of sites
C13 | proved | for every list of sites
C14 | partial | number of sites proved; species assignment proved when the two header lines have equally many entries; false otherwise (violation proved)
C15 | proved | for file, handler and string sources; hypotheses in the property text
C16 | proved | over exact rationals; binary64 rounding is not modelled
C17 | partial | from the second write on the header is fixed; already from the first for comments without '#' and without surrounding blanks; false for the empty comment and comments with '#' (violations proved)
C20 | partial | false for numbers padded with more than one blank (violation proved); exact characterisation of the refused texts proved
C43 | proved | over exact rationals with a symbolic 2 pi
C18 | partial | proved for all histories of edits at existing positions, and refusal beyond the ends; false for negative positions and for the entry name (violations proved for every object)
C19 | partial | the object is accepted and holds the same data, but writing it raises AttributeError for every structure with a site (violation proved)
C62 | proved | over exact rationals
C63 | proved | 
C28 | proved | 
C29 | partial | consistent implies contains for finished runs and for runs containing ionic step 1; violation proved otherwise; unfinished never converged is proved in full
C30 | proved | 
C31 | partial | texts cut inside a table raise IndexError instead of exit 600 (violation proved); exactly which texts exit 600: C148_refused
C32 | partial | the announced key non-symmetrized always holds None (violation proved for every accepted file); the tables are right under non_symmetrized, symmetrized and total
C58 | proved | 
C64 | proved | 
C65 | proved | 
C66 | proved | 
C33 | proved | regular expressions are an abstract engine
C34 | proved | regular expressions are an abstract engine
C35 | proved | regular expressions are an abstract engine
C36 | proved | regular expressions are an abstract engine
C37 | partial | without spin components every field has exactly its own column; with spin every field behind the first is shifted (violation proved, actual columns characterised for every file)
C38 | proved | 
C39 | partial | block positions proved for every file; false for one ion with a file that ends early and if a total row equals the header (violations proved)
C67 | partial | false for 37 columns (violation proved), proved for all other tables
C68 | proved | 
C40 | partial | places of k-points, eigenvalues and metadata proved for every accepted file; files without surplus blank lines at the ends of the data are read alike whatever blank lines they contain; false for a blank line at the end (refused, proved for every text) and inside a block (violation proved)
C41 | partial | order of the grid and all magnetization parts proved for every file; the divisor is the signed triple product of the scaled vectors, so the claim is false for left-handed cells and for negative scaling (volume) factors (violations proved)
C42 | proved | 
C69 | proved | for Stream a missing file is noticed after a bad configuration
C70 | partial | proved for entries separated as VASP prints them; false for an entry directly behind ';' and for numbers with exponent E+ (violations proved)
C47 | proved | for documents with eigenvalues in one calculation; several are refused (theorem C47_violation_steps)
C48 | partial | proved for nine columns; any other number of columns gives zeros (violation proved)
C51 | proved | 
C52 | proved | 
C56 | partial | without data the status is not checked (violation proved)
C59 | proved | 
C71 | partial | a missing file and a text handler fail with AttributeError/TypeError (violation proved)
C72 | partial | single numbers and lists of numbers proved; false for rows: an overflowed row becomes zeros or one number repeated (violations proved)
C73 | proved | 
C49 | partial | proved but for one atom and two steps; 'all' has a second equal entry for a single step (violations proved)
C50 | proved | for documents whose electronic steps print all three energies
C54 | proved | the table lacks the present names of elements 113 to 118 (theorem C54_violation_names)
C55 | partial | proved for ten columns and one dos element; otherwise zeros or mixed atoms (violations proved)
C74 | proved | 
C75 | proved | 
C76 | proved | 
C53 | partial | Agreement of all quantities proved for documents in the layout of VASP (Doc and Usual; C53_usual_partial puts all quantities together, with a full example document); in general the claim is false: the theorems C53_violation_* give documents on which the parsers differ. C53_object_partial states it for the class: constructor (event=True or False) and every getter, with lxml as a parameter.
C77 | partial | Proved for all elements except those with the fifteen names whose text the parser reads at the start event (version, parameters, final energies, divisions, eigenvalues of the dynamical matrix); false for these (C77_violation_*).
C78 | partial | Exact for the regular parser: without rows of a density of states the call is an uncaught TypeError even if the Fermi level is printed (C78_violation); the event driven parser agrees for documents in the layout of VASP with at most one density of states.
C79 | partial | Proved but for one atom and two steps (C49); without structures the status is not checked (violation proved).
C80 | partial | Proved for the regular parser; false for the event driven parser on every document (C80_violation_event).
C81 | partial | The content of the dictionary is proved; the round trip holds without explicit points and is false for every object with a point in explicit or line mode (violation proved for all of them).
C82 | partial | Proved for all sources and histories that store no text with '#'; false for such a text given to modify (violation proved).
C83 | partial | has_entries proved; number_of_entries proved without history, with history every repetition counts (violation proved).
C84 | proved | the engine for patterns of characters and dots is modelled (Model/StreamRegex), the configuration is generated from stream.yml
C85 | partial | Proved for all programs in which no dictionary or list is given to several objects (references and in-place changes are modelled); false for a shared dictionary, also for the dictionary of the caller, and for a shared list (violations proved).
C86 | partial | Proved for all programs in which no dictionary, list or Site is given to several objects (references and in-place changes are modelled); false for Site objects given to two objects with different cells (the second holds another point), and for a shared dictionary (violations proved for all cells and sites).
C87 | partial | Proved for all writers, arguments, crash points, flush schedules and histories: only the named path changes, it holds a beginning of the text at any crash and exactly the text after a return. False: the file is emptied before anything is checked, so a kill, a failing check and every read-only parser destroy the old content (violations proved).
C88 | proved | INCAR, KPOINTS (explicit points; the other modes through C88_kpoints with C22, C23) and POSCAR composed with the disk model and the round-trip theorems; the hypotheses on the object are those of C02, C21 and C15.
C89 | proved | 
C90 | partial | Constructor, parser and all getters composed; the restrictions (and the proved violations) are those of C48, C49, C55: one atom with two steps, projections other than nine columns, several densities of states.
C91 | proved | 
C92 | partial | Proved for cuts at line ends that are accepted: what is reported agrees with the complete file; and for cuts at any character behind the sixth line, where only the value of the last word can be wrong too (C92_inside_partial). That a cut file is refused is false (every cut behind the header is accepted, C92_violation_accepted), and a cut inside a number gives another number.
C93 | partial | Proved for cuts at line ends that are accepted: metadata and total density agree with the complete file; the partial one may be missing or, with one ion, short; and for cuts at any character, where only the last number read can be wrong too (C93_inside_partial; with a single energy or a single row left: that row). That a cut file is refused is false, and a cut inside a number gives another number.
C94 | partial | Proved for cuts at line ends that are accepted: the charge density agrees; and for cuts at any character, where only the very last number can be wrong too (C94_inside_partial). False: a noncollinear file cut in front of the third data set is accepted as collinear, any file cut behind the first data set as a calculation without spin.
C95 | proved | 
C96 | proved | For an arbitrary regular expression engine at line ends; for the shipped configuration at every byte.
C97 | partial | Proved for cuts at line ends that are accepted: comment, cell and sites agree, velocities and predictors agree or are missing; and for cuts at any character, where only the last number or flag read can be wrong too (C97_inside_partial). False: cut behind the positions velocities are lost silently; inside the last number the position changes.
C98 | partial | Proved for all cuts: tags assigned neither on the last line of the cut file nor again behind it agree; a cut at a line end is always accepted and has the first tags; for written files every tag but the one on the last line has the value of the object. False inside the last value and for tags assigned twice.
C99 | partial | Proved for cuts at line ends that are accepted: everything but tetrahedra, shifts and, in line mode, the last points agrees; and for cuts at any character, where only the last number read can be wrong too (C99_inside_partial). False: line mode files are accepted behind their fourth line with any number of points; shifts and tetrahedra are lost silently.
C100 | partial | Proved for INCAR, POTCAR, CHGCAR, complete DOSCAR files, the data and verdict of OUTCAR, the standard output with the shipped configuration, KPOINTS in line mode, with generating vectors or with tetrahedra, POSCAR with predictors, and one blank line behind the positions of a POSCAR. False, each for every such file: EIGENVAL, KPOINTS with a list of points and POSCAR with velocities (or two blank lines) are refused; a mesh loses its shifts or gets empty ones; fifty blank lines hide the statistics of an OUTCAR.
C101 | partial | Proved with machine numbers (any, binary64 shown to be an instance) for parsed INCAR files without infinities, explicit KPOINTS, meshes, generating vectors, paths read from files, and POSCAR in direct coordinates with comments that stay; from the second text on nothing changes whatever the comment. Numbers printed as a negative zero are excluded (the sign of zero is not modelled), and Cartesian POSCAR output, where the program computes with the numbers. False: the first POSCAR comment with `#`, and paths of more than two points read as a string cannot be written again.
C102 | partial | Proved, refusals included, for DOSCAR, EIGENVAL (newlines as only line breaks), KPOINTS with the same empty lines, POSCAR with the same first character of keyword lines, INCAR with the same bare newlines, CHGCAR with the same grid line. False, each for every such file: a blank before `Direct` turns POSCAR positions into cartesian ones; a blank on an empty line adds a point without coordinates to a KPOINTS path; a blank behind a final `;` makes an INCAR be refused; a repetition of the CHGCAR grid line with other blanks loses the magnetization.
C103 | partial | Proved, refusals included, for KPOINTS, POSCAR, POTCAR, OUTCAR, DOSCAR, EIGENVAL, the standard output (any configuration whose patterns do not look at a final newline; the shipped one), CHGCAR that does not end with the grid line (every accepted one), and INCAR that does not end with a `;`. False for INCAR files that end with a `;` outside a comment: refused with code 102 without the newline.
C104 | partial | Proved for modify, delete, delete_point, delete_site, add_point, add_site and Kpoints(kpoints_dict=...), with histories; the methods are modelled statement by statement and shown to agree with the models of C85/C86. False for Poscar(poscar_dict=...): a refused dictionary has its cartesian Site objects converted (violation proved for every invertible cell and Site); proved there that nothing else changes, and nothing at all without cartesian Site objects.
C105 | partial | Proved for all programs in which the caller does not change a list in place, with any sharing of dictionaries, lists and values; and for changes of lists no object holds. False for lists given to or taken from an object: changed in place, every object holding them changes, unchecked (violations proved for every list).
C106 | partial | Proved, refusals included, for KPOINTS, POSCAR, DOSCAR, EIGENVAL, and for INCAR texts that spell `.true.` and `.false.` in one of the three known mixtures of cases. False for INCAR otherwise: `.tRUE.` stays text (violation proved for every tag and every other mixture). ASCII letters only.
C107 | partial | Proved for all attributes and histories, with the pattern a string or a compiled pattern. False for other objects given as the pattern: setter and constructor store them, and no line can be checked afterwards (violation proved for every such object). The regular expression library is a parameter; `__repr__` is not modelled.
C108 | partial | Proved for new handlers, after `seek(0)` (and in general for the text behind the position after the last `seek`), and for vasprun.xml at any position. False for a handler that has been read: the second object is the one of an empty file, for INCAR an object without tags and for the scanner no errors, without any message (violations proved for all texts and programs).
C109 | partial | Proved for all programs that change nothing in place through values taken from this object (changes through values of other objects are allowed), and without restriction for numbers, texts and truth values. False otherwise: getters hand out the stored dictionaries, lists and arrays, so `x = o.get_dos(); x[k] = v` changes what the getter returns from then on (violation proved for every object, item and value). An assigned item is a number, text, truth value or None.
C110 | partial | Proved for all objects of both parsers and all getters but get_version. False: the version is not in the dictionary; the documented status `final` exits 507 in all four getters (the code wants `last`); in event mode `initial` is an uncaught KeyError if the first ionic step does not print the quantity (violations proved).
C111 | proved | The rounding is a parameter; binary64 with u = 2^-53, t = 2^-1075 is proved to meet it, and so is the left-to-right dot product. The inverse numpy computes is a parameter described by its residual.
C112 | proved | The accuracy needed is an explicit hypothesis on each printed vector; C112_accurate gives a sufficient condition from the sizes, the precision and the residual. Infinities, nan and the sign of zero are not modelled.
C113 | partial | Proved: parameters, version and divisions same or missing; species, k-points, weights, dielectric tables, hessian, eigenvectors and densities are first parts; eigenvalues and projections are complete, missing, refused or those of the first spin; completed ionic steps and energies unchanged. False: the first spin alone is returned as a calculation without spin; partial densities and Born charges are dealt out to the wrong atoms; positions and forces of the last step are short or empty or mixed from two steps; one step without energies loses those of all steps; a cut in the eigenvalues refuses the whole file; a cut inside a number gives another number (violations proved). Not modelled: the event parser on a truncated text.
C114 | partial | Proved: validation, acceptance and refusal of every value that is not None, and all histories of such edits under the three names on an object with a comment. False for None (accepted as unit cell, sites and single site), for lists of other things, for names that merely contain the name of an entry, and for the comment once it is None (violations proved for every object).
C115 | partial | Proved for all texts whose line breaks are newlines (KPOINTS in line mode: without empty lines among the points). False for KPOINTS in line mode with empty lines, where a string gives a point without coordinates for each (proved for every such text), and for other line breaks.
C116 | partial | Proved for every parser: only the listed codes, and each of them for some input. False for a Poscar without one of its entries, which raises a KeyError instead of ending with 12 (proved for every such object).
C117 | partial | kinds and str() proved; the table proved in all cases (C117_configured) and as claimed if no two kinds differ in case only; otherwise the inverse streams are listed once per spelling (violation proved).
C118 | partial | Proved for every object, in all files opened for appending, and at every position but for KPOINTS in line mode; those cut the file behind themselves and leave the position one behind the end (C118_line), so that the next write puts a NUL character in between (violation proved).
C119 | partial | Proved: other paths are never changed; the path is as before or holds a beginning of the text, and every beginning can be left; what is accepted from it differs from x only at its end (last tag assigned; velocities, predictors and last number; last points, shifts, tetrahedra). False: the old file is lost, an INCAR reads as empty, every POSCAR with velocities can be read without them, every KPOINTS in line mode without points (violations proved).
C120 | partial | Proved: by path (universal newlines) for every parser; strings of INCAR and KPOINTS; CRLF through a file handler for DOSCAR, POTCAR, OUTCAR up to the memory statistics, INCAR, KPOINTS and POSCAR up to blank lines, the standard output up to two phrases. False otherwise: predictors of a POSCAR are lost, EIGENVAL and CHGCAR are refused, memory statistics of OUTCAR are lost, blank lines of KPOINTS in line mode become points, a phrase ending with a dot matches the carriage return (violations proved).
C121 | partial | Proved: the cell is the factor times the printed vectors, negative factors are refused with exit code 307 through every source, and rescaled texts give the same object. False: a factor of zero is accepted and the second and third factor of a line with three are ignored (violations proved).
C122 | partial | Proved: which files have velocities and predictors, and for each site the lines they are taken from and how they are converted. False: direct velocities behind cartesian positions are converted as if cartesian, and velocities behind a blank line (as VASP writes them) are returned as predictors (violations proved).
C123 | partial | Proved: no number POSCAR, DOSCAR and EIGENVAL read is damaged, none of the elastic tensors and the total magnetization of OUTCAR, and none of CHGCAR but possibly the last of a data set; what `np.fromstring` does on every text is modelled character by character and agrees with the word-wise models. False: the last number of a CHGCAR data set and of a row of vasprun.xml may be damaged and is then read up to the damage; any other damage in a row of vasprun.xml makes it zero or constant (violations proved).
C124 | partial | Proved, on models without restrictions to sensible counts: what an accepted POSCAR, DOSCAR, EIGENVAL, CHGCAR or KPOINTS announces and that it returns as many as announced where the counts are possible. False: negative numbers of energies, of sites, of tetrahedra and (one) of grid points, no spins, and grids with other than three extents are accepted (violations proved).
C125 | partial | Proved for every number of a DOSCAR, of an EIGENVAL, of the densities of a CHGCAR and of the elastic moduli and magnetizations of an OUTCAR (with which OUTCAR files are then accepted), on models with infinite numbers and NaN that agree with the other models on finite ones. False: a DOSCAR whose Fermi level is NaN loses its partial densities of states (violation proved).
C126 | proved | the exact form of what C04, C10, C103 and C120 claim of INCAR
C127 | proved | exhausted memory, integers beyond 64 bits and files that are no text are not modelled, nor what lxml raises on texts that are no XML; where the models leave inf and nan open (vasprun.xml: words that are no numbers too; POSCAR, KPOINTS, OUTCAR, POTCAR, the lattice of a CHGCAR) nothing is said of such texts
C128 | proved | positions are integers (not numpy integers or booleans)
C129 | proved | 
C130 | proved | values are those of the models' `Val`: None, str, int, float, points/sites, lists of them, arrays
C131 | proved | without tetrahedra; points put in have three coordinates
C132 | proved | the exact form of C17
C133 | proved | sharpens C28; the last part is the exact form of C29
C134 | proved | the exact form of C14
C135 | proved | the exact form of C83 with history; the regular expression engine is a parameter
C136 | proved | the exact form of C72 for tables; texts whose words are numbers up to the end or to a word beginning with '*'
C137 | proved | sites put in have direct coordinates and a species name that is a word
C138 | proved | the exact form of C23 for strings
C139 | proved | composition of C07 and C02 over histories, with the exact condition on the arguments
C140 | proved | the exact form of C49 and of C56 for ionic steps
C141 | proved | the exact form of C24
C142 | proved | the exact form of C114
C143 | proved | the exact form of C48 and C55
C144 | proved | the exact form of C79
C145 | proved | both classes
C146 | proved | what NumPy's np.dot does inside is covered by its error bound d; binary64 instance for summation from the left
C147 | proved | files by path; UnicodeDecodeError is represented by ValueError, its superclass
C148 | proved | numbers are finite here: the literals inf and nan, which Python accepts in tables, count as unreadable; with them as values, C125_outcar_accepted and C125_outcar_refused say the same
C149 | proved | for texts with a newline as their only line break, as opened files deliver them
C150 | proved | the values of the accepted files are those of C37, C39, C125
C151 | proved | for texts without infinite numbers and NaN; the values of the accepted files are those of C14, C63, C121, C122, C134
C152 | proved | for texts without infinite numbers and NaN; the values of the accepted files are those of C21 to C23
C153 | proved | 
C154 | proved | the patterns are sequences of pieces (one character, optional, greedy, lazy, look ahead); the alternatives of (sec|kb) are two patterns
C155 | proved | a STEP with a signed inf or nan (which float accepts) is outside of the model and excluded from the refusals
