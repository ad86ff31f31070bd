{
 "claims": [
  {
   "property": "C01",
   "status": "proved",
   "theorems": [
    "Verif.Incar.C01_canonical_text",
    "Verif.Incar.C01_one_line_per_tag"
   ],
   "note": ""
  },
  {
   "property": "C02",
   "status": "partial",
   "theorems": [
    "Verif.Incar.C02_round_trip",
    "Verif.Incar.C02_parsed_file_partial",
    "Verif.Incar.C02_violation_bool_list",
    "Verif.Incar.C02_violation_inf",
    "Verif.Incar.C02_violation_raw_list",
    "Verif.Incar.C02_violation_singleton"
   ],
   "note": "Full claim is false: lists of truth values, non-finite floats, modify() with a list for MAGMOM/SYSTEM or a one-element list (proved violations). Proved for every parsed file without them and for every storable entry set."
  },
  {
   "property": "C03",
   "status": "proved",
   "theorems": [
    "Verif.Incar.C03_last_assignment_wins",
    "Verif.Incar.C03_tag_normalised"
   ],
   "note": ""
  },
  {
   "property": "C04",
   "status": "partial",
   "theorems": [
    "Verif.Incar.C04_violation_every",
    "Verif.Incar.C04_comment_lines_inert",
    "Verif.Incar.C04_comment_appended",
    "Verif.Incar.C04_comment_appended_file_partial",
    "Verif.Incar.C04_violation_semicolon"
   ],
   "note": "False for every file line ending with ';' (violation proved for all of them; exact form: C126); proved for all other lines and all positions."
  },
  {
   "property": "C05",
   "status": "partial",
   "theorems": [
    "Verif.Incar.C05_integers",
    "Verif.Incar.C05_floats_partial",
    "Verif.Incar.C05_text",
    "Verif.Incar.C05_mixed_exit_partial",
    "Verif.Incar.C05_raw",
    "Verif.Incar.C05_objects",
    "Verif.Incar.C05_violation_nan"
   ],
   "note": "Typing proved for integer, float, text and mixed token lists, raw tags, objects; nan/inf tokens raise (proved violation)."
  },
  {
   "property": "C06",
   "status": "proved",
   "theorems": [
    "Verif.Incar.C06_validation"
   ],
   "note": ""
  },
  {
   "property": "C07",
   "status": "proved",
   "theorems": [
    "Verif.Incar.C07_map_semantics",
    "Verif.Incar.C07_constructed_distinct"
   ],
   "note": ""
  },
  {
   "property": "C08",
   "status": "partial",
   "theorems": [
    "Verif.Incar.C08_value_partial",
    "Verif.Incar.C08_violation"
   ],
   "note": "get(tag, comment=True) returns the value twice (proved violation); the value half is proved."
  },
  {
   "property": "C09",
   "status": "partial",
   "theorems": [
    "Verif.Incar.C09_incar_partial",
    "Verif.Incar.C09_incar_violation",
    "Verif.Kpoints.C09_kpoints_partial",
    "Verif.Kpoints.C09_kpoints_violation",
    "Verif.Kpoints.C09_kpoints_violation_handler",
    "Verif.Poscar.C09_poscar_partial",
    "Verif.Poscar.C09_poscar_violation"
   ],
   "note": "all three constructors: no source and exactly one source proved; some combinations of two sources are accepted (violations proved)"
  },
  {
   "property": "C10",
   "status": "partial",
   "theorems": [
    "Verif.Incar.C10_string_file_agree_partial",
    "Verif.Incar.C10_violation",
    "Verif.Incar.C10_violation_formfeed"
   ],
   "note": "False for a trailing ';' and for form feeds (proved violations); proved for all other texts."
  },
  {
   "property": "C100",
   "status": "partial",
   "theorems": [
    "Verif.Incar.C100_incar",
    "Verif.Potcar.C100_potcar",
    "Verif.Outcar.C100_outcar_partial",
    "Verif.Outcar.C100_outcar_same",
    "Verif.Outcar.C100_violation_outcar",
    "Verif.Kpoints.C100_kpoints_line",
    "Verif.Kpoints.C100_kpoints_vectors",
    "Verif.Kpoints.C100_kpoints_tetra",
    "Verif.Kpoints.C100_violation_points",
    "Verif.Kpoints.C100_violation_shifts",
    "Verif.Kpoints.C100_violation_mesh",
    "Verif.Kpoints.C100_violation_line",
    "Verif.Chgcar.C100_chgcar",
    "Verif.Doscar.C100_doscar",
    "Verif.Eigenval.C100_violation_eigenval",
    "Verif.Stream.C100_stream",
    "Verif.Poscar.C100_poscar_partial",
    "Verif.Poscar.C100_violation_positions",
    "Verif.Poscar.C100_violation_velocities",
    "Verif.Poscar.C100_poscar_predictors"
   ],
   "note": "Proved for INCAR, POTCAR, CHGCAR, complete DOSCAR files, the data and verdict of OUTCAR, the standard output with the shipped configuration, KPOINTS in line mode, with generating vectors or with tetrahedra, POSCAR with predictors, and one blank line behind the positions of a POSCAR. False, each for every such file: EIGENVAL, KPOINTS with a list of points and POSCAR with velocities (or two blank lines) are refused; a mesh loses its shifts or gets empty ones; fifty blank lines hide the statistics of an OUTCAR."
  },
  {
   "property": "C101",
   "status": "partial",
   "theorems": [
    "Verif.Incar.C101_incar_storable",
    "Verif.Incar.C101_incar_partial",
    "Verif.Kpoints.C101_explicit",
    "Verif.Kpoints.C101_grid",
    "Verif.Kpoints.C101_vectors",
    "Verif.Kpoints.C101_path_partial",
    "Verif.Kpoints.C101_violation_path",
    "Verif.Poscar.C101_poscar_partial",
    "Verif.Poscar.C101_poscar_later_partial",
    "Verif.Poscar.C101_violation_comment"
   ],
   "note": "Proved with machine numbers (any, binary64 shown to be an instance) for parsed INCAR files without infinities, explicit KPOINTS, meshes, generating vectors, paths read from files, and POSCAR in direct coordinates with comments that stay; from the second text on nothing changes whatever the comment. Numbers printed as a negative zero are excluded (the sign of zero is not modelled), and Cartesian POSCAR output, where the program computes with the numbers. False: the first POSCAR comment with `#`, and paths of more than two points read as a string cannot be written again."
  },
  {
   "property": "C102",
   "status": "partial",
   "theorems": [
    "Verif.Chgcar.C102_chgcar_partial",
    "Verif.Chgcar.C102_violation_chgcar",
    "Verif.Incar.C102_incar_partial",
    "Verif.Incar.C102_violation_incar",
    "Verif.Kpoints.C102_kpoints_partial",
    "Verif.Kpoints.C102_violation_kpoints",
    "Verif.Poscar.C102_poscar_partial",
    "Verif.Poscar.C102_violation_poscar",
    "Verif.Doscar.C102_doscar",
    "Verif.Eigenval.C102_eigenval_partial"
   ],
   "note": "Proved, refusals included, for DOSCAR, EIGENVAL (newlines as only line breaks), KPOINTS with the same empty lines, POSCAR with the same first character of keyword lines, INCAR with the same bare newlines, CHGCAR with the same grid line. False, each for every such file: a blank before `Direct` turns POSCAR positions into cartesian ones; a blank on an empty line adds a point without coordinates to a KPOINTS path; a blank behind a final `;` makes an INCAR be refused; a repetition of the CHGCAR grid line with other blanks loses the magnetization."
  },
  {
   "property": "C103",
   "status": "partial",
   "theorems": [
    "Verif.Kpoints.C103_kpoints",
    "Verif.Poscar.C103_poscar",
    "Verif.Doscar.C103_doscar",
    "Verif.Incar.C103_incar_partial",
    "Verif.Incar.C103_violation_incar",
    "Verif.Eigenval.C103_eigenval",
    "Verif.Chgcar.C103_chgcar",
    "Verif.Chgcar.C103_chgcar_accepted",
    "Verif.Potcar.C103_potcar",
    "Verif.Outcar.C103_outcar",
    "Verif.Stream.C103_stream",
    "Verif.Stream.C103_stream_shipped"
   ],
   "note": "Proved, refusals included, for KPOINTS, POSCAR, POTCAR, OUTCAR, DOSCAR, EIGENVAL, the standard output (any configuration whose patterns do not look at a final newline; the shipped one), CHGCAR that does not end with the grid line (every accepted one), and INCAR that does not end with a `;`. False for INCAR files that end with a `;` outside a comment: refused with code 102 without the newline."
  },
  {
   "property": "C104",
   "status": "partial",
   "theorems": [
    "Verif.Incar.C104_incar",
    "Verif.Kpoints.C104_kpoints",
    "Verif.Kpoints.C104_kpoints_history",
    "Verif.Poscar.C104_poscar",
    "Verif.Poscar.C104_poscar_history",
    "Verif.Poscar.C104_poscar_construct_partial",
    "Verif.Poscar.C104_violation_poscar"
   ],
   "note": "Proved for modify, delete, delete_point, delete_site, add_point, add_site and Kpoints(kpoints_dict=...), with histories; the methods are modelled statement by statement and shown to agree with the models of C85/C86. False for Poscar(poscar_dict=...): a refused dictionary has its cartesian Site objects converted (violation proved for every invertible cell and Site); proved there that nothing else changes, and nothing at all without cartesian Site objects."
  },
  {
   "property": "C105",
   "status": "partial",
   "theorems": [
    "Verif.Incar.C105_independent_partial",
    "Verif.Incar.C105_other_objects_partial",
    "Verif.Incar.C105_violation",
    "Verif.Incar.C105_violation_get",
    "Verif.Incar.C105_private_list"
   ],
   "note": "Proved for all programs in which the caller does not change a list in place, with any sharing of dictionaries, lists and values; and for changes of lists no object holds. False for lists given to or taken from an object: changed in place, every object holding them changes, unchecked (violations proved for every list)."
  },
  {
   "property": "C106",
   "status": "partial",
   "theorems": [
    "Verif.Kpoints.C106_kpoints",
    "Verif.Poscar.C106_poscar",
    "Verif.Incar.C106_incar_partial",
    "Verif.Incar.C106_violation_incar",
    "Verif.Doscar.C106_doscar",
    "Verif.Eigenval.C106_eigenval"
   ],
   "note": "Proved, refusals included, for KPOINTS, POSCAR, DOSCAR, EIGENVAL, and for INCAR texts that spell `.true.` and `.false.` in one of the three known mixtures of cases. False for INCAR otherwise: `.tRUE.` stays text (violation proved for every tag and every other mixture). ASCII letters only."
  },
  {
   "property": "C107",
   "status": "partial",
   "theorems": [
    "Verif.Stream.C107_assign",
    "Verif.Stream.C107_history_partial",
    "Verif.Stream.C107_last",
    "Verif.Stream.C107_construct",
    "Verif.Stream.C107_construct_refuses",
    "Verif.Stream.C107_check_line",
    "Verif.Stream.C107_report",
    "Verif.Stream.C107_violation",
    "Verif.Stream.C107_entry"
   ],
   "note": "Proved for all attributes and histories, with the pattern a string or a compiled pattern. False for other objects given as the pattern: setter and constructor store them, and no line can be checked afterwards (violation proved for every such object). The regular expression library is a parameter; `__repr__` is not modelled."
  },
  {
   "property": "C108",
   "status": "partial",
   "theorems": [
    "Verif.Handlers.C108_untouched",
    "Verif.Handlers.C108_from_position_partial",
    "Verif.Handlers.C108_fresh",
    "Verif.Handlers.C108_violation_used_up",
    "Verif.Handlers.C108_violation_empty",
    "Verif.Handlers.C108_xml"
   ],
   "note": "Proved for new handlers, after `seek(0)` (and in general for the text behind the position after the last `seek`), and for vasprun.xml at any position. False for a handler that has been read: the second object is the one of an empty file, for INCAR an object without tags and for the scanner no errors, without any message (violations proved for all texts and programs)."
  },
  {
   "property": "C109",
   "status": "partial",
   "theorems": [
    "Verif.Results.C109_results_partial",
    "Verif.Results.C109_immutable",
    "Verif.Results.C109_violation"
   ],
   "note": "Proved for all programs that change nothing in place through values taken from this object (changes through values of other objects are allowed), and without restriction for numbers, texts and truth values. False otherwise: getters hand out the stored dictionaries, lists and arrays, so `x = o.get_dos(); x[k] = v` changes what the getter returns from then on (violation proved for every object, item and value). An assigned item is a number, text, truth value or None."
  },
  {
   "property": "C11",
   "status": "partial",
   "theorems": [
    "Verif.Incar.C11_violation_every_empty_tag",
    "Verif.Incar.C11_violation_every_special",
    "Verif.Incar.C11_malformed_entry",
    "Verif.Incar.C11_nothing_dropped",
    "Verif.Incar.C11_failures_partial",
    "Verif.Incar.C11_violation_nan",
    "Verif.Incar.C11_violation_empty_tag"
   ],
   "note": "Exit codes 101/102 and that nothing is dropped proved; the claim that no exception escapes is false (violations proved for every entry without tag and every value with inf or nan)."
  },
  {
   "property": "C110",
   "status": "partial",
   "theorems": [
    "Verif.VasprunApi.C110_getters_partial",
    "Verif.VasprunApi.C110_everything_partial",
    "Verif.VasprunApi.C110_violation_version",
    "Verif.VasprunApi.C110_violation_final",
    "Verif.VasprunApi.C110_violation_initial"
   ],
   "note": "Proved for all objects of both parsers and all getters but get_version. False: the version is not in the dictionary; the documented status `final` exits 507 in all four getters (the code wants `last`); in event mode `initial` is an uncaught KeyError if the first ionic step does not print the quantity (violations proved)."
  },
  {
   "property": "C111",
   "status": "proved",
   "theorems": [
    "Verif.Poscar.C111_binary64",
    "Verif.Poscar.C111_dot",
    "Verif.Poscar.C111_cart_dir_cart",
    "Verif.Poscar.C111_dir_cart_dir",
    "Verif.Poscar.C111_toCart",
    "Verif.Poscar.C111_toDir",
    "Verif.Poscar.C111_reciprocal"
   ],
   "note": "The rounding is a parameter; binary64 with u = 2^-53, t = 2^-1075 is proved to meet it, and so is the left-to-right dot product. The inverse numpy computes is a parameter described by its residual."
  },
  {
   "property": "C112",
   "status": "proved",
   "theorems": [
    "Verif.Poscar.C112_settles",
    "Verif.Poscar.C112_accurate"
   ],
   "note": "The accuracy needed is an explicit hypothesis on each printed vector; C112_accurate gives a sufficient condition from the sizes, the precision and the residual. Infinities, nan and the sign of zero are not modelled."
  },
  {
   "property": "C113",
   "status": "partial",
   "theorems": [
    "Verif.Vasprun.C113_header_partial",
    "Verif.Vasprun.C113_bands_partial",
    "Verif.Vasprun.C113_projectors_partial",
    "Verif.Vasprun.C113_response_partial",
    "Verif.Vasprun.C113_dos_partial",
    "Verif.Vasprun.C113_refused",
    "Verif.Vasprun.C113_violation_energies",
    "Verif.Vasprun.C113_violation_spin",
    "Verif.Vasprun.C113_violation_eigenvalues",
    "Verif.Vasprun.C113_violation_partial_dos",
    "Verif.Vasprun.C113_violation_born",
    "Verif.Vasprun.C113_violation_last",
    "Verif.Vasprun.C113_violation_first_last",
    "Verif.Vasprun.C113_violation_number",
    "Verif.Vasprun.C113_energies_partial",
    "Verif.Vasprun.C113_steps_partial",
    "Verif.Vasprun.C113_between_partial"
   ],
   "note": "Proved: parameters, version and divisions same or missing; species, k-points, weights, dielectric tables, hessian, eigenvectors and densities are first parts; eigenvalues and projections are complete, missing, refused or those of the first spin; completed ionic steps and energies unchanged. False: the first spin alone is returned as a calculation without spin; partial densities and Born charges are dealt out to the wrong atoms; positions and forces of the last step are short or empty or mixed from two steps; one step without energies loses those of all steps; a cut in the eigenvalues refuses the whole file; a cut inside a number gives another number (violations proved). Not modelled: the event parser on a truncated text."
  },
  {
   "property": "C114",
   "status": "partial",
   "theorems": [
    "Verif.Poscar.Typing.C114_validation",
    "Verif.Poscar.Typing.C114_accepts",
    "Verif.Poscar.Typing.C114_refused",
    "Verif.Poscar.Typing.C114_site_refused",
    "Verif.Poscar.Typing.C114_name",
    "Verif.Poscar.Typing.C114_history_partial",
    "Verif.Poscar.Typing.C114_violation_none",
    "Verif.Poscar.Typing.C114_violation_site",
    "Verif.Poscar.Typing.C114_violation_elements",
    "Verif.Poscar.Typing.C114_violation_name",
    "Verif.Poscar.Typing.C114_violation_comment"
   ],
   "note": "Proved: validation, acceptance and refusal of every value that is not None, and all histories of such edits under the three names on an object with a comment. False for None (accepted as unit cell, sites and single site), for lists of other things, for names that merely contain the name of an entry, and for the comment once it is None (violations proved for every object)."
  },
  {
   "property": "C115",
   "status": "partial",
   "theorems": [
    "Verif.Sources.C115_poscar_partial",
    "Verif.Sources.C115_kpoints_partial",
    "Verif.Sources.C115_violation",
    "Verif.Sources.C115_violation_breaks"
   ],
   "note": "Proved for all texts whose line breaks are newlines (KPOINTS in line mode: without empty lines among the points). False for KPOINTS in line mode with empty lines, where a string gives a point without coordinates for each (proved for every such text), and for other line breaks."
  },
  {
   "property": "C116",
   "status": "partial",
   "theorems": [
    "Verif.ExitCodes.C116_kpoints",
    "Verif.ExitCodes.C116_kpoints_modify",
    "Verif.ExitCodes.C116_kpoints_delete",
    "Verif.ExitCodes.C116_kpoints_write",
    "Verif.ExitCodes.C116_poscar",
    "Verif.ExitCodes.C116_poscar_modify",
    "Verif.ExitCodes.C116_poscar_site",
    "Verif.ExitCodes.C116_poscar_delete",
    "Verif.ExitCodes.C116_poscar_write_partial",
    "Verif.ExitCodes.C116_poscar_cartesian",
    "Verif.ExitCodes.C116_violation_poscar",
    "Verif.ExitCodes.C116_incar_text",
    "Verif.ExitCodes.C116_incar",
    "Verif.ExitCodes.C116_incar_unchecked",
    "Verif.ExitCodes.C116_incar_modify",
    "Verif.ExitCodes.C116_outcar",
    "Verif.ExitCodes.C116_doscar",
    "Verif.ExitCodes.C116_eigenval",
    "Verif.ExitCodes.C116_chgcar",
    "Verif.ExitCodes.C116_potcar",
    "Verif.ExitCodes.C116_stream",
    "Verif.ExitCodes.C116_vasprun",
    "Verif.ExitCodes.C116_vasprun_event",
    "Verif.ExitCodes.C116_xml",
    "Verif.ExitCodes.C116_xml_source",
    "Verif.ExitCodes.C116_getters",
    "Verif.ExitCodes.C116_energies"
   ],
   "note": "Proved for every parser: only the listed codes, and each of them for some input. False for a Poscar without one of its entries, which raises a KeyError instead of ending with 12 (proved for every such object)."
  },
  {
   "property": "C117",
   "status": "partial",
   "theorems": [
    "Verif.Stream.C117_kinds",
    "Verif.Stream.C117_configured",
    "Verif.Stream.C117_configured_partial",
    "Verif.Stream.C117_str",
    "Verif.Stream.C117_violation"
   ],
   "note": "kinds and str() proved; the table proved in all cases (C117_configured) and as claimed if no two kinds differ in case only; otherwise the inverse streams are listed once per spelling (violation proved)."
  },
  {
   "property": "C118",
   "status": "partial",
   "theorems": [
    "Verif.Output.C118_position_partial",
    "Verif.Output.C118_line",
    "Verif.Output.C118_end",
    "Verif.Output.C118_append",
    "Verif.Output.C118_sequence_partial",
    "Verif.Output.C118_sequence_append",
    "Verif.Output.C118_violation",
    "Verif.Output.C118_refused",
    "Verif.Output.C118_keeps",
    "Verif.Output.C118_keeps_append",
    "Verif.Output.C118_back_incar",
    "Verif.Output.C118_back_poscar"
   ],
   "note": "Proved for every object, in all files opened for appending, and at every position but for KPOINTS in line mode; those cut the file behind themselves and leave the position one behind the end (C118_line), so that the next write puts a NUL character in between (violation proved)."
  },
  {
   "property": "C119",
   "status": "partial",
   "theorems": [
    "Verif.Output.C119_any",
    "Verif.Output.C119_disk",
    "Verif.Output.C119_incar_partial",
    "Verif.Output.C119_poscar_partial",
    "Verif.Output.C119_kpoints_partial",
    "Verif.Output.C119_kpoints_explicit_partial",
    "Verif.Output.C119_violation_velocities",
    "Verif.Output.C119_violation_line",
    "Verif.Output.C119_violation_empty"
   ],
   "note": "Proved: other paths are never changed; the path is as before or holds a beginning of the text, and every beginning can be left; what is accepted from it differs from x only at its end (last tag assigned; velocities, predictors and last number; last points, shifts, tetrahedra). False: the old file is lost, an INCAR reads as empty, every POSCAR with velocities can be read without them, every KPOINTS in line mode without points (violations proved)."
  },
  {
   "property": "C12",
   "status": "proved",
   "theorems": [
    "Verif.Poscar.C12_grouping"
   ],
   "note": "for every list of sites"
  },
  {
   "property": "C120",
   "status": "partial",
   "theorems": [
    "Verif.Newlines.C120_universal",
    "Verif.Kpoints.C120_kpoints",
    "Verif.Kpoints.C120_kpoints_handler_partial",
    "Verif.Kpoints.C120_violation_line",
    "Verif.Incar.C120_incar",
    "Verif.Incar.C120_incar_handler_partial",
    "Verif.Incar.C120_violation_incar",
    "Verif.Poscar.C120_poscar_partial",
    "Verif.Poscar.C120_poscar_noblank",
    "Verif.Poscar.C120_violation_predictors",
    "Verif.Newlines.C120_doscar",
    "Verif.Newlines.C120_violation_chgcar",
    "Verif.Outcar.C120_outcar",
    "Verif.Outcar.C120_outcar_partial",
    "Verif.Outcar.C120_violation_outcar",
    "Verif.Potcar.C120_potcar",
    "Verif.Eigenval.C120_violation_eigenval",
    "Verif.Stream.C120_stream_partial",
    "Verif.Stream.C120_stream_shipped",
    "Verif.Stream.C120_violation_stream",
    "Verif.Newlines.C120_path"
   ],
   "note": "Proved: by path (universal newlines) for every parser; strings of INCAR and KPOINTS; CRLF through a file handler for DOSCAR, POTCAR, OUTCAR up to the memory statistics, INCAR, KPOINTS and POSCAR up to blank lines, the standard output up to two phrases. False otherwise: predictors of a POSCAR are lost, EIGENVAL and CHGCAR are refused, memory statistics of OUTCAR are lost, blank lines of KPOINTS in line mode become points, a phrase ending with a dot matches the carriage return (violations proved)."
  },
  {
   "property": "C121",
   "status": "partial",
   "theorems": [
    "Verif.Poscar.C121_cell_partial",
    "Verif.Poscar.C121_negative",
    "Verif.Poscar.C121_rescaled",
    "Verif.Poscar.C121_violation_factors",
    "Verif.Poscar.C121_violation_zero"
   ],
   "note": "Proved: the cell is the factor times the printed vectors, negative factors are refused with exit code 307 through every source, and rescaled texts give the same object. False: a factor of zero is accepted and the second and third factor of a line with three are ignored (violations proved)."
  },
  {
   "property": "C122",
   "status": "partial",
   "theorems": [
    "Verif.Poscar.C122_velocities_partial",
    "Verif.Poscar.C122_predictors",
    "Verif.Poscar.C122_predictors_found",
    "Verif.Poscar.C122_violation_mixed",
    "Verif.Poscar.C122_violation_blank"
   ],
   "note": "Proved: which files have velocities and predictors, and for each site the lines they are taken from and how they are converted. False: direct velocities behind cartesian positions are converted as if cartesian, and velocities behind a blank line (as VASP writes them) are returned as predictors (violations proved)."
  },
  {
   "property": "C123",
   "status": "partial",
   "theorems": [
    "Verif.Poscar.C123_poscar",
    "Verif.Doscar.C123_doscar",
    "Verif.Eigenval.C123_eigenval",
    "Verif.Outcar.C123_outcar",
    "Verif.NpText.C123_text",
    "Verif.NpText.C123_text_damaged",
    "Verif.Chgcar.C123_chgcar_partial",
    "Verif.Chgcar.C123_chgcar_agrees",
    "Verif.Chgcar.C123_violation_chgcar",
    "Verif.Vasprun.C123_vasprun_agrees",
    "Verif.Vasprun.C123_violation_vasprun",
    "Verif.Vasprun.C123_violation_row"
   ],
   "note": "Proved: no number POSCAR, DOSCAR and EIGENVAL read is damaged, none of the elastic tensors and the total magnetization of OUTCAR, and none of CHGCAR but possibly the last of a data set; what `np.fromstring` does on every text is modelled character by character and agrees with the word-wise models. False: the last number of a CHGCAR data set and of a row of vasprun.xml may be damaged and is then read up to the damage; any other damage in a row of vasprun.xml makes it zero or constant (violations proved)."
  },
  {
   "property": "C124",
   "status": "partial",
   "theorems": [
    "Verif.ChgcarFull.C124_chgcar_partial",
    "Verif.ChgcarFull.C124_violation_chgcar",
    "Verif.ChgcarFull.C124_violation_chgcar_dims",
    "Verif.DoscarFull.C124_doscar_partial",
    "Verif.DoscarFull.C124_violation_doscar",
    "Verif.Eigenval.C124_eigenval_partial",
    "Verif.Eigenval.C124_violation_eigenval",
    "Verif.Kpoints.C124_kpoints_partial",
    "Verif.Kpoints.C124_violation_kpoints",
    "Verif.Poscar.C124_poscar_partial",
    "Verif.Poscar.C124_violation_poscar"
   ],
   "note": "Proved, on models without restrictions to sensible counts: what an accepted POSCAR, DOSCAR, EIGENVAL, CHGCAR or KPOINTS announces and that it returns as many as announced where the counts are possible. False: negative numbers of energies, of sites, of tetrahedra and (one) of grid points, no spins, and grids with other than three extents are accepted (violations proved)."
  },
  {
   "property": "C125",
   "status": "partial",
   "theorems": [
    "Verif.ChgcarFull.C125_chgcar",
    "Verif.ChgcarFull.C125_chgcar_accepted",
    "Verif.DoscarFull.C125_doscar",
    "Verif.DoscarFull.C125_doscar_accepted",
    "Verif.DoscarFull.C125_violation_doscar",
    "Verif.EigenvalFull.C125_eigenval",
    "Verif.EigenvalFull.C125_eigenval_header",
    "Verif.EigenvalFull.C125_eigenval_accepted",
    "Verif.OutcarFull.C125_outcar_tables",
    "Verif.OutcarFull.C125_outcar_full_cell",
    "Verif.OutcarFull.C125_outcar_spheres",
    "Verif.OutcarFull.C125_outcar_accepted",
    "Verif.OutcarFull.C125_outcar_refused"
   ],
   "note": "Proved for every number of a DOSCAR, of an EIGENVAL, of the densities of a CHGCAR and of the elastic moduli and magnetizations of an OUTCAR (with which OUTCAR files are then accepted), on models with infinite numbers and NaN that agree with the other models on finite ones. False: a DOSCAR whose Fermi level is NaN loses its partial densities of states (violation proved)."
  },
  {
   "property": "C126",
   "status": "proved",
   "theorems": [
    "Verif.Incar.C126_comment",
    "Verif.Incar.C126_string",
    "Verif.Incar.C126_string_accepted",
    "Verif.Incar.C126_crlf",
    "Verif.Incar.C126_final_newline"
   ],
   "note": "the exact form of what C04, C10, C103 and C120 claim of INCAR"
  },
  {
   "property": "C127",
   "status": "proved",
   "theorems": [
    "Verif.Exceptions.C127_doscar",
    "Verif.Exceptions.C127_eigenval",
    "Verif.Exceptions.C127_chgcar",
    "Verif.Exceptions.C127_potcar",
    "Verif.Exceptions.C127_kpoints",
    "Verif.Exceptions.C127_outcar",
    "Verif.Exceptions.C127_incar",
    "Verif.Exceptions.C127_poscar",
    "Verif.Exceptions.C127_vasprun",
    "Verif.Exceptions.C127_vasprun_event"
   ],
   "note": "exhausted memory, integers beyond 64 bits and files that are no text are not modelled, nor what lxml raises on texts that are no XML; where the models leave inf and nan open (vasprun.xml: words that are no numbers too; POSCAR, KPOINTS, OUTCAR, POTCAR, the lattice of a CHGCAR) nothing is said of such texts"
  },
  {
   "property": "C128",
   "status": "proved",
   "theorems": [
    "Verif.Positions.C128_fate",
    "Verif.Poscar.C128_poscar",
    "Verif.Kpoints.C128_kpoints",
    "Verif.Kpoints.C128_kpoints_none"
   ],
   "note": "positions are integers (not numpy integers or booleans)"
  },
  {
   "property": "C129",
   "status": "proved",
   "theorems": [
    "Verif.Incar.C129_incar_refused",
    "Verif.Incar.C129_incar_used",
    "Verif.Kpoints.C129_kpoints_refused",
    "Verif.Kpoints.C129_kpoints_used",
    "Verif.Poscar.C129_poscar_refused",
    "Verif.Poscar.C129_poscar_used"
   ],
   "note": ""
  },
  {
   "property": "C13",
   "status": "proved",
   "theorems": [
    "Verif.Poscar.C13_conserve"
   ],
   "note": "for every list of sites"
  },
  {
   "property": "C130",
   "status": "proved",
   "theorems": [
    "Verif.Poscar.Typing.C130_poscar",
    "Verif.Kpoints.C130_kpoints"
   ],
   "note": "values are those of the models' `Val`: None, str, int, float, points/sites, lists of them, arrays"
  },
  {
   "property": "C131",
   "status": "proved",
   "theorems": [
    "Verif.Kpoints.C131_edited"
   ],
   "note": "without tetrahedra; points put in have three coordinates"
  },
  {
   "property": "C132",
   "status": "proved",
   "theorems": [
    "Verif.Poscar.C132_comment"
   ],
   "note": "the exact form of C17"
  },
  {
   "property": "C133",
   "status": "proved",
   "theorems": [
    "Verif.Outcar.C133_verdict",
    "Verif.Outcar.C133_coherent",
    "Verif.Outcar.C133_lone"
   ],
   "note": "sharpens C28; the last part is the exact form of C29"
  },
  {
   "property": "C134",
   "status": "proved",
   "theorems": [
    "Verif.Poscar.C134_species"
   ],
   "note": "the exact form of C14"
  },
  {
   "property": "C135",
   "status": "proved",
   "theorems": [
    "Verif.Stream.C135_off",
    "Verif.Stream.C135_number"
   ],
   "note": "the exact form of C83 with history; the regular expression engine is a parameter"
  },
  {
   "property": "C136",
   "status": "proved",
   "theorems": [
    "Verif.Vasprun.C136_rows",
    "Verif.Vasprun.C136_singles",
    "Verif.Vasprun.C136_faithful"
   ],
   "note": "the exact form of C72 for tables; texts whose words are numbers up to the end or to a word beginning with '*'"
  },
  {
   "property": "C137",
   "status": "proved",
   "theorems": [
    "Verif.Poscar.C137_edited",
    "Verif.Poscar.C137_deleted"
   ],
   "note": "sites put in have direct coordinates and a species name that is a word"
  },
  {
   "property": "C138",
   "status": "proved",
   "theorems": [
    "Verif.Kpoints.C138_string"
   ],
   "note": "the exact form of C23 for strings"
  },
  {
   "property": "C139",
   "status": "proved",
   "theorems": [
    "Verif.Incar.C139_edited",
    "Verif.Incar.C139_parsed",
    "Verif.Incar.C139_string"
   ],
   "note": "composition of C07 and C02 over histories, with the exact condition on the arguments"
  },
  {
   "property": "C14",
   "status": "partial",
   "theorems": [
    "Verif.Poscar.C14_number",
    "Verif.Poscar.C14_species_partial",
    "Verif.Poscar.C14_violation"
   ],
   "note": "number of sites proved; species assignment proved when the two header lines have equally many entries; false otherwise (violation proved)"
  },
  {
   "property": "C140",
   "status": "proved",
   "theorems": [
    "Verif.Vasprun.C140_steps",
    "Verif.Vasprun.C140_status"
   ],
   "note": "the exact form of C49 and of C56 for ionic steps"
  },
  {
   "property": "C141",
   "status": "proved",
   "theorems": [
    "Verif.Kpoints.C141_call",
    "Verif.Kpoints.C141_history",
    "Verif.Kpoints.C141_refused"
   ],
   "note": "the exact form of C24"
  },
  {
   "property": "C142",
   "status": "proved",
   "theorems": [
    "Verif.Poscar.Typing.C142_call",
    "Verif.Poscar.Typing.C142_history",
    "Verif.Poscar.Typing.C142_end"
   ],
   "note": "the exact form of C114"
  },
  {
   "property": "C143",
   "status": "proved",
   "theorems": [
    "Verif.Vasprun.C143_projectors",
    "Verif.Vasprun.C143_nine",
    "Verif.Vasprun.C143_dos"
   ],
   "note": "the exact form of C48 and C55"
  },
  {
   "property": "C144",
   "status": "proved",
   "theorems": [
    "Verif.VasprunApi.C144_lattice",
    "Verif.VasprunApi.C144_status"
   ],
   "note": "the exact form of C79"
  },
  {
   "property": "C145",
   "status": "proved",
   "theorems": [
    "Verif.Kpoints.C145_kpoints_number",
    "Verif.Kpoints.C145_kpoints_other",
    "Verif.Kpoints.C145_kpoints_history",
    "Verif.Poscar.C145_poscar_number",
    "Verif.Poscar.C145_poscar_other",
    "Verif.Poscar.C145_poscar_history"
   ],
   "note": "both classes"
  },
  {
   "property": "C146",
   "status": "proved",
   "theorems": [
    "Verif.Chgcar.C146_volume",
    "Verif.Chgcar.C146_accuracy",
    "Verif.Chgcar.C146_binary64",
    "Verif.Chgcar.C146_grid"
   ],
   "note": "what NumPy's np.dot does inside is covered by its error bound d; binary64 instance for summation from the left"
  },
  {
   "property": "C147",
   "status": "proved",
   "theorems": [
    "Verif.Bytes.C147_decode",
    "Verif.Bytes.C147_read",
    "Verif.Bytes.C147_cut",
    "Verif.Bytes.C147_cut_refused",
    "Verif.Bytes.C147_ascii",
    "Verif.Bytes.C147_damage",
    "Verif.Bytes.C147_append",
    "Verif.Bytes.C147_classes",
    "Verif.Bytes.C147_missing",
    "Verif.Bytes.C147_killed",
    "Verif.Bytes.C147_killed_ascii"
   ],
   "note": "files by path; UnicodeDecodeError is represented by ValueError, its superclass"
  },
  {
   "property": "C148",
   "status": "proved",
   "theorems": [
    "Verif.Outcar.C148_accepted",
    "Verif.Outcar.C148_refused",
    "Verif.Outcar.C148_class"
   ],
   "note": "numbers are finite here: the literals inf and nan, which Python accepts in tables, count as unreadable; with them as values, C125_outcar_accepted and C125_outcar_refused say the same"
  },
  {
   "property": "C149",
   "status": "proved",
   "theorems": [
    "Verif.EigenvalFull.C149_accepted",
    "Verif.EigenvalFull.C149_refused",
    "Verif.EigenvalFull.C149_sources"
   ],
   "note": "for texts with a newline as their only line break, as opened files deliver them"
  },
  {
   "property": "C15",
   "status": "proved",
   "theorems": [
    "Verif.Poscar.C15_round_trip",
    "Verif.Poscar.C15_writes"
   ],
   "note": "for file, handler and string sources; hypotheses in the property text"
  },
  {
   "property": "C150",
   "status": "proved",
   "theorems": [
    "Verif.DoscarFull.C150_accepted",
    "Verif.DoscarFull.C150_positive",
    "Verif.DoscarFull.C150_refused",
    "Verif.DoscarFull.C150_sources"
   ],
   "note": "the values of the accepted files are those of C37, C39, C125"
  },
  {
   "property": "C151",
   "status": "proved",
   "theorems": [
    "Verif.Poscar.Accepts.C151_accepted",
    "Verif.Poscar.Accepts.C151_refused",
    "Verif.Poscar.Accepts.C151_sources"
   ],
   "note": "for texts without infinite numbers and NaN; the values of the accepted files are those of C14, C63, C121, C122, C134"
  },
  {
   "property": "C152",
   "status": "proved",
   "theorems": [
    "Verif.Kpoints.Accepts.C152_accepted",
    "Verif.Kpoints.Accepts.C152_refused"
   ],
   "note": "for texts without infinite numbers and NaN; the values of the accepted files are those of C21 to C23"
  },
  {
   "property": "C153",
   "status": "proved",
   "theorems": [
    "Verif.Incar.Accepts.C153_accepted",
    "Verif.Incar.Accepts.C153_refused",
    "Verif.Incar.Accepts.C153_sources",
    "Verif.Incar.Accepts.C153_dictionary",
    "Verif.Incar.Accepts.C153_modify"
   ],
   "note": ""
  },
  {
   "property": "C154",
   "status": "proved",
   "theorems": [
    "Verif.Regex.C154_integer_param",
    "Verif.Regex.C154_iteration",
    "Verif.Regex.C154_version",
    "Verif.Regex.C154_blank_lines",
    "Verif.Regex.C154_bool",
    "Verif.Regex.C154_int",
    "Verif.Regex.C154_real",
    "Verif.Regex.C154_entries",
    "Verif.Regex.C154_engine",
    "Verif.Regex.C154_region",
    "Verif.Regex.C154_time_line",
    "Verif.Regex.C154_mem_line",
    "Verif.Regex.C154_runs",
    "Verif.Regex.C154_words",
    "Verif.Regex.C154_triggers"
   ],
   "note": "the patterns are sequences of pieces (one character, optional, greedy, lazy, look ahead); the alternatives of (sec|kb) are two patterns"
  },
  {
   "property": "C155",
   "status": "proved",
   "theorems": [
    "Verif.Potcar.Accepts.C155_accepted",
    "Verif.Potcar.Accepts.C155_metadata",
    "Verif.Potcar.Accepts.C155_refused",
    "Verif.Potcar.Accepts.C155_unique"
   ],
   "note": "a STEP with a signed inf or nan (which float accepts) is outside of the model and excluded from the refusals"
  },
  {
   "property": "C16",
   "status": "proved",
   "theorems": [
    "Verif.Lattice.C16_inverse",
    "Verif.Lattice.C16_injective",
    "Verif.Poscar.C16_get_dict"
   ],
   "note": "over exact rationals; binary64 rounding is not modelled"
  },
  {
   "property": "C17",
   "status": "partial",
   "theorems": [
    "Verif.Poscar.C17_runs",
    "Verif.Poscar.C17_later_partial",
    "Verif.Poscar.C17_first_partial",
    "Verif.Poscar.C17_violation_empty",
    "Verif.Poscar.C17_violation_hash"
   ],
   "note": "from the second write on the header is fixed; already from the first for comments without '#' and without surrounding blanks; false for the empty comment and comments with '#' (violations proved)"
  },
  {
   "property": "C18",
   "status": "partial",
   "theorems": [
    "Verif.Poscar.C18_history_partial",
    "Verif.Poscar.C18_beyond",
    "Verif.Poscar.C18_below",
    "Verif.Poscar.C18_violation",
    "Verif.Poscar.C18_violation_name"
   ],
   "note": "proved for all histories of edits at existing positions, and refusal beyond the ends; false for negative positions and for the entry name (violations proved for every object)"
  },
  {
   "property": "C19",
   "status": "partial",
   "theorems": [
    "Verif.Poscar.C19_violation",
    "Verif.Poscar.C19_accepted_partial"
   ],
   "note": "the object is accepted and holds the same data, but writing it raises AttributeError for every structure with a site (violation proved)"
  },
  {
   "property": "C20",
   "status": "partial",
   "theorems": [
    "Verif.Poscar.C20_exact",
    "Verif.Poscar.C20_violation_padded",
    "Verif.Poscar.C20_single_spaced_partial"
   ],
   "note": "false for numbers padded with more than one blank (violation proved); exact characterisation of the refused texts proved"
  },
  {
   "property": "C21",
   "status": "proved",
   "theorems": [
    "Verif.Kpoints.C21_explicit_round_trip"
   ],
   "note": "explicit round trip for every number of points >= 1, optional tetrahedra, every precision, all three kinds of source"
  },
  {
   "property": "C22",
   "status": "proved",
   "theorems": [
    "Verif.Kpoints.C22_grid_round_trip",
    "Verif.Kpoints.C22_vectors_round_trip"
   ],
   "note": "Gamma, Monkhorst-Pack and generating vectors; shifts None becomes zero"
  },
  {
   "property": "C23",
   "status": "partial",
   "theorems": [
    "Verif.Kpoints.C23_file_round_trip_partial",
    "Verif.Kpoints.C23_violation_string"
   ],
   "note": "file/handler proved for all point lists, string only for at most two points; false for strings beyond that (violation proved)"
  },
  {
   "property": "C24",
   "status": "partial",
   "theorems": [
    "Verif.Kpoints.C24_validation",
    "Verif.Kpoints.C24_history_partial",
    "Verif.Kpoints.C24_violation_num",
    "Verif.Kpoints.C24_violation_comment",
    "Verif.Kpoints.C24_violation_divisions"
   ],
   "note": "false for modify('num_kpoints',None), ('divisions',None), and comment None then non-string (violations); proved for all other histories"
  },
  {
   "property": "C25",
   "status": "partial",
   "theorems": [
    "Verif.Kpoints.C25_modify_partial",
    "Verif.Kpoints.C25_refused_partial",
    "Verif.Kpoints.C25_violation_vectors",
    "Verif.Kpoints.C25_violation_name"
   ],
   "note": "generating_vectors is refused and names containing an allowed name are accepted (violations); the rest proved"
  },
  {
   "property": "C26",
   "status": "partial",
   "theorems": [
    "Verif.Kpoints.C26_violation",
    "Verif.Kpoints.C26_violation_unreadable",
    "Verif.Kpoints.C26_parsed_partial"
   ],
   "note": "false after delete_point (violation, for every object); proved for every object made from a text"
  },
  {
   "property": "C27",
   "status": "partial",
   "theorems": [
    "Verif.Kpoints.C27_kpoints_violation",
    "Verif.Kpoints.C27_kpoints_partial",
    "Verif.Poscar.C27_poscar_violation",
    "Verif.Poscar.C27_poscar_partial"
   ],
   "note": "Kpoints and Poscar: false: get of a present entry always raises AttributeError (violation for every entry); missing entries give None"
  },
  {
   "property": "C28",
   "status": "proved",
   "theorems": [
    "Verif.Outcar.C28_verdict"
   ],
   "note": ""
  },
  {
   "property": "C29",
   "status": "partial",
   "theorems": [
    "Verif.Outcar.C29_unfinished",
    "Verif.Outcar.C29_coherent_partial",
    "Verif.Outcar.C29_violation"
   ],
   "note": "consistent implies contains for finished runs and for runs containing ionic step 1; violation proved otherwise; unfinished never converged is proved in full"
  },
  {
   "property": "C30",
   "status": "proved",
   "theorems": [
    "Verif.Outcar.C30_counts"
   ],
   "note": ""
  },
  {
   "property": "C31",
   "status": "partial",
   "theorems": [
    "Verif.Outcar.C31_exits",
    "Verif.Outcar.C31_iteration",
    "Verif.Outcar.C31_refused_partial",
    "Verif.Outcar.C31_violation"
   ],
   "note": "texts cut inside a table raise IndexError instead of exit 600 (violation proved); exactly which texts exit 600: C148_refused"
  },
  {
   "property": "C32",
   "status": "partial",
   "theorems": [
    "Verif.Outcar.C32_violation",
    "Verif.Outcar.C32_tables_partial"
   ],
   "note": "the announced key non-symmetrized always holds None (violation proved for every accepted file); the tables are right under non_symmetrized, symmetrized and total"
  },
  {
   "property": "C33",
   "status": "proved",
   "theorems": [
    "Verif.Stream.C33_once"
   ],
   "note": "regular expressions are an abstract engine"
  },
  {
   "property": "C34",
   "status": "proved",
   "theorems": [
    "Verif.Stream.C34_history"
   ],
   "note": "regular expressions are an abstract engine"
  },
  {
   "property": "C35",
   "status": "proved",
   "theorems": [
    "Verif.Stream.C35_inverse"
   ],
   "note": "regular expressions are an abstract engine"
  },
  {
   "property": "C36",
   "status": "proved",
   "theorems": [
    "Verif.Stream.C36_entry",
    "Verif.Stream.C36_configuration"
   ],
   "note": "regular expressions are an abstract engine"
  },
  {
   "property": "C37",
   "status": "partial",
   "theorems": [
    "Verif.Doscar.C37_total_partial",
    "Verif.Doscar.C37_pdos_partial",
    "Verif.Doscar.C37_violation"
   ],
   "note": "without spin components every field has exactly its own column; with spin every field behind the first is shifted (violation proved, actual columns characterised for every file)"
  },
  {
   "property": "C38",
   "status": "proved",
   "theorems": [
    "Verif.Doscar.C38_tables"
   ],
   "note": ""
  },
  {
   "property": "C39",
   "status": "partial",
   "theorems": [
    "Verif.Doscar.C39_blocks_partial",
    "Verif.Doscar.C39_standard_partial",
    "Verif.Doscar.C39_violation_short",
    "Verif.Doscar.C39_violation_header"
   ],
   "note": "block positions proved for every file; false for one ion with a file that ends early and if a total row equals the header (violations proved)"
  },
  {
   "property": "C40",
   "status": "partial",
   "theorems": [
    "Verif.Eigenval.C40_placement_partial",
    "Verif.Eigenval.C40_metadata",
    "Verif.Eigenval.C40_blank_partial",
    "Verif.Eigenval.C40_violation_end",
    "Verif.Eigenval.C40_violation_inside"
   ],
   "note": "places of k-points, eigenvalues and metadata proved for every accepted file; files without surplus blank lines at the ends of the data are read alike whatever blank lines they contain; false for a blank line at the end (refused, proved for every text) and inside a block (violation proved)"
  },
  {
   "property": "C41",
   "status": "partial",
   "theorems": [
    "Verif.Chgcar.C41_grid_partial",
    "Verif.Chgcar.C41_volume_partial",
    "Verif.Chgcar.C41_violation_handed",
    "Verif.Chgcar.C41_violation_scaling",
    "Verif.ChgcarFull.C41_violation_flat"
   ],
   "note": "order of the grid and all magnetization parts proved for every file; the divisor is the signed triple product of the scaled vectors, so the claim is false for left-handed cells and for negative scaling (volume) factors (violations proved)"
  },
  {
   "property": "C42",
   "status": "proved",
   "theorems": [
    "Verif.Potcar.C42_symbol",
    "Verif.Potcar.C42_functional",
    "Verif.Potcar.C42_functional_total",
    "Verif.Potcar.C42_attribute"
   ],
   "note": ""
  },
  {
   "property": "C43",
   "status": "proved",
   "theorems": [
    "Verif.Lattice.C43_dual"
   ],
   "note": "over exact rationals with a symbolic 2 pi"
  },
  {
   "property": "C44",
   "status": "partial",
   "theorems": [
    "Verif.Utils.C44_no_selector",
    "Verif.Utils.C44_list",
    "Verif.Utils.C44_list_filter_partial",
    "Verif.Utils.C44_violation_duplicate",
    "Verif.Utils.C44_violation_string",
    "Verif.Utils.C44_string_partial"
   ],
   "note": "List selector returns each matching line once per matching element (proved); false for lines matching twice and for a string selector (proved violations)."
  },
  {
   "property": "C45",
   "status": "partial",
   "theorems": [
    "Verif.Incar.C45_classification_partial",
    "Verif.Incar.C45_string_iff",
    "Verif.Incar.C45_violation"
   ],
   "note": "False exactly for the literals of inf/nan (proved for every such literal)."
  },
  {
   "property": "C46",
   "status": "partial",
   "theorems": [
    "Verif.Base.C46_one_target",
    "Verif.Base.C46_path_partial",
    "Verif.Base.C46_path_unopenable",
    "Verif.Base.C46_handler",
    "Verif.Base.C46_only_target",
    "Verif.Base.C46_violation_not_closed",
    "Verif.Base.C46_violation_empty_path"
   ],
   "note": "Target discipline proved; a failing writer leaves the file open and an empty path is not refused (proved violations)."
  },
  {
   "property": "C47",
   "status": "proved",
   "theorems": [
    "Verif.Vasprun.C47_eigenvalues",
    "Verif.Vasprun.C47_accepts",
    "Verif.Vasprun.C47_counts",
    "Verif.Vasprun.C47_absent",
    "Verif.Vasprun.C47_violation_steps"
   ],
   "note": "for documents with eigenvalues in one calculation; several are refused (theorem C47_violation_steps)"
  },
  {
   "property": "C48",
   "status": "partial",
   "theorems": [
    "Verif.Vasprun.C48_projectors_partial",
    "Verif.Vasprun.C48_violation_columns",
    "Verif.Vasprun.C48_counts"
   ],
   "note": "proved for nine columns; any other number of columns gives zeros (violation proved)"
  },
  {
   "property": "C49",
   "status": "partial",
   "theorems": [
    "Verif.Vasprun.C49_steps_partial",
    "Verif.Vasprun.C49_first_last",
    "Verif.Vasprun.C49_violation_one_atom",
    "Verif.Vasprun.C49_violation_single",
    "Verif.Vasprun.C49_one_atom"
   ],
   "note": "proved but for one atom and two steps; 'all' has a second equal entry for a single step (violations proved)"
  },
  {
   "property": "C50",
   "status": "proved",
   "theorems": [
    "Verif.Vasprun.C50_energies",
    "Verif.Vasprun.C50_default",
    "Verif.Vasprun.C50_sum",
    "Verif.Vasprun.C50_violation_incomplete",
    "Verif.Vasprun.C50_missing"
   ],
   "note": "for documents whose electronic steps print all three energies"
  },
  {
   "property": "C51",
   "status": "proved",
   "theorems": [
    "Verif.Vasprun.C51_truncated",
    "Verif.Vasprun.C51_cut",
    "Verif.Vasprun.C51_crash",
    "Verif.Vasprun.C51_complete",
    "Verif.Vasprun.C51_short"
   ],
   "note": ""
  },
  {
   "property": "C52",
   "status": "proved",
   "theorems": [
    "Verif.Vasprun.C52_mode",
    "Verif.Vasprun.C52_size"
   ],
   "note": ""
  },
  {
   "property": "C53",
   "status": "partial",
   "theorems": [
    "Verif.VasprunEvent.C53_dos_partial",
    "Verif.VasprunEvent.C53_energies_partial",
    "Verif.VasprunEvent.C53_usual_partial",
    "Verif.VasprunEvent.C53_interpolated_partial",
    "Verif.VasprunEvent.C53_interpolated_kpoints_partial",
    "Verif.VasprunEvent.C53_head_partial",
    "Verif.VasprunEvent.C53_eigenvalues_partial",
    "Verif.VasprunEvent.C53_projectors_partial",
    "Verif.VasprunEvent.C53_born_partial",
    "Verif.VasprunEvent.C53_dielectrics_partial",
    "Verif.VasprunEvent.C53_hessian_partial",
    "Verif.VasprunEvent.C53_dynmat_partial",
    "Verif.VasprunEvent.C53_steps_partial",
    "Verif.VasprunEvent.C53_violation_single",
    "Verif.VasprunEvent.C53_violation_dielectrics",
    "Verif.VasprunEvent.C53_violation_epsilon",
    "Verif.VasprunEvent.C53_violation_two_dos",
    "Verif.VasprunEvent.C53_violation_interpolated_dos",
    "Verif.VasprunEvent.C53_violation_projected",
    "Verif.VasprunEvent.C53_violation_fermi",
    "Verif.VasprunEvent.C53_violation_parameter",
    "Verif.VasprunEvent.C53_violation_unnamed",
    "Verif.VasprunEvent.C53_violation_order",
    "Verif.VasprunApi.C53_object_partial"
   ],
   "note": "Agreement of all quantities proved for documents in the layout of VASP (Doc and Usual; C53_usual_partial puts all quantities together, with a full example document); in general the claim is false: the theorems C53_violation_* give documents on which the parsers differ. C53_object_partial states it for the class: constructor (event=True or False) and every getter, with lxml as a parameter."
  },
  {
   "property": "C54",
   "status": "proved",
   "theorems": [
    "Verif.Vasprun.C54_species",
    "Verif.Vasprun.C54_unknown",
    "Verif.Vasprun.C54_violation_names"
   ],
   "note": "the table lacks the present names of elements 113 to 118 (theorem C54_violation_names)"
  },
  {
   "property": "C55",
   "status": "partial",
   "theorems": [
    "Verif.Vasprun.C55_dos_partial",
    "Verif.Vasprun.C55_violation_columns",
    "Verif.Vasprun.C55_violation_mixed"
   ],
   "note": "proved for ten columns and one dos element; otherwise zeros or mixed atoms (violations proved)"
  },
  {
   "property": "C56",
   "status": "partial",
   "theorems": [
    "Verif.Vasprun.C56_steps_partial",
    "Verif.Vasprun.C56_energies_partial",
    "Verif.Vasprun.C56_violation"
   ],
   "note": "without data the status is not checked (violation proved)"
  },
  {
   "property": "C57",
   "status": "proved",
   "theorems": [
    "Verif.Utils.C57_sets",
    "Verif.Utils.C57_ignores",
    "Verif.Utils.C57_bad_integer"
   ],
   "note": ""
  },
  {
   "property": "C58",
   "status": "proved",
   "theorems": [
    "Verif.Outcar.C58_last_lines",
    "Verif.Outcar.C58_items",
    "Verif.Outcar.C58_time_line",
    "Verif.Outcar.C58_time_line_no_colon",
    "Verif.Outcar.C58_mem_line",
    "Verif.Outcar.C58_other_line"
   ],
   "note": ""
  },
  {
   "property": "C59",
   "status": "proved",
   "theorems": [
    "Verif.Vasprun.C59_version"
   ],
   "note": ""
  },
  {
   "property": "C60",
   "status": "proved",
   "theorems": [
    "Verif.Utils.C60_shape",
    "Verif.Utils.C60_success"
   ],
   "note": ""
  },
  {
   "property": "C61",
   "status": "partial",
   "theorems": [
    "Verif.Incar.C61_violation_every",
    "Verif.Incar.C61_violation",
    "Verif.Incar.C61_lowercase_partial"
   ],
   "note": "get/delete/modify differ in case handling: no spelling that is not lower case is ever found (violation proved for every source, history and such spelling)."
  },
  {
   "property": "C62",
   "status": "proved",
   "theorems": [
    "Verif.Poscar.C62_site_objects"
   ],
   "note": "over exact rationals"
  },
  {
   "property": "C63",
   "status": "proved",
   "theorems": [
    "Verif.Poscar.C63_own_line"
   ],
   "note": ""
  },
  {
   "property": "C64",
   "status": "proved",
   "theorems": [
    "Verif.Outcar.C64_full_cell"
   ],
   "note": ""
  },
  {
   "property": "C65",
   "status": "proved",
   "theorems": [
    "Verif.Outcar.C65_spheres"
   ],
   "note": ""
  },
  {
   "property": "C66",
   "status": "proved",
   "theorems": [
    "Verif.Outcar.C66_symmetry"
   ],
   "note": ""
  },
  {
   "property": "C67",
   "status": "partial",
   "theorems": [
    "Verif.Doscar.C67_names_partial",
    "Verif.Doscar.C67_violation"
   ],
   "note": "false for 37 columns (violation proved), proved for all other tables"
  },
  {
   "property": "C68",
   "status": "proved",
   "theorems": [
    "Verif.Doscar.C68_metadata"
   ],
   "note": ""
  },
  {
   "property": "C69",
   "status": "proved",
   "theorems": [
    "Verif.Sources.C69_outcar",
    "Verif.Sources.C69_doscar",
    "Verif.Sources.C69_eigenval",
    "Verif.Sources.C69_chgcar",
    "Verif.Sources.C69_potcar",
    "Verif.Sources.C69_stream",
    "Verif.Sources.C69_incar",
    "Verif.Sources.C69_kpoints",
    "Verif.Sources.C69_poscar",
    "Verif.Sources.C69_missing_with_dict"
   ],
   "note": "for Stream a missing file is noticed after a bad configuration"
  },
  {
   "property": "C70",
   "status": "partial",
   "theorems": [
    "Verif.Potcar.C70_metadata_partial",
    "Verif.Potcar.C70_accepts_partial",
    "Verif.Potcar.C70_violation_semicolon",
    "Verif.Potcar.C70_violation_exponent"
   ],
   "note": "proved for entries separated as VASP prints them; false for an entry directly behind ';' and for numbers with exponent E+ (violations proved)"
  },
  {
   "property": "C71",
   "status": "partial",
   "theorems": [
    "Verif.Vasprun.C71_sources_partial",
    "Verif.Vasprun.C71_violation"
   ],
   "note": "a missing file and a text handler fail with AttributeError/TypeError (violation proved)"
  },
  {
   "property": "C72",
   "status": "partial",
   "theorems": [
    "Verif.Vasprun.C72_violation_columns",
    "Verif.Vasprun.C72_scalar",
    "Verif.Vasprun.C72_list",
    "Verif.Vasprun.C72_rows_partial",
    "Verif.Vasprun.C72_violation_overflow",
    "Verif.Vasprun.C72_violation_spread"
   ],
   "note": "single numbers and lists of numbers proved; false for rows: an overflowed row becomes zeros or one number repeated (violations proved)"
  },
  {
   "property": "C73",
   "status": "proved",
   "theorems": [
    "Verif.Vasprun.C73_interpolated",
    "Verif.Vasprun.C73_velocities",
    "Verif.Vasprun.C73_kpoints"
   ],
   "note": ""
  },
  {
   "property": "C74",
   "status": "proved",
   "theorems": [
    "Verif.Vasprun.C74_interpolated"
   ],
   "note": ""
  },
  {
   "property": "C75",
   "status": "proved",
   "theorems": [
    "Verif.Vasprun.C75_parameters"
   ],
   "note": ""
  },
  {
   "property": "C76",
   "status": "proved",
   "theorems": [
    "Verif.Vasprun.C76_dielectrics",
    "Verif.Vasprun.C76_kpoints",
    "Verif.Vasprun.C76_hessian",
    "Verif.Vasprun.C76_dynmat",
    "Verif.Vasprun.C76_born"
   ],
   "note": ""
  },
  {
   "property": "C77",
   "status": "partial",
   "theorems": [
    "Verif.VasprunEvent.C77_seen_partial",
    "Verif.VasprunEvent.C77_document_partial",
    "Verif.VasprunEvent.C77_violation_energy",
    "Verif.VasprunEvent.C77_violation_digits",
    "Verif.VasprunEvent.C77_violation_version"
   ],
   "note": "Proved for all elements except those with the fifteen names whose text the parser reads at the start event (version, parameters, final energies, divisions, eigenvalues of the dynamical matrix); false for these (C77_violation_*)."
  },
  {
   "property": "C78",
   "status": "partial",
   "theorems": [
    "Verif.VasprunApi.C78_regular_partial",
    "Verif.VasprunApi.C78_specific_partial",
    "Verif.VasprunApi.C78_event_partial",
    "Verif.VasprunApi.C78_violation"
   ],
   "note": "Exact for the regular parser: without rows of a density of states the call is an uncaught TypeError even if the Fermi level is printed (C78_violation); the event driven parser agrees for documents in the layout of VASP with at most one density of states."
  },
  {
   "property": "C79",
   "status": "partial",
   "theorems": [
    "Verif.VasprunApi.C79_lattice_partial",
    "Verif.VasprunApi.C79_violation_status"
   ],
   "note": "Proved but for one atom and two steps (C49); without structures the status is not checked (violation proved)."
  },
  {
   "property": "C80",
   "status": "partial",
   "theorems": [
    "Verif.VasprunApi.C80_regular_partial",
    "Verif.VasprunApi.C80_violation_event"
   ],
   "note": "Proved for the regular parser; false for the event driven parser on every document (C80_violation_event)."
  },
  {
   "property": "C81",
   "status": "partial",
   "theorems": [
    "Verif.Kpoints.C81_content",
    "Verif.Kpoints.C81_automatic_partial",
    "Verif.Kpoints.C81_violation_points"
   ],
   "note": "The content of the dictionary is proved; the round trip holds without explicit points and is false for every object with a point in explicit or line mode (violation proved for all of them)."
  },
  {
   "property": "C82",
   "status": "partial",
   "theorems": [
    "Verif.Incar.C82_round_trip_partial",
    "Verif.Incar.C82_violation_mark"
   ],
   "note": "Proved for all sources and histories that store no text with '#'; false for such a text given to modify (violation proved)."
  },
  {
   "property": "C83",
   "status": "partial",
   "theorems": [
    "Verif.Stream.C83_has_entries",
    "Verif.Stream.C83_number_partial",
    "Verif.Stream.C83_violation_history"
   ],
   "note": "has_entries proved; number_of_entries proved without history, with history every repetition counts (violation proved)."
  },
  {
   "property": "C84",
   "status": "proved",
   "theorems": [
    "Verif.Stream.C84_shipped"
   ],
   "note": "the engine for patterns of characters and dots is modelled (Model/StreamRegex), the configuration is generated from stream.yml"
  },
  {
   "property": "C85",
   "status": "partial",
   "theorems": [
    "Verif.Kpoints.C85_independent_partial",
    "Verif.Kpoints.C85_violation_dict",
    "Verif.Kpoints.C85_violation_list"
   ],
   "note": "Proved for all programs in which no dictionary or list is given to several objects (references and in-place changes are modelled); false for a shared dictionary, also for the dictionary of the caller, and for a shared list (violations proved)."
  },
  {
   "property": "C86",
   "status": "partial",
   "theorems": [
    "Verif.Poscar.C86_independent_partial",
    "Verif.Poscar.C86_violation_cells",
    "Verif.Poscar.C86_violation_dict"
   ],
   "note": "Proved for all programs in which no dictionary, list or Site is given to several objects (references and in-place changes are modelled); false for Site objects given to two objects with different cells (the second holds another point), and for a shared dictionary (violations proved for all cells and sites)."
  },
  {
   "property": "C87",
   "status": "partial",
   "theorems": [
    "Verif.Files.C87_crash_partial",
    "Verif.Files.C87_success",
    "Verif.Files.C87_refused",
    "Verif.Files.C87_history",
    "Verif.Files.C87_ends",
    "Verif.Files.C87_violation_crash",
    "Verif.Files.C87_violation_read_only",
    "Verif.Files.C87_violation_potcar",
    "Verif.Files.C87_violation_refused"
   ],
   "note": "Proved for all writers, arguments, crash points, flush schedules and histories: only the named path changes, it holds a beginning of the text at any crash and exactly the text after a return. False: the file is emptied before anything is checked, so a kill, a failing check and every read-only parser destroy the old content (violations proved)."
  },
  {
   "property": "C88",
   "status": "proved",
   "theorems": [
    "Verif.Files.C88_incar",
    "Verif.Files.C88_kpoints",
    "Verif.Files.C88_kpoints_explicit",
    "Verif.Files.C88_poscar"
   ],
   "note": "INCAR, KPOINTS (explicit points; the other modes through C88_kpoints with C22, C23) and POSCAR composed with the disk model and the round-trip theorems; the hypotheses on the object are those of C02, C21 and C15."
  },
  {
   "property": "C89",
   "status": "proved",
   "theorems": [
    "Verif.Files.C89_checks"
   ],
   "note": ""
  },
  {
   "property": "C90",
   "status": "partial",
   "theorems": [
    "Verif.VasprunApi.C90_truncated",
    "Verif.VasprunApi.C90_species",
    "Verif.VasprunApi.C90_steps_partial",
    "Verif.VasprunApi.C90_first_last",
    "Verif.VasprunApi.C90_energies",
    "Verif.VasprunApi.C90_bands",
    "Verif.VasprunApi.C90_projectors_partial",
    "Verif.VasprunApi.C90_interpolated",
    "Verif.VasprunApi.C90_velocities",
    "Verif.VasprunApi.C90_specific",
    "Verif.VasprunApi.C90_dos_partial",
    "Verif.VasprunApi.C90_dos_specific",
    "Verif.VasprunApi.C90_parameters",
    "Verif.VasprunApi.C90_dielectrics",
    "Verif.VasprunApi.C90_kpoints",
    "Verif.VasprunApi.C90_response",
    "Verif.VasprunApi.C90_version"
   ],
   "note": "Constructor, parser and all getters composed; the restrictions (and the proved violations) are those of C48, C49, C55: one atom with two steps, projections other than nine columns, several densities of states."
  },
  {
   "property": "C91",
   "status": "proved",
   "theorems": [
    "Verif.Outcar.C91_unfinished",
    "Verif.Outcar.C91_counts",
    "Verif.Outcar.C91_lists",
    "Verif.Outcar.C91_tables"
   ],
   "note": ""
  },
  {
   "property": "C92",
   "status": "partial",
   "theorems": [
    "Verif.Eigenval.C92_cut_partial",
    "Verif.Eigenval.C92_violation_accepted",
    "Verif.Eigenval.C92_violation_digit",
    "Verif.Eigenval.C92_inside_partial"
   ],
   "note": "Proved for cuts at line ends that are accepted: what is reported agrees with the complete file; and for cuts at any character behind the sixth line, where only the value of the last word can be wrong too (C92_inside_partial). That a cut file is refused is false (every cut behind the header is accepted, C92_violation_accepted), and a cut inside a number gives another number."
  },
  {
   "property": "C93",
   "status": "partial",
   "theorems": [
    "Verif.Doscar.C93_cut_partial",
    "Verif.Doscar.C93_violation_missing",
    "Verif.Doscar.C93_violation_short",
    "Verif.Doscar.C93_violation_digit",
    "Verif.Doscar.C93_inside_partial"
   ],
   "note": "Proved for cuts at line ends that are accepted: metadata and total density agree with the complete file; the partial one may be missing or, with one ion, short; and for cuts at any character, where only the last number read can be wrong too (C93_inside_partial; with a single energy or a single row left: that row). That a cut file is refused is false, and a cut inside a number gives another number."
  },
  {
   "property": "C94",
   "status": "partial",
   "theorems": [
    "Verif.Chgcar.C94_cut_partial",
    "Verif.Chgcar.C94_violation_collinear",
    "Verif.Chgcar.C94_violation_none",
    "Verif.Chgcar.C94_violation_digit",
    "Verif.Chgcar.C94_inside_partial"
   ],
   "note": "Proved for cuts at line ends that are accepted: the charge density agrees; and for cuts at any character, where only the very last number can be wrong too (C94_inside_partial). False: a noncollinear file cut in front of the third data set is accepted as collinear, any file cut behind the first data set as a calculation without spin."
  },
  {
   "property": "C95",
   "status": "proved",
   "theorems": [
    "Verif.Potcar.C95_cut",
    "Verif.Potcar.C95_never_other"
   ],
   "note": ""
  },
  {
   "property": "C96",
   "status": "proved",
   "theorems": [
    "Verif.Stream.C96_grows",
    "Verif.Stream.C96_shipped"
   ],
   "note": "For an arbitrary regular expression engine at line ends; for the shipped configuration at every byte."
  },
  {
   "property": "C97",
   "status": "partial",
   "theorems": [
    "Verif.Poscar.C97_cut_partial",
    "Verif.Poscar.C97_violation_velocities",
    "Verif.Poscar.C97_violation_digit",
    "Verif.Poscar.C97_inside_partial"
   ],
   "note": "Proved for cuts at line ends that are accepted: comment, cell and sites agree, velocities and predictors agree or are missing; and for cuts at any character, where only the last number or flag read can be wrong too (C97_inside_partial). False: cut behind the positions velocities are lost silently; inside the last number the position changes."
  },
  {
   "property": "C98",
   "status": "partial",
   "theorems": [
    "Verif.Incar.C98_cut_partial",
    "Verif.Incar.C98_inside_partial",
    "Verif.Incar.C98_written_partial",
    "Verif.Incar.C98_violation_digit",
    "Verif.Incar.C98_violation_again"
   ],
   "note": "Proved for all cuts: tags assigned neither on the last line of the cut file nor again behind it agree; a cut at a line end is always accepted and has the first tags; for written files every tag but the one on the last line has the value of the object. False inside the last value and for tags assigned twice."
  },
  {
   "property": "C99",
   "status": "partial",
   "theorems": [
    "Verif.Kpoints.C99_cut_partial",
    "Verif.Kpoints.C99_violation_line",
    "Verif.Kpoints.C99_violation_shifts",
    "Verif.Kpoints.C99_violation_tetra",
    "Verif.Kpoints.C99_violation_digit",
    "Verif.Kpoints.C99_inside_partial"
   ],
   "note": "Proved for cuts at line ends that are accepted: everything but tetrahedra, shifts and, in line mode, the last points agrees; and for cuts at any character, where only the last number read can be wrong too (C99_inside_partial). False: line mode files are accepted behind their fourth line with any number of points; shifts and tetrahedra are lost silently."
  }
 ]
}