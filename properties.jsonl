{"id": "C01", "title": "INCAR text is canonical", "statement": "For every Incar object, get_string() emits exactly one line 'TAG = value' per stored tag, tag upper-cased, lines in strictly increasing alphabetical order of the lower-case tag, nothing else.", "quantifier": "every set of stored entries, any order of insertion, any values", "why_tests_cant": "unbounded number of entries and insertion orders", "anchors": ["parsevasp/incar.py:Incar._write,Incar.get_string,Incar._convert_value_to_string"]}
{"id": "C02", "title": "INCAR write/read round trip", "statement": "Re-reading the text produced by get_string() yields the same tags with the same values (int, float, bool, string and homogeneous lists of them).", "quantifier": "every Incar whose entries were produced by parsing or modify", "why_tests_cant": "all values and all tags", "anchors": ["parsevasp/incar.py:Incar._write,Incar._from_list,IncarItem._clean_entry"]}
{"id": "C03", "title": "Last assignment of an INCAR tag wins", "statement": "When a tag occurs several times in an INCAR text (over lines or ';'-separated, in any case/spacing), get(tag) is the value of the last occurrence, and a tag not assigned is absent.", "quantifier": "every list of assignments, any length, any interleaving", "why_tests_cant": "unbounded texts", "anchors": ["parsevasp/incar.py:Incar._from_list"]}
{"id": "C04", "title": "INCAR comments are inert", "statement": "Appending '#...' to any line, or inserting comment-only/blank lines anywhere, changes no tag or value.", "quantifier": "every INCAR text, every comment text, every position", "why_tests_cant": "all texts", "anchors": ["parsevasp/incar.py:Incar._from_list"]}
{"id": "C05", "title": "INCAR value typing", "statement": "A value string with tokens that are all integer literals becomes int(s), all float literals float(s), otherwise strings/bools; one token gives a scalar; mixed kinds exit with code 104; SYSTEM/MAGMOM/M_CONSTR stay the stripped raw string.", "quantifier": "every value string", "why_tests_cant": "all token lists", "anchors": ["parsevasp/incar.py:IncarItem._clean_entry,_test_string_for_bool", "parsevasp/utils.py:test_string_content"]}
{"id": "C06", "title": "INCAR tag validation", "statement": "With validate_tags the constructor returns only if every tag is in the official table and otherwise exits 100; without it no tag is rejected.", "quantifier": "every entries dict and table", "why_tests_cant": "all dicts", "anchors": ["parsevasp/incar.py:Incar.validate"]}
{"id": "C07", "title": "INCAR object is a map", "statement": "Any history of modify/delete/get/get_dict behaves like a finite map from lower-case tag to last value (looked up by the lower-case tag); get_dict agrees with get on every tag.", "quantifier": "every operation sequence", "why_tests_cant": "unbounded histories", "anchors": ["parsevasp/incar.py:Incar.modify,delete,get,get_dict"]}
{"id": "C08", "title": "INCAR comment retrieval", "statement": "get(tag, comment=True) returns the value and the comment stored with the tag.", "quantifier": "every stored entry with a comment", "why_tests_cant": "all entries", "anchors": ["parsevasp/incar.py:Incar.get"]}
{"id": "C09", "title": "Exactly one input source", "statement": "Incar, Poscar and Kpoints constructors reject (exit 10) every call supplying no source or more than one source, and accept every call with exactly one.", "quantifier": "all combinations of given/absent arguments", "why_tests_cant": "finite but must hold for all three classes; tests sample", "anchors": ["parsevasp/incar.py:Incar.__init__", "parsevasp/poscar.py:Poscar.__init__", "parsevasp/kpoints.py:Kpoints.__init__"]}
{"id": "C10", "title": "INCAR string and file agree", "statement": "Parsing a text given as incar_string gives the same entries as parsing a file with the same content.", "quantifier": "every INCAR text", "why_tests_cant": "all texts", "anchors": ["parsevasp/incar.py:Incar._from_string,_from_file,_from_list"]}
{"id": "C11", "title": "Malformed INCAR entries are rejected with the documented code", "statement": "An entry with two '=' exits 101, an entry without '=' exits 102; no entry is silently dropped; well formed input never raises anything else.", "quantifier": "every INCAR text", "why_tests_cant": "all texts", "anchors": ["parsevasp/incar.py:Incar._from_list"]}
{"id": "C12", "title": "POSCAR sites are regrouped, never changed", "statement": "Writing without conserve_order emits a permutation of the stored sites in which each species forms one contiguous block, blocks ordered by increasing count (ties by first appearance), relative order within a species kept, and the count line equals the block sizes.", "quantifier": "every list of sites", "why_tests_cant": "all site lists and species orders", "anchors": ["parsevasp/poscar.py:Poscar._sort_and_group_sites"]}
{"id": "C13", "title": "conserve_order keeps the order", "statement": "With conserve_order the sites are emitted in stored order and expanding the written species/count lines gives back exactly the species of the sites in order, with no two neighbouring equal species names.", "quantifier": "every list of sites", "why_tests_cant": "all site lists", "anchors": ["parsevasp/poscar.py:Poscar._sort_and_group_sites"]}
{"id": "C14", "title": "POSCAR species assignment on read", "statement": "Site i of a parsed POSCAR has the i-th species of the expansion of the species line by the count line; the number of sites is the sum of the counts.", "quantifier": "every species/count line", "why_tests_cant": "all count lists", "anchors": ["parsevasp/poscar.py:Poscar._from_list"]}
{"id": "C15", "title": "POSCAR write/read round trip", "statement": "Parsing the text written for a structure gives back the same species, selective flags, unit cell, positions, velocities and predictors, numbers rounded to prec decimals, in the written order.", "quantifier": "every structure whose species names are single words that are not number literals, with a single-line comment and (for cartesian output) a cell that is still invertible after rounding; every precision, order and coordinate mode", "why_tests_cant": "all structures", "anchors": ["parsevasp/poscar.py:Poscar._write,_from_list"]}
{"id": "C16", "title": "Direct/cartesian conversion is exact inverse", "statement": "For every invertible cell converting direct to cartesian and back (and conversely) is the identity, so get_dict(direct=False) describes the same structure as get_dict().", "quantifier": "every invertible 3x3 cell, every vector", "why_tests_cant": "infinite domain", "anchors": ["parsevasp/utils.py:dir_to_cart,cart_to_dir", "parsevasp/poscar.py:get_dict,_from_dict"]}
{"id": "C17", "title": "POSCAR header is stable", "statement": "Writing, reading and writing again does not change the header line; 'Old comment:' is added at most once.", "quantifier": "every comment and structure", "why_tests_cant": "all comments, any number of rewrites", "anchors": ["parsevasp/poscar.py:Poscar._write,_from_list"]}
{"id": "C18", "title": "POSCAR site edits hit the addressed site only", "statement": "delete_site(i)/modify('sites', s, i) changes exactly site i, leaves all others in order, and any out-of-range index is refused without change.", "quantifier": "every site list, index, history of edits", "why_tests_cant": "unbounded histories", "anchors": ["parsevasp/poscar.py:Poscar.modify,delete_site,_check_site_number"]}
{"id": "C19", "title": "POSCAR dictionary round trip", "statement": "Poscar(poscar_dict=p.get_dict()) can be written and denotes the same structure.", "quantifier": "every structure", "why_tests_cant": "all structures", "anchors": ["parsevasp/poscar.py:Poscar._from_dict,get_dict"]}
{"id": "C20", "title": "VASP 4 POSCAR is refused", "statement": "A POSCAR whose sixth line holds the numbers of ions instead of species exits with 301.", "quantifier": "every POSCAR text, any spacing", "why_tests_cant": "all texts", "anchors": ["parsevasp/poscar.py:Poscar._from_list", "parsevasp/utils.py:is_numbers"]}
{"id": "C21", "title": "KPOINTS explicit round trip", "statement": "Writing explicit k-points and reading them back gives the same points, weights (None becomes 1), tetrahedra and volume, rounded to prec decimals.", "quantifier": "every list of points, tetrahedra, precision", "why_tests_cant": "all lists", "anchors": ["parsevasp/kpoints.py:Kpoints._write,_from_list"]}
{"id": "C22", "title": "KPOINTS automatic round trip", "statement": "Writing an automatic grid (Gamma, Monkhorst-Pack or generating vectors) and reading it back gives the same centering, divisions/vectors and shifts (None becomes zero).", "quantifier": "every grid", "why_tests_cant": "all grids", "anchors": ["parsevasp/kpoints.py:Kpoints._write,_from_list"]}
{"id": "C23", "title": "KPOINTS line-mode round trip", "statement": "Writing line-mode points and reading the text back gives the same points, whether supplied as file or as string.", "quantifier": "every list of points", "why_tests_cant": "all lists, even/odd lengths", "anchors": ["parsevasp/kpoints.py:Kpoints._write,_from_list", "parsevasp/utils.py:remove_newline"]}
{"id": "C24", "title": "KPOINTS entries stay well typed", "statement": "After any history of modify/delete_point calls that return normally, the entries satisfy the class's own validation.", "quantifier": "every history", "why_tests_cant": "unbounded histories", "anchors": ["parsevasp/kpoints.py:Kpoints.modify,_validate"]}
{"id": "C25", "title": "KPOINTS allowed entries are modifiable", "statement": "Every documented entry can be modified with a well typed value, and no other entry name is accepted.", "quantifier": "every entry name", "why_tests_cant": "all strings", "anchors": ["parsevasp/kpoints.py:Kpoints._check_allowed_entries,modify"]}
{"id": "C26", "title": "KPOINTS point count stays consistent", "statement": "After delete_point or modify('points', ...) an explicit KPOINTS text announces exactly as many points as it lists.", "quantifier": "every edit history", "why_tests_cant": "unbounded histories", "anchors": ["parsevasp/kpoints.py:Kpoints.delete_point,modify,_write"]}
{"id": "C27", "title": "get() on POSCAR/KPOINTS returns stored values", "statement": "Poscar.get(tag)/Kpoints.get(tag) returns the stored entry and None for a missing tag.", "quantifier": "every tag and object", "why_tests_cant": "all objects", "anchors": ["parsevasp/poscar.py:Poscar.get", "parsevasp/kpoints.py:Kpoints.get"]}
{"id": "C28", "title": "OUTCAR convergence verdict", "statement": "ionic_converged/electronic_converged/consistent_nelm_breach/contains_nelm_breach are the documented function of finished, IBRION, NSW, NELM, the last iteration index and the number of electronic steps of each ionic step.", "quantifier": "every OUTCAR", "why_tests_cant": "all values and step histories", "anchors": ["parsevasp/outcar.py:Outcar._from_list"]}
{"id": "C29", "title": "OUTCAR breach flags are coherent", "statement": "consistent_nelm_breach implies contains_nelm_breach; an unfinished run is never reported converged.", "quantifier": "every OUTCAR", "why_tests_cant": "all histories, every truncation point", "anchors": ["parsevasp/outcar.py:Outcar._from_list"]}
{"id": "C30", "title": "OUTCAR electronic steps are counted per ionic step", "statement": "The number of electronic steps used for ionic step n is the number of 'Iteration n( m)' lines, last_iteration_index is the last such line; other lines are irrelevant.", "quantifier": "every OUTCAR", "why_tests_cant": "any interleaving and amount of other lines", "anchors": ["parsevasp/outcar.py:Outcar._from_list"]}
{"id": "C31", "title": "OUTCAR without SCF steps is refused", "statement": "An OUTCAR without any iteration line exits 600, whatever else it contains; with one it does not exit 600.", "quantifier": "every OUTCAR truncated anywhere", "why_tests_cant": "every crash point", "anchors": ["parsevasp/outcar.py:Outcar._from_list"]}
{"id": "C32", "title": "OUTCAR elastic moduli keys", "statement": "get_elastic_moduli() returns the non-symmetrized tensor under the key it announces for it.", "quantifier": "every OUTCAR with elastic moduli", "why_tests_cant": "all files", "anchors": ["parsevasp/outcar.py:Outcar.__init__,_from_list"]}
{"id": "C33", "title": "Stream trigger is reported once", "statement": "Without history each configured non-inverse stream is reported at most once, and exactly if some line matches it; reports come in order of first matching line.", "quantifier": "every stream text, every configuration", "why_tests_cant": "all line sequences", "anchors": ["parsevasp/stream.py:Stream._from_list"]}
{"id": "C34", "title": "Stream history is complete", "statement": "With history=True the reports are exactly the (line, trigger) matches in line order, then trigger order.", "quantifier": "every stream text and configuration", "why_tests_cant": "unbounded histories", "anchors": ["parsevasp/stream.py:Stream._from_list"]}
{"id": "C35", "title": "Inverse streams", "statement": "An inverse stream is reported exactly once if no line matches it and never otherwise.", "quantifier": "every text and configuration, any crash point of VASP", "why_tests_cant": "all texts", "anchors": ["parsevasp/stream.py:Stream._from_list,_add_inverse_triggers"]}
{"id": "C36", "title": "Stream configuration override", "statement": "User configuration overrides the standard entry of the same short name, adds new ones and leaves all others unchanged; entries of unsupported kind never trigger.", "quantifier": "every override dict", "why_tests_cant": "all dicts", "anchors": ["parsevasp/stream.py:Stream._load_config,_set_streams,_build_stream_triggers"]}
{"id": "C37", "title": "DOSCAR column layout", "statement": "Each field of the returned total/partial DOS holds exactly its own columns of the file, for every supported column count.", "quantifier": "every DOSCAR, every row", "why_tests_cant": "all rows, all layouts", "anchors": ["parsevasp/doscar.py:Doscar._from_list,DTYPES_*"]}
{"id": "C38", "title": "DOSCAR tables are consistent", "statement": "For every supported column count the dtype and the number of spin components describe exactly that many columns, and an unsupported count raises ValueError.", "quantifier": "all column counts", "why_tests_cant": "all integers", "anchors": ["parsevasp/doscar.py:_get_num_spin,_get_dtype_pdos"]}
{"id": "C39", "title": "DOSCAR per-ion blocks", "statement": "pdos[i] is made of the n_dos rows of the i-th block after its header, so no row of one ion is attributed to another.", "quantifier": "every DOSCAR, any number of ions", "why_tests_cant": "all sizes", "anchors": ["parsevasp/doscar.py:Doscar._from_list"]}
{"id": "C40", "title": "EIGENVAL placement", "statement": "eigenvalues[s,k,b] is the value printed in spin column s on the line of band b+1 in block k, kpoints[k] the header of block k; blank lines do not matter.", "quantifier": "every EIGENVAL", "why_tests_cant": "all sizes", "anchors": ["parsevasp/eigenval.py:Eigenval._from_list"]}
{"id": "C41", "title": "CHGCAR grid order", "statement": "charge_density[z,y,x] is the (x + NX*(y + NY*z))-th printed number divided by the cell volume; same for magnetization components.", "quantifier": "every grid and cell", "why_tests_cant": "all grid sizes", "anchors": ["parsevasp/chgcar.py:Chgcar._from_file"]}
{"id": "C42", "title": "POTCAR identity", "statement": "element is the part of symbol before '_', functional and class are determined by LEXCH case-insensitively, unknown LEXCH gives None, attribute access is case-insensitive metadata lookup.", "quantifier": "every POTCAR", "why_tests_cant": "all metadata", "anchors": ["parsevasp/potcar.py:Potcar.symbol,element,functional,__getattr__"]}
{"id": "C43", "title": "Reciprocal lattice duality", "statement": "a_i . b_j = 2 pi delta_ij for every invertible cell.", "quantifier": "every invertible cell", "why_tests_cant": "infinite domain", "anchors": ["parsevasp/utils.py:lat_to_reclat"]}
{"id": "C44", "title": "read_from_file selection", "statement": "With contains=list the returned lines are the lines containing an element; with contains=string the lines/line containing that string.", "quantifier": "every file content and selector", "why_tests_cant": "all contents", "anchors": ["parsevasp/utils.py:read_from_file,is_sequence"]}
{"id": "C45", "title": "Number classification", "statement": "test_string_content says 'int' exactly for strings int() accepts, 'float' exactly for the remaining strings float() accepts, 'string' otherwise.", "quantifier": "every string", "why_tests_cant": "all strings", "anchors": ["parsevasp/utils.py:test_string_content,is_number,is_numbers"]}
{"id": "C46", "title": "write() target discipline", "statement": "write() needs exactly one of file_path/file_handler (else exit 10 and nothing written); a path is opened once, written and closed; a handler is written and left open.", "quantifier": "all argument combinations and all contents", "why_tests_cant": "includes failures of the writer", "anchors": ["parsevasp/base.py:BaseParser.write"]}
{"id": "C47", "title": "vasprun eigenvalue indexing", "statement": "eigenvalues[b][k] (or [k][b] with k_before_band) is the printed value of band b in k-point k, occupancies likewise, for each spin; wrong counts exit 505.", "quantifier": "every document whose eigenvalue rows have a common number of columns, all numbers of bands and k-points", "why_tests_cant": "all sizes", "anchors": ["parsevasp/vasprun.py:Xml._extract_eigenvalues"]}
{"id": "C48", "title": "vasprun projector indexing", "statement": "projectors[atom][band][k][orb] (band/k swapped with k_before_band) is the printed projection.", "quantifier": "all sizes", "why_tests_cant": "all sizes", "anchors": ["parsevasp/vasprun.py:Xml._extract_projectors"]}
{"id": "C49", "title": "vasprun ionic step data", "statement": "get_forces/get_stress/get_unitcell/get_positions('initial'|'last'|'all') are those of the first, last and all ionic steps.", "quantifier": "any number of steps and atoms", "why_tests_cant": "all sizes", "anchors": ["parsevasp/vasprun.py:Xml._fetch_upfsw,get_forces"]}
{"id": "C50", "title": "vasprun energies are flattened consistently", "statement": "In get_energies the array is the concatenation over ionic steps, electronic_steps[i] is the number of entries of step i and they sum to its length; nosc keeps the last electronic energy of each step.", "quantifier": "any number of ionic/electronic steps", "why_tests_cant": "unbounded", "anchors": ["parsevasp/vasprun.py:Xml._get_energies"]}
{"id": "C51", "title": "vasprun truncation detection", "statement": "truncated is False iff the file is larger than 1024 bytes and its last line contains '</modeling>'; a file cut anywhere before the closing tag is reported truncated.", "quantifier": "every file and every cut point", "why_tests_cant": "every crash point", "anchors": ["parsevasp/vasprun.py:Xml._set_xml_truncated"]}
{"id": "C52", "title": "vasprun parsing mode", "statement": "Event mode is used iff requested or the file is complete and not smaller than the cutoff.", "quantifier": "all sizes and flags", "why_tests_cant": "all values", "anchors": ["parsevasp/vasprun.py:Xml._parse"]}
{"id": "C53", "title": "vasprun event and regular parsing agree", "statement": "For every well formed vasprun.xml the event driven parser yields the same data as the regular parser.", "quantifier": "every document tree", "why_tests_cant": "all documents", "anchors": ["parsevasp/vasprun.py:Xml._parsee,_parsew"]}
{"id": "C54", "title": "vasprun species", "statement": "get_species() is the atomic number of each atom line in order; an unknown symbol exits 506.", "quantifier": "every atom list", "why_tests_cant": "all lists", "anchors": ["parsevasp/vasprun.py:Xml._convert_species,_fetch_speciesw"]}
{"id": "C55", "title": "vasprun density of states", "statement": "energy, total and integrated are the three columns of the rows of each spin and partial[a] holds the rows of atom a only, energy column removed.", "quantifier": "every number of atoms/rows", "why_tests_cant": "all sizes", "anchors": ["parsevasp/vasprun.py:Xml._extract_dos"]}
{"id": "C56", "title": "vasprun status argument", "statement": "An unsupported status exits 507; initial/last/all never do.", "quantifier": "all strings", "why_tests_cant": "all strings", "anchors": ["parsevasp/vasprun.py:Xml._check_calc_status"]}
{"id": "C57", "title": "Integer parameter capture", "statement": "match_integer_param sets the lower-case key to the integer printed after 'KEY =' on matching lines and changes nothing else.", "quantifier": "every line and key", "why_tests_cant": "all strings", "anchors": ["parsevasp/utils.py:match_integer_param"]}
{"id": "C58", "title": "OUTCAR run statistics", "statement": "get_run_stats depends only on the last 50 lines; each '(sec)'/'(kb)' line gives its number or None.", "quantifier": "every OUTCAR", "why_tests_cant": "all files", "anchors": ["parsevasp/outcar.py:Outcar._parse_timings_memory"]}
{"id": "C59", "title": "vasprun version", "statement": "get_version() is the first X.Y.Z of the generator version.", "quantifier": "every version string", "why_tests_cant": "all strings", "anchors": ["parsevasp/vasprun.py:Xml.get_version"]}
{"id": "C60", "title": "line_to_type shape", "statement": "A line with one token yields the converted token, otherwise the list of all converted tokens in order.", "quantifier": "every line", "why_tests_cant": "all lines", "anchors": ["parsevasp/utils.py:line_to_type"]}
{"id": "C61", "title": "INCAR tags are case-insensitive", "statement": "A tag stored by parsing or modify is found by get and removed by delete whatever letter case is used for it.", "quantifier": "every tag, every spelling, every object", "why_tests_cant": "all strings", "anchors": ["parsevasp/incar.py:Incar.get,delete,modify"]}
{"id": "C62", "title": "POSCAR accepts cartesian Site objects", "statement": "Poscar(poscar_dict=...) with Site objects in direct or cartesian coordinates holds the same comment, cell and sites, every site in direct coordinates of the same point.", "quantifier": "every dictionary with an invertible cell and any number of Site objects", "why_tests_cant": "all cells and site lists", "anchors": ["parsevasp/poscar.py:Poscar._from_dict,_to_direct,Site"]}
{"id": "C63", "title": "POSCAR site data come from the site's own line", "statement": "Site k of a parsed POSCAR has the three coordinates (direct, or cartesian times the scaling factor) and the three flags printed on the k-th line after the coordinate line.", "quantifier": "every POSCAR text that is accepted, every site", "why_tests_cant": "all texts", "anchors": ["parsevasp/poscar.py:Poscar._from_list"]}
{"id": "C64", "title": "OUTCAR magnetization of the whole cell", "statement": "get_magnetization()['full_cell'] is what the last 'number of electron' line prints behind its first five words, and empty without such a line.", "quantifier": "every OUTCAR", "why_tests_cant": "all files and numbers of such lines", "anchors": ["parsevasp/outcar.py:Outcar._from_list"]}
{"id": "C65", "title": "OUTCAR site moments", "statement": "For each of x, y, z: the moments of a site are those of the last row about it in any table of that direction, by orbital and total; the total is the 'tot' row of the last table, or the first site if a blank line ends it.", "quantifier": "every OUTCAR", "why_tests_cant": "any number of tables, sites and orbitals", "anchors": ["parsevasp/outcar.py:Outcar._from_list"]}
{"id": "C66", "title": "OUTCAR symmetry lists", "statement": "Under static and dynamic, the numbers of operations and the cell types are exactly those the lines of that analysis print, in order; lines before any analysis count for neither.", "quantifier": "every OUTCAR", "why_tests_cant": "any interleaving of analyses", "anchors": ["parsevasp/outcar.py:Outcar._from_list"]}
{"id": "C67", "title": "DOSCAR orbital names", "statement": "The field names of the partial density of states are the orbitals in their order, however spin is treated.", "quantifier": "every supported number of columns, collinear or not", "why_tests_cant": "all tables", "anchors": ["parsevasp/doscar.py:_get_dtype_pdos,DTYPES_PDOS_COLLINEAR,DTYPES_PDOS_NONCOLLINEAR"]}
{"id": "C68", "title": "DOSCAR metadata", "statement": "n_ions and n_atoms are the first two integers of the first line, cartesian tells if the fourth line begins with c or C, name is the stripped fifth line, emax, emin, n_dos, efermi, weight are the five numbers of the sixth line.", "quantifier": "every DOSCAR that is accepted", "why_tests_cant": "all header texts", "anchors": ["parsevasp/doscar.py:Doscar._from_list"]}
{"id": "C69", "title": "Sources of the parsers", "statement": "Incar, Kpoints, Poscar, Outcar, Doscar, Eigenval, Chgcar and Stream exit 10 without any source (Potcar raises ValueError); a missing file exits 14; a file and a handler with the same text give the same object; with both the handler is used.", "quantifier": "every text, every combination of the two arguments", "why_tests_cant": "all texts", "anchors": ["parsevasp/outcar.py:Outcar.__init__, parsevasp/doscar.py:Doscar.__init__, parsevasp/eigenval.py:Eigenval.__init__, parsevasp/chgcar.py:Chgcar.__init__, parsevasp/potcar.py:Potcar.__init__, parsevasp/stream.py:Stream.__init__, parsevasp/incar.py:Incar.__init__,_from_file, parsevasp/kpoints.py:Kpoints.__init__,_from_file, parsevasp/poscar.py:Poscar.__init__,_from_file, parsevasp/utils.py:read_from_file"]}
{"id": "C70", "title": "POTCAR metadata", "statement": "For every known KEY, metadata[KEY] is the typed value printed last for KEY between the first pair of marks, where entries are KEY = value ended by ';' or a line end; other keys are ignored; keys without entry are absent.", "quantifier": "every POTCAR text", "why_tests_cant": "any number and order of entries", "anchors": ["parsevasp/potcar.py:Potcar._generate_metadata"]}
{"id": "C71", "title": "vasprun sources", "statement": "Without path and handler the program exits with 510, a path to a missing file exits with its own code, a handler and a path with the same content lead to the same content being parsed in the same way.", "quantifier": "every content, every combination of the arguments", "why_tests_cant": "all contents", "anchors": ["parsevasp/vasprun.py:Xml.__init__,_parse"]}
{"id": "C72", "title": "vasprun numbers are never made up", "statement": "If a printed row cannot be read (an overflow '****' or a different number of columns) the parser does not return numbers for it: it exits with 509 or returns what is printed.", "quantifier": "every document", "why_tests_cant": "every printed text", "anchors": ["parsevasp/vasprun.py:Xml._convert_array2D_f,_convert_array1D_f,_convert_f,_convert_i"]}
{"id": "C73", "title": "vasprun data on other k-points", "statement": "Interpolated eigenvalues and eigenvelocities stand at [b][k] (or [k][b]) where k counts the k-points given with them, and the specific k-points returned are those given with them.", "quantifier": "every document, all sizes", "why_tests_cant": "all sizes", "anchors": ["parsevasp/vasprun.py:Xml._fetch_eigenvalues_specificw,_fetch_eigenvelocitiesw,_extract_eigenvelocities"]}
{"id": "C74", "title": "vasprun interpolated density of states", "statement": "The density of states of the specific grid is the one printed in the element marked interpolated, with the same layout as the regular one, and its own Fermi level.", "quantifier": "every document, all numbers of atoms and energies", "why_tests_cant": "all sizes", "anchors": ["parsevasp/vasprun.py:Xml._fetch_dosw,_extract_dos"]}
{"id": "C75", "title": "vasprun input parameters", "statement": "symprec, sigma, ismear, ispin, nbands, nelect, system, nelm and nsw are the values printed for them in the parameters block, None if they are not printed.", "quantifier": "every accepted document", "why_tests_cant": "all documents", "anchors": ["parsevasp/vasprun.py:Xml._fetch_symprecw,_fetch_sigmaw,_fetch_ismearw,_fetch_ispinw,_fetch_nbandsw,_fetch_nelectw,_fetch_systemw,_fetch_nelmw,_fetch_nsww"]}
{"id": "C76", "title": "vasprun k-points and response data", "statement": "The k-points, weights and divisions, the dielectric function and tensors, the Hessian, the dynamical matrix and the Born charges are what is printed, each number at its place.", "quantifier": "every accepted document with rows of the right length, all sizes", "why_tests_cant": "all sizes", "anchors": ["parsevasp/vasprun.py:Xml._fetch_kpointsw,_fetch_dielectricsw,_fetch_hessian,_fetch_dynmatw,_fetch_bornw"]}
{"id": "C77", "title": "vasprun event parsing and visible text", "statement": "When vasprun.xml is read event by event, the result does not depend on how much of the text of an element lxml has delivered when the element begins.", "quantifier": "every document and every choice of the visible part of each text", "why_tests_cant": "all documents and all ways of buffering", "anchors": ["parsevasp/vasprun.py:Xml._parsee"]}
{"id": "C78", "title": "vasprun Fermi level", "statement": "get_fermi_level() is the Fermi level printed in the file, None if none is printed; get_fermi_level_specific() the one of the interpolated density of states; for both ways of parsing.", "quantifier": "every accepted document, both parsers", "why_tests_cant": "all documents", "anchors": ["parsevasp/vasprun.py:Xml.get_fermi_level,get_fermi_level_specific,_fetch_dosw,_extract_dos"]}
{"id": "C79", "title": "vasprun lattice of one step", "statement": "get_lattice('initial' or 'last' or 'all') gives unit cell, positions and species of one and the same ionic step (the first, the last, each); any other status exits 507.", "quantifier": "every accepted document with a cell and positions for each of any number of steps", "why_tests_cant": "all numbers of steps and atoms", "anchors": ["parsevasp/vasprun.py:Xml.get_lattice,get_unitcell,get_positions,get_species"]}
{"id": "C80", "title": "vasprun dielectric tensors", "statement": "get_epsilon() and get_epsilon_ion() return the tensor printed in the file, None if it is not printed, for both ways of parsing.", "quantifier": "every accepted document, both parsers", "why_tests_cant": "all documents", "anchors": ["parsevasp/vasprun.py:Xml.get_epsilon,get_epsilon_ion,_fetch_dielectricsw,_parsee"]}
{"id": "C81", "title": "KPOINTS dictionary round trip", "statement": "get_dict() gives the stored entries, every point as its coordinates, weight and coordinate flag in order; Kpoints(kpoints_dict=k.get_dict()) has the same entries and is written alike.", "quantifier": "every Kpoints object, any number of points, any mode", "why_tests_cant": "An example with a grid passes; the claim is about every list of points and every mode, and fails only for some of them.", "anchors": ["parsevasp/kpoints.py: Kpoints.get_dict, Kpoints.__init__, Kpoints._write"]}
{"id": "C82", "title": "INCAR dictionary round trip", "statement": "Incar(incar_dict=x.get_dict()) has the same tags in the same order with the same values as x.", "quantifier": "every Incar object made from any source and changed by any history of modify and delete calls", "why_tests_cant": "Values pass through the tokenizer a second time; that this changes nothing must hold for every value any text or history can produce.", "anchors": ["parsevasp/incar.py: Incar.get_dict, Incar._from_dict, IncarItem._clean_entry"]}
{"id": "C83", "title": "Stream counts", "statement": "number_of_entries is the number of different streams detected and has_entries tells if there is any.", "quantifier": "every configuration, every text, with and without history", "why_tests_cant": "Counting depends on all lines and all triggers of the configuration together.", "anchors": ["parsevasp/stream.py: Stream.number_of_entries, Stream.has_entries, Stream.__str__"]}
{"id": "C84", "title": "Stream with the shipped configuration", "statement": "Without own configuration every text is accepted, each of the 26 documented errors is reported exactly if its phrase occurs in a line, and nostart exactly if no line has 'vasp' followed by a further character.", "quantifier": "every text, with and without history", "why_tests_cant": "The set of reports is a function of the whole text; a test sees single texts.", "anchors": ["parsevasp/stream.yml", "parsevasp/stream.py: Stream.__init__, VaspStream.check_line"]}
{"id": "C85", "title": "KPOINTS objects are independent", "statement": "What a Kpoints object holds is determined by its construction and the calls on it; calls on one object never change what another object, or the dictionary of the caller, holds.", "quantifier": "every program of constructions, modify and delete_point calls on any number of objects", "why_tests_cant": "Sharing shows only in particular combinations of objects and calls; a test makes one object at a time.", "anchors": ["parsevasp/kpoints.py: Kpoints.__init__, Kpoints.modify, Kpoints.delete_point"]}
{"id": "C86", "title": "POSCAR objects are independent", "statement": "What a Poscar object holds is determined by its construction and the calls on it; constructing or changing one object never changes what another object, or the caller's dictionary and Site objects, hold.", "quantifier": "every program of constructions, modify and delete_site calls on any number of objects", "why_tests_cant": "Sharing and in-place conversion of Site objects show only in particular combinations of objects, cells and calls.", "anchors": ["parsevasp/poscar.py: Poscar.__init__, Poscar._from_dict, Poscar.modify, Poscar.delete_site"]}
{"id": "C87", "title": "write() and the disk", "statement": "A write(file_path=p) leaves every other path alone; when it returns, p holds exactly the text; when it is refused, fails or is killed, p still holds the old content or the complete new one.", "quantifier": "every class, content, argument combination, every point at which the process is killed, every schedule of buffer flushes, and every history of such calls", "why_tests_cant": "crash points and buffering cannot be enumerated; a test looks at the file after a normal return", "anchors": ["parsevasp/base.py: BaseParser.write, open_close_file_handler", "parsevasp/utils.py: remove_newline", "parsevasp/potcar.py: Potcar._write", "parsevasp/outcar.py: Outcar._write"]}
{"id": "C88", "title": "Objects survive the disk", "statement": "After x.write(file_path=p) returned, constructing an object of the same class from file_path=p gives the values of x (up to the printed digits).", "quantifier": "all INCAR, KPOINTS and POSCAR objects, all disks and flush schedules", "why_tests_cant": "a test writes and reads a few objects", "anchors": ["parsevasp/base.py: BaseParser.write", "parsevasp/incar.py: Incar._write", "parsevasp/kpoints.py: Kpoints._write", "parsevasp/poscar.py: Poscar._write"]}
{"id": "C89", "title": "File checks", "statement": "file_exists tells for every non-empty path whether it names anything and exits 16 for an empty one; the file check of the parsers passes exactly for regular files and exits 14 otherwise.", "quantifier": "all disks and paths", "why_tests_cant": "a test checks a few paths", "anchors": ["parsevasp/utils.py: file_exists", "parsevasp/base.py: BaseParser._check_file"]}
{"id": "C90", "title": "vasprun objects report the document", "statement": "For an object made from a vasprun.xml file, every getter returns the quantity the document prints under its name: cells, positions, forces, stress, species, energies, k-points and weights, eigenvalues, occupancies, projections, velocities, densities of states, Fermi levels, dielectric data, Hessian, dynamical matrix, Born charges, parameters, version.", "quantifier": "every file that is accepted, every document of the layout in question, every size", "why_tests_cant": "a getter that returns the wrong field, or a step, spin, atom or band off by one, needs documents in which these differ; sizes are unbounded", "anchors": ["parsevasp/vasprun.py: Xml.__init__, Xml.get_forces, Xml.get_stress, Xml.get_unitcell, Xml.get_positions, Xml.get_species, Xml.get_energies, Xml.get_eigenvalues, Xml.get_occupancies, Xml.get_projectors, Xml.get_dos, Xml.get_fermi_level, Xml.get_dielectrics, Xml.get_born, Xml.get_parameters, Xml.get_version"]}
{"id": "C91", "title": "OUTCAR cut off", "statement": "An OUTCAR cut off anywhere, if accepted, is reported as unfinished and unconverged unless the final timings were written; the ionic and electronic counts are a beginning of those of the complete file, and the lists and tables read so far are those of the complete file unless they are printed again.", "quantifier": "every OUTCAR text and every place at which it is cut", "why_tests_cant": "a calculation can die at any byte; a test cuts one file at one place", "anchors": ["parsevasp/outcar.py: Outcar._parse_file, get_run_status, get_run_stats"]}
{"id": "C92", "title": "EIGENVAL cut off", "statement": "An EIGENVAL cut off is refused, and if it is accepted it has the eigenvalues of the complete file.", "quantifier": "every EIGENVAL text and every place at which it is cut", "why_tests_cant": "a calculation can die at any byte; a test cuts one file at one place", "anchors": ["parsevasp/eigenval.py: Eigenval._from_list"]}
{"id": "C93", "title": "DOSCAR cut off", "statement": "A DOSCAR cut off is refused, and if it is accepted it has the densities of states of the complete file.", "quantifier": "every DOSCAR text and every place at which it is cut", "why_tests_cant": "a calculation can die at any byte; a test cuts one file at one place", "anchors": ["parsevasp/doscar.py: Doscar._from_list"]}
{"id": "C94", "title": "CHGCAR cut off", "statement": "A CHGCAR cut off is refused, and if it is accepted it has the charge density and the magnetization of the complete file.", "quantifier": "every CHGCAR text and every place at which it is cut", "why_tests_cant": "a calculation can die at any byte; a test cuts one file at one place", "anchors": ["parsevasp/chgcar.py: Chgcar._from_file"]}
{"id": "C95", "title": "POTCAR cut off or joined", "statement": "A POTCAR cut off at any byte gives exactly what the complete file gives or an error; whatever follows the parameters, such as further potentials of a joined file, has no influence.", "quantifier": "every POTCAR text and every place at which it is cut or continued", "why_tests_cant": "a test cuts one file at one place", "anchors": ["parsevasp/potcar.py: Potcar._from_file, _generate_metadata"]}
{"id": "C96", "title": "Output of a running calculation", "statement": "While standard output grows, reported errors and warnings stay and keep their order; only the absence of something can stop being reported, and it never starts being reported.", "quantifier": "every configuration, every output and every continuation of it", "why_tests_cant": "a test looks at finished outputs only", "anchors": ["parsevasp/stream.py: Stream._from_list, _add_inverse_triggers", "parsevasp/stream.yml"]}
{"id": "C97", "title": "POSCAR cut off", "statement": "A POSCAR cut off, for example by a killed write, is refused, and if it is accepted it has the structure of the complete file.", "quantifier": "every POSCAR text and every place at which it is cut", "why_tests_cant": "a write can be killed at any byte; a test cuts one file at one place", "anchors": ["parsevasp/poscar.py: Poscar._from_list"]}
{"id": "C98", "title": "INCAR cut off", "statement": "An INCAR cut off is refused, or every tag it has has the value of the complete file.", "quantifier": "every INCAR text, every written INCAR and every place at which it is cut", "why_tests_cant": "a write can be killed at any byte; a test cuts one file at one place", "anchors": ["parsevasp/incar.py: Incar._from_list"]}
{"id": "C99", "title": "KPOINTS cut off", "statement": "A KPOINTS cut off is refused, and if it is accepted it has the sampling of the complete file.", "quantifier": "every KPOINTS text and every place at which it is cut", "why_tests_cant": "a write can be killed at any byte; a test cuts one file at one place", "anchors": ["parsevasp/kpoints.py: Kpoints._from_list"]}
{"id": "C100", "title": "Blank lines at the end", "statement": "Blank lines at the end of a file with complete lines do not change what is read from it, whatever the file.", "quantifier": "every text of every file type with complete lines and every number of blank lines appended to it", "why_tests_cant": "editors and schedulers append blank lines; a test reads files as VASP left them", "anchors": ["parsevasp/incar.py: Incar._from_list", "parsevasp/kpoints.py: Kpoints._from_list", "parsevasp/poscar.py: Poscar._from_list", "parsevasp/potcar.py: Potcar._from_file", "parsevasp/outcar.py: Outcar._from_list", "parsevasp/eigenval.py: Eigenval._from_list", "parsevasp/doscar.py: Doscar._from_list", "parsevasp/chgcar.py: Chgcar._from_file", "parsevasp/stream.py: Stream._from_list"]}
{"id": "C101", "title": "Written files are stable", "statement": "The text written for an INCAR, KPOINTS or POSCAR object, read again and written again with the same options, is the same text byte for byte, although the numbers were rounded to the printed digits and to binary floating point numbers on the way.", "quantifier": "every object of the three types, every number of decimals, every set of machine numbers with correctly rounded reading (binary64 among them)", "why_tests_cant": "all numbers, all texts and all roundings; a test writes a few numbers", "anchors": ["parsevasp/incar.py: Incar._write", "parsevasp/kpoints.py: Kpoints._write", "parsevasp/poscar.py: Poscar._write"]}
{"id": "C102", "title": "Blanks between and around words do not matter", "statement": "Changing the blanks (spaces, tabs) between and around the words of a line never changes what is read from an INCAR, KPOINTS, POSCAR, DOSCAR, EIGENVAL or CHGCAR file: the same data, or the same refusal.", "quantifier": "every pair of texts that agree word by word on every line (for INCAR: in tags, values and comments)", "why_tests_cant": "all texts and all ways to change blanks; tests read one spacing per file", "anchors": ["parsevasp/incar.py: Incar._from_list, Incar._clean_entry", "parsevasp/kpoints.py: Kpoints._from_list", "parsevasp/poscar.py: Poscar._from_list", "parsevasp/doscar.py: Doscar._from_list", "parsevasp/eigenval.py: Eigenval._from_list", "parsevasp/chgcar.py: Chgcar._from_file"]}
{"id": "C103", "title": "A missing newline at the end of the file does not matter", "statement": "Whether the last line of an INCAR, KPOINTS, POSCAR, POTCAR, OUTCAR, DOSCAR, EIGENVAL, CHGCAR or standard output ends with a newline never changes what is read: the same data, or the same refusal.", "quantifier": "every text that ends in a character other than white space, with and without a newline appended", "why_tests_cant": "all texts; tests read files as editors and VASP leave them", "anchors": ["parsevasp/incar.py: Incar._from_list", "parsevasp/kpoints.py: Kpoints._from_list", "parsevasp/poscar.py: Poscar._from_list", "parsevasp/potcar.py: Potcar._generate_metadata", "parsevasp/outcar.py: Outcar._from_list, Outcar._parse_timings_memory", "parsevasp/doscar.py: Doscar._from_list", "parsevasp/eigenval.py: Eigenval._from_list", "parsevasp/chgcar.py: Chgcar._from_file", "parsevasp/stream.py: Stream._parse"]}
{"id": "C104", "title": "A call that fails changes nothing", "statement": "If modify, delete, delete_point, delete_site, add_point, add_site or the construction of an object from a dictionary exits or raises, every object, list, dictionary and Site in memory is as before the call; so a program that catches the failure goes on as if the call had not been made.", "quantifier": "every object, every argument, every history of calls with failures caught anywhere", "why_tests_cant": "A test sees one failing call with one state; the assignments before the exception matter for every argument and every order of calls.", "anchors": ["parsevasp/incar.py: Incar.modify, Incar.delete", "parsevasp/kpoints.py: Kpoints.__init__, Kpoints.modify, Kpoints.delete_point, Kpoints.add_point", "parsevasp/poscar.py: Poscar.__init__, Poscar._from_dict, Poscar.modify, Poscar.delete_site, Poscar.add_site"]}
{"id": "C105", "title": "INCAR objects are independent", "statement": "What an Incar object holds is determined by its construction and the calls on it: calls on other objects, and whatever the caller does with values given to or taken from the object, never change it.", "quantifier": "every program of constructions, modify, delete, get and get_dict calls on any number of objects, with values shared in any way, and changes of lists by the caller", "why_tests_cant": "Sharing shows only in particular combinations of objects, lists and calls.", "anchors": ["parsevasp/incar.py: Incar.__init__, Incar._from_dict, Incar.modify, Incar.get, Incar.get_dict, IncarItem._clean_entry"]}
{"id": "C106", "title": "Upper and lower case do not matter", "statement": "Two texts that differ only in the case of letters (tags, keywords, species, truth values, exponents) give the same object from KPOINTS, POSCAR, INCAR, DOSCAR and EIGENVAL, up to the case of letters in comments, names and values that are text, or are refused in the same way.", "quantifier": "every pair of texts equal after lower-casing, from a file path, a file handler or a string", "why_tests_cant": "A test changes the case of one keyword; every letter of every text may be either case, and each of them passes through different comparisons.", "anchors": ["parsevasp/kpoints.py: Kpoints._from_list", "parsevasp/poscar.py: Poscar._from_list, Site", "parsevasp/incar.py: Incar._from_list, IncarItem._clean_entry, IncarItem._test_string_for_bool", "parsevasp/doscar.py: Doscar._from_list", "parsevasp/eigenval.py: Eigenval._from_list"]}
{"id": "C107", "title": "A stream object stays valid", "statement": "A VaspStream can be built only from allowed values (strings for name, message and suggestion, the kinds ERROR and WARNING in any case, the locations STDOUT and STDERR, truth values, a pattern that compiles); it then has exactly these attributes, no sequence of assignments, refused ones caught, gives an attribute another kind of value, check_line never raises and answers None or an equal stream, and its text is \"(kind) shortname: message\".", "quantifier": "every eight arguments of any type, every sequence of assignments of any objects to any attributes, every line, every regular expression library", "why_tests_cant": "Eight attributes, objects of any type and sequences of assignments with exceptions caught: tests try a few.", "anchors": ["parsevasp/stream.py: VaspStream.__init__, VaspStream setters and getters, VaspStream.check_line, VaspStream.__str__, VaspStream.recoverable"]}
{"id": "C108", "title": "A file handler is as good as the file", "statement": "An object made from an open file handler is the object made from a file with the same text, however the handler was used before; making it changes no text and no other handler.", "quantifier": "every class, every text, any number of handlers, every program of constructions and seeks on them", "why_tests_cant": "A test opens a handler, parses once and closes it; positions and the order of uses come from the caller's program.", "anchors": ["parsevasp/utils.py: read_from_file", "parsevasp/vasprun.py: Xml._set_file_size, Xml._set_xml_truncated, Xml._parsew", "parsevasp/incar.py: Incar._from_file", "parsevasp/stream.py: Stream._parse, Stream._from_file", "parsevasp/outcar.py: Outcar._from_file"]}
{"id": "C109", "title": "Getters return what was parsed", "statement": "Once a POTCAR, CHGCAR, DOSCAR, EIGENVAL or OUTCAR is parsed, each getter returns the parsed value, the same object every time, whatever else the program does with this and with other parser objects.", "quantifier": "every sequence of parsings, getter calls, item reads and item assignments, every number of objects and variables, results of every shape", "why_tests_cant": "A test calls a getter once and compares; whether a returned value is shared with the object shows only in longer programs.", "anchors": ["parsevasp/doscar.py: Doscar.get_metadata, Doscar.get_dos, Doscar.get_pdos", "parsevasp/eigenval.py: Eigenval.get_metadata, Eigenval.get_eigenvalues, Eigenval.get_kpoints", "parsevasp/chgcar.py: Chgcar.charge_density, Chgcar.magnetization_density", "parsevasp/outcar.py: Outcar getters", "parsevasp/potcar.py: Potcar.metadata"]}
{"id": "C110", "title": "The dictionary of a vasprun.xml object is everything", "statement": "get_dict contains all parsed data: each getter returns what the dictionary holds under its name (quantities of ionic steps selected by the documented statuses all, initial, final), and objects with equal dictionaries answer every getter alike.", "quantifier": "every object of either parser, every getter and argument", "why_tests_cant": "A test compares a few keys for one file.", "anchors": ["parsevasp/vasprun.py: Xml.get_dict, Xml getters, Xml._check_calc_status"]}
{"id": "C111", "title": "Coordinate conversions with rounding", "statement": "With machine numbers the conversions between direct and cartesian coordinates undo each other up to a stated error, each is within a stated error of the exact result, and the reciprocal cell is reciprocal up to a stated error; the error depends only on the precision, the sizes of the cell and its inverse, and the residual of the inverse.", "quantifier": "every cell and vector in the range of the machine numbers, every set of machine numbers and rounding with the stated accuracy, binary64 included", "why_tests_cant": "A test compares a few vectors with a tolerance; a bound must hold for all.", "anchors": ["parsevasp/utils.py: dir_to_cart, cart_to_dir, lat_to_reclat"]}
{"id": "C112", "title": "POSCAR round trips settle with machine arithmetic", "statement": "A structure is written (direct or cartesian, with or without conserved order) and read back with machine arithmetic: sites keep order, species and flags, coordinates change by at most one unit of the last printed digit; writing and reading what was read gives the same object again, so nothing drifts however often it is repeated.", "quantifier": "every structure whose numbers are in range, every precision, every machine arithmetic whose conversion error is below half a unit of the last digit", "why_tests_cant": "A test does one round trip with a tolerance; drift shows only over many.", "anchors": ["parsevasp/poscar.py: Poscar._from_list, Poscar._to_direct, Poscar._to_cart, Poscar._write", "parsevasp/utils.py: dir_to_cart, cart_to_dir"]}
{"id": "C113", "title": "A vasprun.xml that is cut off", "statement": "A vasprun.xml of a run that was killed is read with recovery; whatever is returned is what the complete file gives, shortened to what was written: each parameter is the same or missing, lists and tables are first parts, completed ionic steps are returned unchanged under their numbers, and data cut off in the middle is missing or refused, never returned as something else.", "quantifier": "every document, every place between two tags where it may end, both settings of extract_all and k_before_band", "why_tests_cant": "The crash point is arbitrary; a test has one truncated file.", "anchors": ["parsevasp/vasprun.py: Xml._parse, Xml._parsew, Xml._fetch_upfsw, Xml._fetch_totensw, Xml._fetch_dosw, Xml._fetch_eigenvaluesw, Xml._fetch_projectorsw, Xml._fetch_bornw, Xml._fetch_dynmatw"]}
{"id": "C114", "title": "A Poscar stays well typed", "statement": "The comment is a string (or None), the unit cell a 3x3 array and the sites a list of Site objects: the constructor refuses anything else, modify accepts a value exactly if it fits its entry and then changes only that entry, and every history of modify and delete_site keeps it so.", "quantifier": "every object, every name and value, every history of edits", "why_tests_cant": "A test edits a few entries once; the values and the order of edits come from the caller.", "anchors": ["parsevasp/poscar.py: Poscar._validate, Poscar.modify, Poscar.delete_site, Poscar._check_allowed_entries, Poscar._check_unitcell, Poscar._check_comment, Poscar._check_sites, Poscar._check_site"]}
{"id": "C115", "title": "KPOINTS and POSCAR string and file agree", "statement": "A text given as a string gives the same object, or the same refusal, as a file or file handler with that text.", "quantifier": "every text", "why_tests_cant": "all texts, all line ends", "anchors": ["parsevasp/kpoints.py: Kpoints._from_string, Kpoints._from_file, Kpoints._from_list", "parsevasp/poscar.py: Poscar._from_string, Poscar._from_file, Poscar._from_list"]}
{"id": "C116", "title": "Exit codes", "statement": "A parser ends the process (sys.exit) only with the codes of its own table of errors, and for each parser the exact set of codes that a call can produce is known: constructors, modify, delete_site, write, the getters of vasprun.xml. Incomplete objects and files are refused with the code of that error.", "quantifier": "every source, every text, every XML document, every edit", "why_tests_cant": "an enumeration of all refusals is only meaningful if no other input produces another one", "anchors": ["parsevasp/incar.py: Incar.__init__", "parsevasp/kpoints.py: Kpoints.__init__", "parsevasp/poscar.py: Poscar.__init__, Poscar.modify, Poscar._write", "parsevasp/outcar.py: Outcar.__init__", "parsevasp/doscar.py: Doscar.__init__", "parsevasp/eigenval.py: Eigenval.__init__", "parsevasp/chgcar.py: Chgcar.__init__", "parsevasp/potcar.py: Potcar.__init__", "parsevasp/stream.py: Stream.__init__", "parsevasp/vasprun.py: Xml.__init__, Xml._parsew, Xml._parsee, Xml._check_calc_status", "parsevasp/base.py: BaseParser.ERROR_MESSAGES"]}
{"id": "C117", "title": "What a Stream says it looks for", "statement": "kinds lists the supported kinds of the configuration in force, each once, in order of first appearance; configured_streams lists under the lower-case plural of each kind every stream of that kind exactly once, the ordinary ones before the inverse ones, each group in the order of the configuration; str() gives the number of entries and the kinds.", "quantifier": "every configuration with and without entries of the user, every text", "why_tests_cant": "All sets of entries, all spellings of kinds and all mixtures of overriding and new entries.", "anchors": ["parsevasp/stream.py: Stream.kinds, Stream.configured_streams, Stream.__str__, Stream._load_config, Stream._set_streams, Stream._build_stream_triggers, Stream._from_list"]}
{"id": "C118", "title": "Writing to a file handler", "statement": "write(file_handler=f) puts the text of the object at the position of f and moves f behind it; what stands in front of the position stays, however the call ends; a call that ends with an exit code leaves f as it was; objects written one after another stand one after another, and each can be read from where it starts.", "quantifier": "every INCAR, KPOINTS and POSCAR object, every file and position, every sequence of objects", "why_tests_cant": "All objects times all contents and positions of files times all sequences of writes.", "anchors": ["parsevasp/base.py: BaseParser.write", "parsevasp/incar.py: Incar._write", "parsevasp/kpoints.py: Kpoints._write", "parsevasp/poscar.py: Poscar._write", "parsevasp/utils.py: remove_newline"]}
{"id": "C119", "title": "Reading a file whose writing was killed", "statement": "If the process is killed during x.write(file_path=p), an object of the same class read afterwards from p is the object that was there before or x (up to the printed digits), or the file is refused.", "quantifier": "every INCAR, KPOINTS and POSCAR object, every disk, every moment at which the process is killed, every division of the text into flushed pieces", "why_tests_cant": "A test cannot kill the process at every byte, nor enumerate the objects.", "anchors": ["parsevasp/base.py: BaseParser.write", "parsevasp/incar.py: Incar._write", "parsevasp/incar.py: Incar._from_list", "parsevasp/kpoints.py: Kpoints._write", "parsevasp/kpoints.py: Kpoints._from_list", "parsevasp/poscar.py: Poscar._write", "parsevasp/poscar.py: Poscar._from_list"]}
{"id": "C120", "title": "Line ends do not matter", "statement": "Whether the lines of a file or string end with LF, CRLF (Windows) or CR (old Macintosh) does not change what any parser makes of it: the same object, or the same refusal.", "quantifier": "every text without carriage returns, every parser, every source (path, string, file handler that does not translate line ends)", "why_tests_cant": "A test tries one file with one kind of line end; the property ranges over all texts and over every place where a line end is looked at.", "anchors": ["parsevasp/base.py: open_close_file_handler", "parsevasp/utils.py: read_from_file", "parsevasp/incar.py: Incar._from_list", "parsevasp/kpoints.py: Kpoints._from_list", "parsevasp/poscar.py: Poscar._from_list", "parsevasp/outcar.py: Outcar._parse_timings_memory", "parsevasp/potcar.py: Potcar._generate_metadata", "parsevasp/eigenval.py: Eigenval._from_list", "parsevasp/chgcar.py: Chgcar._from_file", "parsevasp/stream.py: Stream._parse_stream"]}
{"id": "C121", "title": "POSCAR lattice and scaling factor", "statement": "The unit cell of an object read from a POSCAR text consists of the vectors on lines three to five times the scaling factor of line two; how the scale is split between factor and vectors does not matter; factors the code does not support (negative, zero, one per axis) are refused.", "quantifier": "every accepted text, every pair of texts that differ only by moving a factor between line two and the vectors (cell, cartesian positions), every negative factor", "why_tests_cant": "A test reads one cell with one factor; the property ranges over all cells, factors and pairs of texts.", "anchors": ["parsevasp/poscar.py: Poscar._from_list"]}
{"id": "C122", "title": "POSCAR velocities and predictors come from their own lines", "statement": "The velocity and the predictor of a site are those printed for it in the velocity and predictor blocks, in direct coordinates if the block is direct and converted with the cell if it is cartesian; sites of files without these blocks have none.", "quantifier": "every accepted text, every site", "why_tests_cant": "A test tries one layout; the property ranges over all combinations of layouts, numbers of sites and sites.", "anchors": ["parsevasp/poscar.py: Poscar._from_list"]}
{"id": "C123", "title": "Damaged number fields are refused, never misread", "statement": "A number field that Fortran could not print properly (overflow stars, a field that runs into the next one, an exponent without its letter) makes the file be refused; it is never read as another number.", "quantifier": "every accepted POSCAR, DOSCAR, EIGENVAL, OUTCAR and CHGCAR text, every table row of a vasprun.xml, every number position", "why_tests_cant": "A test damages one field of one file; the property ranges over all files, positions and kinds of damage.", "anchors": ["parsevasp/poscar.py: Poscar._from_list", "parsevasp/doscar.py: Doscar._from_list", "parsevasp/eigenval.py: Eigenval._from_list", "parsevasp/chgcar.py: Chgcar._from_file", "parsevasp/vasprun.py: Xml._convert_array2D_f", "parsevasp/utils.py: line_to_type"]}
{"id": "C124", "title": "Impossible counts are refused", "statement": "A file whose header announces an impossible number of things (a negative number of sites, energies, k-points, bands, tetrahedra or grid points, no spins, a grid with other than three extents) is refused; a file that is accepted returns as many as it announces.", "quantifier": "every POSCAR, DOSCAR, EIGENVAL, CHGCAR and KPOINTS text, every integer at the place of a count", "why_tests_cant": "A test tries one wrong count in one file; the property ranges over all files and all integers, and slices and reshapes give negative counts a meaning of their own.", "anchors": ["parsevasp/poscar.py: Poscar._from_list", "parsevasp/doscar.py: Doscar._from_list", "parsevasp/eigenval.py: Eigenval._from_list", "parsevasp/chgcar.py: Chgcar._from_file", "parsevasp/kpoints.py: Kpoints._from_list"]}
{"id": "C125", "title": "Numbers printed as NaN or Infinity", "statement": "A number printed as NaN or (plus or minus) Infinity is returned as such at its place, and does not change what is returned for anything else.", "quantifier": "every DOSCAR, EIGENVAL, CHGCAR and OUTCAR text, every place of a number", "why_tests_cant": "A test puts one NaN at one place; the property ranges over all places, combinations and sizes.", "anchors": ["parsevasp/doscar.py: Doscar._from_list", "parsevasp/eigenval.py: Eigenval._from_list", "parsevasp/chgcar.py: Chgcar._from_file", "parsevasp/outcar.py: Outcar._from_list", "parsevasp/utils.py: line_to_type"]}
{"id": "C126", "title": "A ';' at the end of an INCAR line", "statement": "What is accepted from a file is also accepted, with the same tags and values, with a comment appended to one of its lines, as a string, with CRLF line ends and without the newline at its end - unless the line concerned ends with ';' and has no comment; then it is refused with exit code 102, whatever else the file contains.", "quantifier": "every accepted INCAR file, every line, every comment", "why_tests_cant": "The exception must be exactly this one: a test cannot show that no other line is affected, nor that every such line is.", "anchors": ["parsevasp/incar.py: Incar._from_list, Incar._from_string, Incar._from_file", "parsevasp/utils.py: read_from_file"]}
{"id": "C127", "title": "Which exceptions escape from reading a file", "statement": "Whatever is wrong with a text file, reading it ends with a result, with an exit code, or with one of a fixed set of Python exceptions: IndexError and ValueError, for DOSCAR also TypeError, KeyError, AttributeError and OverflowError, for EIGENVAL TypeError and AttributeError, for POTCAR KeyError and AttributeError but not IndexError, for OUTCAR KeyError and TypeError, for POSCAR LinAlgError, for vasprun.xml TypeError and AttributeError and, in event mode, KeyError and ZeroDivisionError; none of these sets can be made smaller.", "quantifier": "every text of a KPOINTS, POSCAR, INCAR, OUTCAR, DOSCAR, EIGENVAL, CHGCAR or POTCAR file, every XML document", "why_tests_cant": "A caller that catches these exceptions must catch them for every damaged file; tests only show the exceptions of the files they damage.", "anchors": ["parsevasp/kpoints.py: Kpoints._from_list", "parsevasp/poscar.py: Poscar._from_list", "parsevasp/incar.py: Incar._from_list", "parsevasp/outcar.py: Outcar._from_list", "parsevasp/doscar.py: Doscar._from_list", "parsevasp/eigenval.py: Eigenval._from_list", "parsevasp/chgcar.py: Chgcar._from_file", "parsevasp/potcar.py: Potcar._generate_metadata", "parsevasp/vasprun.py: Xml._parsew, Xml._parsee"]}
{"id": "C128", "title": "Positions in edits", "statement": "delete_site, delete_point and modify with a position take any integer: positions 0 .. n-1 count from the front and -1 .. -n from the back, exactly the element named is deleted or replaced and everything else stays; a position of n or more is refused (304 for sites, 211 for points) and one below -n raises IndexError; over every history of such calls the first position that is out of range, in the list as it is then, decides.", "quantifier": "every object that holds a list of sites or points, every history of edits with every integer as position", "why_tests_cant": "The list shrinks as the history goes on, so which positions are in range depends on all earlier calls.", "anchors": ["parsevasp/poscar.py: Poscar.modify, Poscar.delete_site, Poscar._check_site_number", "parsevasp/kpoints.py: Kpoints.modify, Kpoints.delete_point, Kpoints._check_point_number"]}
{"id": "C129", "title": "Which source is used", "statement": "Of every combination of string, dictionary, path and handler given to Incar, Kpoints or Poscar exactly these are refused with exit 10: none at all, the string with the dictionary or a path, and dictionary, path and handler together. Of the others Incar uses the dictionary before the string before the handler before the path, and needs a path given with a dictionary to exist (exit 14); Kpoints and Poscar use the handler before the path before the dictionary, and the string before the handler, whose file must be readable nonetheless. The result is that of the source used, given alone.", "quantifier": "every combination of sources with every content", "why_tests_cant": "The guards look at the combination and the loading code at the contents; a test fixes both.", "anchors": ["parsevasp/incar.py: Incar.__init__", "parsevasp/kpoints.py: Kpoints.__init__", "parsevasp/poscar.py: Poscar.__init__"]}
{"id": "C130", "title": "Exactly what modify accepts", "statement": "On every valid Kpoints or Poscar object modify(entry, value) returns normally exactly if the value is well typed for the entry, or is None (but not for the points of a Kpoints), or the entry is the comment and the comment is None, or the name is no entry but contains the name of one; it then has stored the value under that name and changed nothing else.", "quantifier": "every valid object, every name, every value", "why_tests_cant": "Names and values come from the caller; a test tries a few of each.", "anchors": ["parsevasp/kpoints.py: Kpoints.modify, Kpoints._check_allowed_entries", "parsevasp/poscar.py: Poscar.modify, Poscar._check_allowed_entries"]}
{"id": "C131", "title": "Writing a KPOINTS whose points were edited", "statement": "Take a valid explicit Kpoints object of n points without tetrahedra and any history of delete_point and modify(entry, value, point_number) that runs to its end. The object can be written; the text announces n points and lists the points left, one fewer for each deletion. If nothing was deleted the text is read back as the points left, rounded to the decimals printed; if anything was deleted, reading it raises IndexError, from string, path and handler.", "quantifier": "every explicit object, comment and number of decimals, every history of edits by position", "why_tests_cant": "The number announced and the points listed come from different entries; what a test sees depends on the history it happens to run.", "anchors": ["parsevasp/kpoints.py: Kpoints.delete_point, Kpoints.modify, Kpoints._write, Kpoints._from_list"]}
{"id": "C132", "title": "What becomes of a POSCAR comment", "statement": "The first header written is the formula alone if there is no comment, the comment alone if the formula occurs in it, and otherwise the formula with the comment behind it. However often the file is then read and written again, the comment read and the header written are what the first header has behind its '#', without any other '#' and without blanks around. The header is therefore final from the first write on exactly if there is no comment, or the comment has no '#', does not end in a blank, and either has the formula and does not begin with a blank, or has not and is not empty.", "quantifier": "every writable structure without '#' in species names, every comment, number of decimals and order, any number of cycles", "why_tests_cant": "The comment is arbitrary text and is rewritten at every cycle; a test sees one text and one cycle.", "anchors": ["parsevasp/poscar.py: Poscar._write, Poscar._from_list"]}
{"id": "C133", "title": "The verdict on a run numbered in order", "statement": "For every OUTCAR whose ionic steps are numbered on from 1 and the electronic steps within each from 1, the verdict is a function of the numbers of electronic steps, of whether the run finished, and of the last printed NELM, NSW and IBRION. On such a run a consistent breach is a breach and the run is not electronically converged, and a finished run that is not converged has a breach. On any OUTCAR whatsoever a breach is reported as consistent but not as contained exactly if the run is unfinished, all its iteration lines are of one ionic step later than the first, and there are fewer of them than NELM.", "quantifier": "every OUTCAR accepted, every number of ionic and electronic steps", "why_tests_cant": "The flags are computed from masks over all steps; a test has one run.", "anchors": ["parsevasp/outcar.py: Outcar._from_list"]}
{"id": "C134", "title": "Species of POSCAR sites, whatever the counts", "statement": "In every POSCAR that can be read the number of sites is the sum of the count line, and their species are the first that many names of the species line repeated by the counts, where a count below zero in the first place is taken as zero and a count below one in any other place as one.", "quantifier": "every text that can be read, with any integers on the count line", "why_tests_cant": "A test has the counts of one structure, all positive.", "anchors": ["parsevasp/poscar.py: Poscar._from_list"]}
{"id": "C135", "title": "Stream history on and off", "statement": "For every configuration and every file, a Stream without history is the one with history with only the first record of every stream kept, in the same order; where one cannot be built the other cannot either, with the same error. With history the number of entries is the number of finds over all lines and streams that are not inverse, plus one for every inverse stream found in no line.", "quantifier": "every configuration, every text, every regular expression engine", "why_tests_cant": "The two modes take different paths through the loops over lines and triggers; a test compares one file.", "anchors": ["parsevasp/stream.py: Stream._from_list, Stream._add_inverse_triggers, Stream.number_of_entries"]}
{"id": "C136", "title": "Rows of numbers in vasprun.xml, overflow or not", "statement": "Whatever numbers the rows of a table print before their text ends or a number overflows ('****'), the table has one row per element and as many places in each as asked for. A row stores the numbers printed exactly if they are as many as its places; one number alone is stored in every place; otherwise the row is zero. A list of single numbers is read exactly if every element prints one number, and otherwise reading exits with 509.", "quantifier": "every list of elements, every number of places, every text of number literals with or without overflow", "why_tests_cant": "NumPy's broadcasting decides silently what is stored; a test has rows of the right length.", "anchors": ["parsevasp/vasprun.py: Xml._convert_array2D_f, Xml._convert_array1D_f"]}
{"id": "C137", "title": "Writing a POSCAR whose sites were edited", "statement": "Take a valid Poscar object and any history of delete_site and modify(entry, site, site_number) that runs to its end, leaving sites that all or none have velocities and likewise predictors. The object can be written and is read back, from file, handler and string, as the sites left: in their order with conserve_order, otherwise grouped by species with the order within a species kept, each with its species, flags, velocities and predictors, numbers rounded to the decimals printed. After deletions alone nothing more is needed than was needed before.", "quantifier": "every object, every history of edits by position, every number of decimals, both orders, both coordinate systems", "why_tests_cant": "A test runs one history on one structure; the formula, counts and blocks of the file are recomputed after every edit.", "anchors": ["parsevasp/poscar.py: Poscar.delete_site, Poscar.modify, Poscar._write, Poscar._from_list"]}
{"id": "C138", "title": "Line-mode KPOINTS read from a string", "statement": "A line-mode KPOINTS with n points, written and read back from a string, holds the comment, number and mode written and n + (n-1)/2 points: a point without coordinates follows every second point but the last, so that point j is at place j + j/2, with its coordinates rounded to the decimals printed. The points are those written exactly if there are at most two.", "quantifier": "every line-mode object, every comment, number of points and of decimals", "why_tests_cant": "The blank lines of the file become points only for a string; a test sees one number of points from one source.", "anchors": ["parsevasp/kpoints.py: Kpoints._from_list, Kpoints._from_string, Kpoints._write"]}
{"id": "C139", "title": "Writing an INCAR whose tags were edited", "statement": "Take an Incar object read from any text without lists of truth values, infinities and nan, and any history of modify and delete calls with words for tags, values or texts that do not contain '=', ';' or '#' and one-line comments, calls that fail included. Written with or without comments and read back by path or from an open file, the object answers every get as the finite map does that the history describes (last value set, nothing for deleted tags, failed calls change nothing), and holds the object's comments if they were written; get_string() given back as a string reads the same if no verbatim value has an exotic line break.", "quantifier": "every object, every history of edits, both comment settings, with and without tag validation", "why_tests_cant": "A test runs one history on one INCAR; what is lost on the way to the file depends on every value stored in between.", "anchors": ["parsevasp/incar.py: Incar.modify, Incar.delete, Incar._write, Incar._from_list, IncarItem._clean_entry"]}
{"id": "C140", "title": "Exactly which ionic step the vasprun getters show", "statement": "For every accepted vasprun.xml with a cell and positions in each of n structures (all steps extracted), get_unitcell, get_positions, get_forces and get_stress have max(n,2) entries numbered from one: 'initial' is the first, 'last' the last, 'all' has all of them and no others; entry k is step k, but for a single step the second entry repeats it and, for two steps of a quantity with one row (one atom), both entries are the first step. A quantity that is not printed gives None for the first and last entry. Any other word exits 507; in a document without atoms, or (all steps extracted) without any structure, every word gives None.", "quantifier": "every document, number of steps, number of atoms, every word", "why_tests_cant": "The exceptions sit at particular numbers of steps and atoms; a test sees one.", "anchors": ["parsevasp/vasprun.py: Xml._fetch_upfsw, Xml.get_forces, Xml.get_stress, Xml.get_unitcell, Xml.get_positions, Xml._check_calc_status"]}
{"id": "C141", "title": "Exactly which edits keep a Kpoints object well typed", "statement": "On a well typed Kpoints object a modify or delete_point call that returns normally leaves a well typed object unless it sets num_kpoints to None, comment to something that is neither a string nor None, or divisions to None on an object with neither points nor generating vectors; then the class's own validation of what is left exits 13 or 206. An object is well typed all along a history of calls exactly if no call in it is one of these for the object it is made on.", "quantifier": "every well typed object, every call and value, every history", "why_tests_cant": "A test makes a few calls with a few values; which value is harmful depends on what the object holds.", "anchors": ["parsevasp/kpoints.py: Kpoints.modify, Kpoints.delete_point, Kpoints._validate, Kpoints._check_comment, Kpoints._check_num_kpoints, Kpoints._check_dict"]}
{"id": "C142", "title": "Exactly which edits keep a Poscar object well typed", "statement": "On a Poscar object with a string or None as comment, a 3x3 array as unit cell and a list of Site objects as sites, a modify or delete_site call that returns normally leaves such an object unless it sets the comment to something else, the unit cell, the sites or a single site to None, or the sites to anything but a list of Site objects. The object is so all along a history of calls, refused ones included, exactly if no call that returned is one of these, and then it passes the class's own validation.", "quantifier": "every object, every call and value, every history with refused calls", "why_tests_cant": "A test makes a few calls with a few values; the checks look at stored values in some cases.", "anchors": ["parsevasp/poscar.py: Poscar.modify, Poscar.delete_site, Poscar._validate, Poscar._check_comment, Poscar._check_unitcell, Poscar._check_sites, Poscar._check_site"]}
{"id": "C143", "title": "Projections and partial densities for every number of columns", "statement": "With the same number of columns in all rows, projectors[atom][band][k] holds the printed row if it has nine numbers, nine times the number if it has one, and nine zeros otherwise; partial[atom][energy] holds the same for rows of ten numbers, with the first removed; totals, integrated densities and energies are the printed columns in all these cases.", "quantifier": "every document, every number of columns, atoms, bands, k-points and energies", "why_tests_cant": "A test has documents with a few numbers of columns; the shapes accepted without an error are all of them.", "anchors": ["parsevasp/vasprun.py: Xml._extract_projectors, Xml._extract_dos"]}
{"id": "C144", "title": "Exactly which steps get_lattice puts together", "statement": "With all steps extracted, get_lattice has max(n, 2) entries for n ionic steps; the unit cell of an entry is that of its step (of the only step if n = 1) and so are the positions, except with one atom and two steps, where both entries have the positions of the first step beside the cells of the first and the second. An unknown status exits 507, except in a document without atoms or structures, where cell and positions are None for every word.", "quantifier": "every accepted document with a cell and positions in each step, every number of steps and atoms, every word", "why_tests_cant": "A test has a few numbers of steps and atoms.", "anchors": ["parsevasp/vasprun.py: Xml.get_lattice, Xml.get_unitcell, Xml.get_positions, Xml._fetch_upfsw"]}
{"id": "C145", "title": "Index arguments that are not integers", "statement": "modify and delete_point of Kpoints and modify and delete_site of Poscar take True and False as the indices 1 and 0; with an index that is no int at all (a float, a string, ...) every such call exits - with 207 or 305 for an unknown name, with 210 for a KPOINTS value that is no Kpoint, otherwise with 13 - and in every history of calls whose failures are caught such calls might as well be left out.", "quantifier": "every object, every name, every value, every index, every history", "why_tests_cant": "A test tries a few indices; an index of another type could pass one of the comparisons.", "anchors": ["parsevasp/kpoints.py: Kpoints.modify, Kpoints.delete_point, Kpoints._check_point_number", "parsevasp/poscar.py: Poscar.modify, Poscar.delete_site, Poscar._check_site_number"]}
{"id": "C146", "title": "CHGCAR densities in machine arithmetic", "statement": "With machine arithmetic a text is accepted exactly if it is a CHGCAR whose data sets fill its grid and whose computed volume is not zero, and each density value is computed from the number printed for its point and the computed volume alone. If each operation has relative error u and scalar products d, and nothing overflows or underflows, the computed volume differs from the exact triple product by at most ((1+u)^11 (1+d) - 1) times the sum of the absolute values of its six terms (u = 2^-52, d = 2^-49 for binary64); if that is at most the fraction e < 1 of the volume, a text that exact arithmetic accepts is accepted and all densities have relative errors of at most (1+u)^2/(1-e) - 1.", "quantifier": "every text, every cell, every grid, every arithmetic with these errors", "why_tests_cant": "A test compares a few densities with a tolerance; how large the error can get depends on how flat the cell is.", "anchors": ["parsevasp/chgcar.py: Chgcar._from_file"]}
{"id": "C147", "title": "Files are sequences of bytes", "statement": "A file given by its path is read as the text whose UTF-8 form it is, and any other sequence of bytes is refused with a UnicodeDecodeError, for INCAR, POSCAR, KPOINTS, DOSCAR, EIGENVAL, CHGCAR, POTCAR and OUTCAR. A file cut behind any byte, for example by a killed write(), is refused exactly if the cut is inside a character, and is otherwise read as the text cut there; a file that is all ASCII is never refused for where it is cut. A single byte beyond ASCII among ASCII characters (a comment in Latin-1) is always noticed.", "quantifier": "every file, every number of bytes kept, every class", "why_tests_cant": "A test writes and reads ASCII files; which sequences of bytes are text, and what a cut inside a character does, is a property of all files.", "anchors": ["parsevasp/base.py: open_close_file_handler", "parsevasp/utils.py: read_from_file"]}
{"id": "C148", "title": "Which OUTCAR files are accepted", "statement": "An OUTCAR is accepted exactly if it has an iteration line, every other line is readable, NELM is printed, NSW is printed if the run finished with IBRION > 0, and each of the last fifty lines with (sec) or (kb) has a colon. Readable means: integers behind NSW, IBRION, NELM and NBANDS=, a line below the cell lines and an integer in the line of the space group under an analysis of symmetry, six rows of numbers below each header of elastic moduli, below each header of magnetization rows of numbered sites up to a total or, if some site is known, a blank line, and numbers behind number of electron. It ends with exit code 600 exactly if it has no iteration line and all lines are readable, and with an uncaught exception otherwise.", "quantifier": "every text, any number and order of lines and tables, truncated anywhere", "why_tests_cant": "A test runs a few complete files; where a truncation or a damaged line is noticed, and how, depends on every line of the file.", "anchors": ["parsevasp/outcar.py: Outcar._from_list, _parse_timings_memory", "parsevasp/utils.py: match_integer_param"]}
{"id": "C149", "title": "Which EIGENVAL files are accepted", "statement": "An EIGENVAL is accepted exactly if its first six lines are four integers (the last, the number of spins, not negative), two lines of numbers, one word, any line, and three integers (the last two, the numbers of k-points and bands, not negative); the part behind is not blank and neither its first two nor its last two pieces between line breaks are both blank; it has at most as many blocks (runs of lines that are not blank) as k-points; and each block begins with four numbers, or one, followed by lines that begin with the number of a band (zero and negative numbers count from the last) and have, in the columns of the spins, as many numbers as spins, or one. Infinite numbers and NaN count as numbers. Every other text raises IndexError, ValueError, TypeError or AttributeError; none ends with an exit code.", "quantifier": "every text whose only line break is the newline, any sizes, number and length of blocks, truncated anywhere", "why_tests_cant": "A test reads one complete file; which truncations and damages go unnoticed depends on every line.", "anchors": ["parsevasp/eigenval.py: Eigenval._from_list", "parsevasp/utils.py: empty_line, line_to_type"]}
{"id": "C150", "title": "Which DOSCAR files are accepted", "statement": "A DOSCAR is accepted exactly if its first six lines are four integers, two lines that are not read, one word, any line, and five numbers of which the third is finite (without its fraction the number n of energies); all lines behind contain numbers only; the first n of them are there, at least one, and all have three or all have five numbers; and either no line repeats the five numbers of the header, or, counted from the first line that does, every ion (at least one) has the same number of lines, at least one and at most n, all with the same number of columns, which must be one of the known ones. Infinite numbers and NaN count as numbers; a negative n counts from the end, as in a slice. Every other text raises one of six exceptions; none ends with an exit code.", "quantifier": "every text, any number of ions, energies and columns, truncated anywhere, with and without the flag for non-collinear calculations", "why_tests_cant": "A test reads a few complete files; which truncations and damages go unnoticed depends on every line.", "anchors": ["parsevasp/doscar.py: Doscar._from_list, _get_num_spin, _get_dtype_pdos", "parsevasp/utils.py: line_to_type"]}
{"id": "C151", "title": "Which POSCAR files are accepted", "statement": "A POSCAR is accepted exactly if the second line begins with a scale that is not negative, three lines hold three numbers each, the sixth line does not consist of numbers separated by single blanks, the seventh holds integers; there is a name for every position; every position line begins with three numbers and has six words if there are flags, and the lattice can be inverted unless positions are direct; the second line behind the positions, if there is one, begins with a number; and, if the line behind the positions begins with d or c, there are as many lines of three numbers behind it (and an invertible lattice if one of the two is not direct), and the blank line behind them, if any, has another one below, which if it begins with a number begins as many lines of three numbers; or, if it is blank and not the last line, as many lines of three numbers follow. Every other text ends with exit code 301, 302, 307 or 13 or one of three exceptions.", "quantifier": "every text without infinite numbers and NaN: all counts (also negative ones, whose line numbers count from the end), all scales and lattices, with and without flags, velocities and predictors, truncated anywhere", "why_tests_cant": "A test reads a few complete files; which truncations and damages go unnoticed depends on every line.", "anchors": ["parsevasp/poscar.py: Poscar._from_list, _to_direct, _validate", "parsevasp/utils.py: is_number, is_numbers, cart_to_dir"]}
{"id": "C152", "title": "Which KPOINTS files are accepted", "statement": "A KPOINTS is accepted exactly if the second line begins with an integer n, the third has a first letter, and: for the letter l the fourth line begins with r or d and all below are mere newlines or have numbers as their first words (up to three); otherwise for positive n the letter is neither k nor c, n lines of three numbers follow (a fourth word must be a number), and what is behind them is nothing, or a line that is not blank, and if that begins with t, it has nothing or an integer, a number and as many lines of five integers below; otherwise the letter is g or m and the fourth line holds integers (and the fifth, if it is the last, numbers), or it is r and four lines of numbers follow. Every other text ends with exit code 200, 201, 202, 203 or 206 or one of two exceptions.", "quantifier": "every text without infinite numbers and NaN, all modes and numbers of points and tetrahedra, truncated anywhere", "why_tests_cant": "A test reads a few complete files; which truncations and damages go unnoticed depends on every line.", "anchors": ["parsevasp/kpoints.py: Kpoints._from_list, _validate"]}
{"id": "C153", "title": "Which INCAR texts, dictionaries and assignments are accepted", "statement": "An INCAR text is accepted exactly if every assignment of it (the pieces between ; in front of #, blank lines aside) has one =, a tag in front of it, and, but for SYSTEM, MAGMOM and M_CONSTR, values of one kind: whole numbers, other finite numbers, or words that are no numbers. Otherwise the first assignment at fault decides: exit 101 for two =, 102 for none, IndexError for no tag, ValueError for the literal of an infinity or NaN among the values, exit 104 for values of several kinds; nothing else happens. A constructor succeeds exactly if the text is acceptable and, unless the validation is switched off, every tag is in the table; a dictionary exactly if each item has a tag and a value of one of the types, a string at most one # and values of one kind in front of it; modify exactly if the tag and value are acceptable, whatever is stored already.", "quantifier": "every text (file, handler or string), every dictionary, every call of modify, every table of tags", "why_tests_cant": "A test tries a few malformed entries; that nothing else is refused and nothing else accepted is a statement about all texts.", "anchors": ["parsevasp/incar.py: Incar.__init__, _from_list, _from_dict, validate, modify, IncarItem._clean_entry", "parsevasp/utils.py: test_string_content"]}
{"id": "C154", "title": "Regular expressions", "statement": "What the program takes out of a text with a regular expression is what Python's engine takes: the entries of a POTCAR (re.findall of KEY = VALUE), the part of a POTCAR between the two marks, the truth values, whole and real numbers of the entries, the whole number behind a parameter of an OUTCAR, the iterations of an OUTCAR line, the lines of the timings and their pieces, the version of vasprun.xml and the blocks of an EIGENVAL.", "quantifier": "every text, every value, every line; the engine tries the ways of the first piece of a pattern in order of preference, and for each of them those of the pieces behind it", "why_tests_cant": "A test matches a few lines; which of several possible matches is taken, and that nothing else matches, is a statement about all texts.", "anchors": ["parsevasp/potcar.py: Potcar._generate_metadata", "parsevasp/utils.py: match_integer_param, empty_line", "parsevasp/outcar.py: Outcar._parse_timings_memory", "parsevasp/vasprun.py: Xml.get_version", "parsevasp/eigenval.py: Eigenval._from_file"]}
{"id": "C155", "title": "Which POTCAR files are accepted, and what is stored", "statement": "A POTCAR is accepted if and only if both marks are there, the value of every entry with a known key can be read, and there is a TITEL; metadata[KEY] is then what is read from the value printed last for KEY, and there is nothing else. Otherwise the error is AttributeError for a missing mark or an unreadable truth value or whole number, ValueError for an unreadable real number or STEP, KeyError for a missing TITEL, whichever is met first.", "quantifier": "every text, the entries being the matches of the pattern KEY = VALUE, well separated or not", "why_tests_cant": "A test reads a few sound files; the property decides for every text whether it is read, what is stored and how it fails otherwise.", "anchors": ["parsevasp/potcar.py: Potcar._generate_metadata"]}
