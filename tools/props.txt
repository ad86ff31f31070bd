C01 | INCAR text is canonical | For every Incar object, get_string() emits exactly one line 'TAG = value' per stored tag, tag upper-cased, lines in strictly increasing alphabetical order of the lower-case tag, nothing else. | every set of stored entries, any order of insertion, any values | unbounded number of entries and insertion orders | parsevasp/incar.py:Incar._write,Incar.get_string,Incar._convert_value_to_string
C02 | INCAR write/read round trip | Re-reading the text produced by get_string() yields the same tags with the same values (int, float, bool, string and homogeneous lists of them). | every Incar whose entries were produced by parsing or modify | all values and all tags | parsevasp/incar.py:Incar._write,Incar._from_list,IncarItem._clean_entry
C03 | Last assignment of an INCAR tag wins | When a tag occurs several times in an INCAR text (over lines or ';'-separated, in any case/spacing), get(tag) is the value of the last occurrence, and a tag not assigned is absent. | every list of assignments, any length, any interleaving | unbounded texts | parsevasp/incar.py:Incar._from_list
C04 | INCAR comments are inert | Appending '#...' to any line, or inserting comment-only/blank lines anywhere, changes no tag or value. | every INCAR text, every comment text, every position | all texts | parsevasp/incar.py:Incar._from_list
C05 | INCAR value typing | A value string with tokens that are all integer literals becomes int(s), all float literals float(s), otherwise strings/bools; one token gives a scalar; mixed kinds exit with code 104; SYSTEM/MAGMOM/M_CONSTR stay the stripped raw string. | every value string | all token lists | parsevasp/incar.py:IncarItem._clean_entry,_test_string_for_bool; parsevasp/utils.py:test_string_content
C06 | INCAR tag validation | With validate_tags the constructor returns only if every tag is in the official table and otherwise exits 100; without it no tag is rejected. | every entries dict and table | all dicts | parsevasp/incar.py:Incar.validate
C07 | INCAR object is a map | Any history of modify/delete/get/get_dict behaves like a finite map from lower-case tag to last value (looked up by the lower-case tag); get_dict agrees with get on every tag. | every operation sequence | unbounded histories | parsevasp/incar.py:Incar.modify,delete,get,get_dict
C08 | INCAR comment retrieval | get(tag, comment=True) returns the value and the comment stored with the tag. | every stored entry with a comment | all entries | parsevasp/incar.py:Incar.get
C09 | Exactly one input source | Incar, Poscar and Kpoints constructors reject (exit 10) every call supplying no source or more than one source, and accept every call with exactly one. | all combinations of given/absent arguments | finite but must hold for all three classes; tests sample | parsevasp/incar.py:Incar.__init__; parsevasp/poscar.py:Poscar.__init__; parsevasp/kpoints.py:Kpoints.__init__
C10 | INCAR string and file agree | Parsing a text given as incar_string gives the same entries as parsing a file with the same content. | every INCAR text | all texts | parsevasp/incar.py:Incar._from_string,_from_file,_from_list
C11 | Malformed INCAR entries are rejected with the documented code | An entry with two '=' exits 101, an entry without '=' exits 102; no entry is silently dropped; well formed input never raises anything else. | every INCAR text | all texts | parsevasp/incar.py:Incar._from_list
C12 | POSCAR sites are regrouped, never changed | Writing without conserve_order emits a permutation of the stored sites in which each species forms one contiguous block, blocks ordered by increasing count (ties by first appearance), relative order within a species kept, and the count line equals the block sizes. | every list of sites | all site lists and species orders | parsevasp/poscar.py:Poscar._sort_and_group_sites
C13 | conserve_order keeps the order | With conserve_order the sites are emitted in stored order and expanding the written species/count lines gives back exactly the species of the sites in order, with no two neighbouring equal species names. | every list of sites | all site lists | parsevasp/poscar.py:Poscar._sort_and_group_sites
C14 | POSCAR species assignment on read | Site i of a parsed POSCAR has the i-th species of the expansion of the species line by the count line; the number of sites is the sum of the counts. | every species/count line | all count lists | parsevasp/poscar.py:Poscar._from_list
C15 | POSCAR write/read round trip | Parsing the text written for a structure gives back the same species, selective flags, unit cell, positions, velocities and predictors, numbers rounded to prec decimals, in the written order. | every structure whose species names are single words that are not number literals, with a single-line comment and (for cartesian output) a cell that is still invertible after rounding; every precision, order and coordinate mode | all structures | parsevasp/poscar.py:Poscar._write,_from_list
C16 | Direct/cartesian conversion is exact inverse | For every invertible cell converting direct to cartesian and back (and conversely) is the identity, so get_dict(direct=False) describes the same structure as get_dict(). | every invertible 3x3 cell, every vector | infinite domain | parsevasp/utils.py:dir_to_cart,cart_to_dir; parsevasp/poscar.py:get_dict,_from_dict
C17 | POSCAR header is stable | Writing, reading and writing again does not change the header line; 'Old comment:' is added at most once. | every comment and structure | all comments, any number of rewrites | parsevasp/poscar.py:Poscar._write,_from_list
C18 | POSCAR site edits hit the addressed site only | delete_site(i)/modify('sites', s, i) changes exactly site i, leaves all others in order, and any out-of-range index is refused without change. | every site list, index, history of edits | unbounded histories | parsevasp/poscar.py:Poscar.modify,delete_site,_check_site_number
C19 | POSCAR dictionary round trip | Poscar(poscar_dict=p.get_dict()) can be written and denotes the same structure. | every structure | all structures | parsevasp/poscar.py:Poscar._from_dict,get_dict
C20 | VASP 4 POSCAR is refused | A POSCAR whose sixth line holds the numbers of ions instead of species exits with 301. | every POSCAR text, any spacing | all texts | parsevasp/poscar.py:Poscar._from_list; parsevasp/utils.py:is_numbers
C21 | KPOINTS explicit round trip | Writing explicit k-points and reading them back gives the same points, weights (None becomes 1), tetrahedra and volume, rounded to prec decimals. | every list of points, tetrahedra, precision | all lists | parsevasp/kpoints.py:Kpoints._write,_from_list
C22 | KPOINTS automatic round trip | Writing an automatic grid (Gamma, Monkhorst-Pack or generating vectors) and reading it back gives the same centering, divisions/vectors and shifts (None becomes zero). | every grid | all grids | parsevasp/kpoints.py:Kpoints._write,_from_list
C23 | KPOINTS line-mode round trip | Writing line-mode points and reading the text back gives the same points, whether supplied as file or as string. | every list of points | all lists, even/odd lengths | parsevasp/kpoints.py:Kpoints._write,_from_list; parsevasp/utils.py:remove_newline
C24 | KPOINTS entries stay well typed | After any history of modify/delete_point calls that return normally, the entries satisfy the class's own validation. | every history | unbounded histories | parsevasp/kpoints.py:Kpoints.modify,_validate
C25 | KPOINTS allowed entries are modifiable | Every documented entry can be modified with a well typed value, and no other entry name is accepted. | every entry name | all strings | parsevasp/kpoints.py:Kpoints._check_allowed_entries,modify
C26 | KPOINTS point count stays consistent | After delete_point or modify('points', ...) an explicit KPOINTS text announces exactly as many points as it lists. | every edit history | unbounded histories | parsevasp/kpoints.py:Kpoints.delete_point,modify,_write
C27 | get() on POSCAR/KPOINTS returns stored values | Poscar.get(tag)/Kpoints.get(tag) returns the stored entry and None for a missing tag. | every tag and object | all objects | parsevasp/poscar.py:Poscar.get; parsevasp/kpoints.py:Kpoints.get
C28 | OUTCAR convergence verdict | ionic_converged/electronic_converged/consistent_nelm_breach/contains_nelm_breach are the documented function of finished, IBRION, NSW, NELM, the last iteration index and the number of electronic steps of each ionic step. | every OUTCAR | all values and step histories | parsevasp/outcar.py:Outcar._from_list
C29 | OUTCAR breach flags are coherent | consistent_nelm_breach implies contains_nelm_breach; an unfinished run is never reported converged. | every OUTCAR | all histories, every truncation point | parsevasp/outcar.py:Outcar._from_list
C30 | OUTCAR electronic steps are counted per ionic step | The number of electronic steps used for ionic step n is the number of 'Iteration n( m)' lines, last_iteration_index is the last such line; other lines are irrelevant. | every OUTCAR | any interleaving and amount of other lines | parsevasp/outcar.py:Outcar._from_list
C31 | OUTCAR without SCF steps is refused | An OUTCAR without any iteration line exits 600, whatever else it contains; with one it does not exit 600. | every OUTCAR truncated anywhere | every crash point | parsevasp/outcar.py:Outcar._from_list
C32 | OUTCAR elastic moduli keys | get_elastic_moduli() returns the non-symmetrized tensor under the key it announces for it. | every OUTCAR with elastic moduli | all files | parsevasp/outcar.py:Outcar.__init__,_from_list
C33 | Stream trigger is reported once | Without history each configured non-inverse stream is reported at most once, and exactly if some line matches it; reports come in order of first matching line. | every stream text, every configuration | all line sequences | parsevasp/stream.py:Stream._from_list
C34 | Stream history is complete | With history=True the reports are exactly the (line, trigger) matches in line order, then trigger order. | every stream text and configuration | unbounded histories | parsevasp/stream.py:Stream._from_list
C35 | Inverse streams | An inverse stream is reported exactly once if no line matches it and never otherwise. | every text and configuration, any crash point of VASP | all texts | parsevasp/stream.py:Stream._from_list,_add_inverse_triggers
C36 | Stream configuration override | User configuration overrides the standard entry of the same short name, adds new ones and leaves all others unchanged; entries of unsupported kind never trigger. | every override dict | all dicts | parsevasp/stream.py:Stream._load_config,_set_streams,_build_stream_triggers
C37 | DOSCAR column layout | Each field of the returned total/partial DOS holds exactly its own columns of the file, for every supported column count. | every DOSCAR, every row | all rows, all layouts | parsevasp/doscar.py:Doscar._from_list,DTYPES_*
C38 | DOSCAR tables are consistent | For every supported column count the dtype and the number of spin components describe exactly that many columns, and an unsupported count raises ValueError. | all column counts | all integers | parsevasp/doscar.py:_get_num_spin,_get_dtype_pdos
C39 | DOSCAR per-ion blocks | pdos[i] is made of the n_dos rows of the i-th block after its header, so no row of one ion is attributed to another. | every DOSCAR, any number of ions | all sizes | parsevasp/doscar.py:Doscar._from_list
C40 | EIGENVAL placement | eigenvalues[s,k,b] is the value printed in spin column s on the line of band b+1 in block k, kpoints[k] the header of block k; blank lines do not matter. | every EIGENVAL | all sizes | parsevasp/eigenval.py:Eigenval._from_list
C41 | CHGCAR grid order | charge_density[z,y,x] is the (x + NX*(y + NY*z))-th printed number divided by the cell volume; same for magnetization components. | every grid and cell | all grid sizes | parsevasp/chgcar.py:Chgcar._from_file
C42 | POTCAR identity | element is the part of symbol before '_', functional and class are determined by LEXCH case-insensitively, unknown LEXCH gives None, attribute access is case-insensitive metadata lookup. | every POTCAR | all metadata | parsevasp/potcar.py:Potcar.symbol,element,functional,__getattr__
C43 | Reciprocal lattice duality | a_i . b_j = 2 pi delta_ij for every invertible cell. | every invertible cell | infinite domain | parsevasp/utils.py:lat_to_reclat
C44 | read_from_file selection | With contains=list the returned lines are the lines containing an element; with contains=string the lines/line containing that string. | every file content and selector | all contents | parsevasp/utils.py:read_from_file,is_sequence
C45 | Number classification | test_string_content says 'int' exactly for strings int() accepts, 'float' exactly for the remaining strings float() accepts, 'string' otherwise. | every string | all strings | parsevasp/utils.py:test_string_content,is_number,is_numbers
C46 | write() target discipline | write() needs exactly one of file_path/file_handler (else exit 10 and nothing written); a path is opened once, written and closed; a handler is written and left open. | all argument combinations and all contents | includes failures of the writer | parsevasp/base.py:BaseParser.write
C47 | vasprun eigenvalue indexing | eigenvalues[b][k] (or [k][b] with k_before_band) is the printed value of band b in k-point k, occupancies likewise, for each spin; wrong counts exit 505. | every document whose eigenvalue rows have a common number of columns, all numbers of bands and k-points | all sizes | parsevasp/vasprun.py:Xml._extract_eigenvalues
C48 | vasprun projector indexing | projectors[atom][band][k][orb] (band/k swapped with k_before_band) is the printed projection. | all sizes | all sizes | parsevasp/vasprun.py:Xml._extract_projectors
C49 | vasprun ionic step data | get_forces/get_stress/get_unitcell/get_positions('initial'|'last'|'all') are those of the first, last and all ionic steps. | any number of steps and atoms | all sizes | parsevasp/vasprun.py:Xml._fetch_upfsw,get_forces
C50 | vasprun energies are flattened consistently | In get_energies the array is the concatenation over ionic steps, electronic_steps[i] is the number of entries of step i and they sum to its length; nosc keeps the last electronic energy of each step. | any number of ionic/electronic steps | unbounded | parsevasp/vasprun.py:Xml._get_energies
C51 | vasprun truncation detection | truncated is False iff the file is larger than 1024 bytes and its last line contains '</modeling>'; a file cut anywhere before the closing tag is reported truncated. | every file and every cut point | every crash point | parsevasp/vasprun.py:Xml._set_xml_truncated
C52 | vasprun parsing mode | Event mode is used iff requested or the file is complete and not smaller than the cutoff. | all sizes and flags | all values | parsevasp/vasprun.py:Xml._parse
C53 | vasprun event and regular parsing agree | For every well formed vasprun.xml the event driven parser yields the same data as the regular parser. | every document tree | all documents | parsevasp/vasprun.py:Xml._parsee,_parsew
C54 | vasprun species | get_species() is the atomic number of each atom line in order; an unknown symbol exits 506. | every atom list | all lists | parsevasp/vasprun.py:Xml._convert_species,_fetch_speciesw
C55 | vasprun density of states | energy, total and integrated are the three columns of the rows of each spin and partial[a] holds the rows of atom a only, energy column removed. | every number of atoms/rows | all sizes | parsevasp/vasprun.py:Xml._extract_dos
C56 | vasprun status argument | An unsupported status exits 507; initial/last/all never do. | all strings | all strings | parsevasp/vasprun.py:Xml._check_calc_status
C57 | Integer parameter capture | match_integer_param sets the lower-case key to the integer printed after 'KEY =' on matching lines and changes nothing else. | every line and key | all strings | parsevasp/utils.py:match_integer_param
C58 | OUTCAR run statistics | get_run_stats depends only on the last 50 lines; each '(sec)'/'(kb)' line gives its number or None. | every OUTCAR | all files | parsevasp/outcar.py:Outcar._parse_timings_memory
C59 | vasprun version | get_version() is the first X.Y.Z of the generator version. | every version string | all strings | parsevasp/vasprun.py:Xml.get_version
C60 | line_to_type shape | A line with one token yields the converted token, otherwise the list of all converted tokens in order. | every line | all lines | parsevasp/utils.py:line_to_type
C61 | INCAR tags are case-insensitive | A tag stored by parsing or modify is found by get and removed by delete whatever letter case is used for it. | every tag, every spelling, every object | all strings | parsevasp/incar.py:Incar.get,delete,modify
C62 | POSCAR accepts cartesian Site objects | Poscar(poscar_dict=...) with Site objects in direct or cartesian coordinates holds the same comment, cell and sites, every site in direct coordinates of the same point. | every dictionary with an invertible cell and any number of Site objects | all cells and site lists | parsevasp/poscar.py:Poscar._from_dict,_to_direct,Site
C63 | POSCAR site data come from the site's own line | Site k of a parsed POSCAR has the three coordinates (direct, or cartesian times the scaling factor) and the three flags printed on the k-th line after the coordinate line. | every POSCAR text that is accepted, every site | all texts | parsevasp/poscar.py:Poscar._from_list
C64 | OUTCAR magnetization of the whole cell | get_magnetization()['full_cell'] is what the last 'number of electron' line prints behind its first five words, and empty without such a line. | every OUTCAR | all files and numbers of such lines | parsevasp/outcar.py:Outcar._from_list
C65 | OUTCAR site moments | For each of x, y, z: the moments of a site are those of the last row about it in any table of that direction, by orbital and total; the total is the 'tot' row of the last table, or the first site if a blank line ends it. | every OUTCAR | any number of tables, sites and orbitals | parsevasp/outcar.py:Outcar._from_list
C66 | OUTCAR symmetry lists | Under static and dynamic, the numbers of operations and the cell types are exactly those the lines of that analysis print, in order; lines before any analysis count for neither. | every OUTCAR | any interleaving of analyses | parsevasp/outcar.py:Outcar._from_list
C67 | DOSCAR orbital names | The field names of the partial density of states are the orbitals in their order, however spin is treated. | every supported number of columns, collinear or not | all tables | parsevasp/doscar.py:_get_dtype_pdos,DTYPES_PDOS_COLLINEAR,DTYPES_PDOS_NONCOLLINEAR
C68 | DOSCAR metadata | n_ions and n_atoms are the first two integers of the first line, cartesian tells if the fourth line begins with c or C, name is the stripped fifth line, emax, emin, n_dos, efermi, weight are the five numbers of the sixth line. | every DOSCAR that is accepted | all header texts | parsevasp/doscar.py:Doscar._from_list
C69 | Sources of the parsers | Incar, Kpoints, Poscar, Outcar, Doscar, Eigenval, Chgcar and Stream exit 10 without any source (Potcar raises ValueError); a missing file exits 14; a file and a handler with the same text give the same object; with both the handler is used. | every text, every combination of the two arguments | all texts | parsevasp/outcar.py:Outcar.__init__, parsevasp/doscar.py:Doscar.__init__, parsevasp/eigenval.py:Eigenval.__init__, parsevasp/chgcar.py:Chgcar.__init__, parsevasp/potcar.py:Potcar.__init__, parsevasp/stream.py:Stream.__init__, parsevasp/incar.py:Incar.__init__,_from_file, parsevasp/kpoints.py:Kpoints.__init__,_from_file, parsevasp/poscar.py:Poscar.__init__,_from_file, parsevasp/utils.py:read_from_file
C70 | POTCAR metadata | For every known KEY, metadata[KEY] is the typed value printed last for KEY between the first pair of marks, where entries are KEY = value ended by ';' or a line end; other keys are ignored; keys without entry are absent. | every POTCAR text | any number and order of entries | parsevasp/potcar.py:Potcar._generate_metadata
C71 | vasprun sources | Without path and handler the program exits with 510, a path to a missing file exits with its own code, a handler and a path with the same content lead to the same content being parsed in the same way. | every content, every combination of the arguments | all contents | parsevasp/vasprun.py:Xml.__init__,_parse
C72 | vasprun numbers are never made up | If a printed row cannot be read (an overflow '****' or a different number of columns) the parser does not return numbers for it: it exits with 509 or returns what is printed. | every document | every printed text | parsevasp/vasprun.py:Xml._convert_array2D_f,_convert_array1D_f,_convert_f,_convert_i
C73 | vasprun data on other k-points | Interpolated eigenvalues and eigenvelocities stand at [b][k] (or [k][b]) where k counts the k-points given with them, and the specific k-points returned are those given with them. | every document, all sizes | all sizes | parsevasp/vasprun.py:Xml._fetch_eigenvalues_specificw,_fetch_eigenvelocitiesw,_extract_eigenvelocities
C74 | vasprun interpolated density of states | The density of states of the specific grid is the one printed in the element marked interpolated, with the same layout as the regular one, and its own Fermi level. | every document, all numbers of atoms and energies | all sizes | parsevasp/vasprun.py:Xml._fetch_dosw,_extract_dos
C75 | vasprun input parameters | symprec, sigma, ismear, ispin, nbands, nelect, system, nelm and nsw are the values printed for them in the parameters block, None if they are not printed. | every accepted document | all documents | parsevasp/vasprun.py:Xml._fetch_symprecw,_fetch_sigmaw,_fetch_ismearw,_fetch_ispinw,_fetch_nbandsw,_fetch_nelectw,_fetch_systemw,_fetch_nelmw,_fetch_nsww
C76 | vasprun k-points and response data | The k-points, weights and divisions, the dielectric function and tensors, the Hessian, the dynamical matrix and the Born charges are what is printed, each number at its place. | every accepted document with rows of the right length, all sizes | all sizes | parsevasp/vasprun.py:Xml._fetch_kpointsw,_fetch_dielectricsw,_fetch_hessian,_fetch_dynmatw,_fetch_bornw
C77 | vasprun event parsing and visible text | When vasprun.xml is read event by event, the result does not depend on how much of the text of an element lxml has delivered when the element begins. | every document and every choice of the visible part of each text | all documents and all ways of buffering | parsevasp/vasprun.py:Xml._parsee
C78 | vasprun Fermi level | get_fermi_level() is the Fermi level printed in the file, None if none is printed; get_fermi_level_specific() the one of the interpolated density of states; for both ways of parsing. | every accepted document, both parsers | all documents | parsevasp/vasprun.py:Xml.get_fermi_level,get_fermi_level_specific,_fetch_dosw,_extract_dos
C79 | vasprun lattice of one step | get_lattice('initial' or 'last' or 'all') gives unit cell, positions and species of one and the same ionic step (the first, the last, each); any other status exits 507. | every accepted document with a cell and positions for each of any number of steps | all numbers of steps and atoms | parsevasp/vasprun.py:Xml.get_lattice,get_unitcell,get_positions,get_species
C80 | vasprun dielectric tensors | get_epsilon() and get_epsilon_ion() return the tensor printed in the file, None if it is not printed, for both ways of parsing. | every accepted document, both parsers | all documents | parsevasp/vasprun.py:Xml.get_epsilon,get_epsilon_ion,_fetch_dielectricsw,_parsee
C81 | KPOINTS dictionary round trip | get_dict() gives the stored entries, every point as its coordinates, weight and coordinate flag in order; Kpoints(kpoints_dict=k.get_dict()) has the same entries and is written alike. | every Kpoints object, any number of points, any mode | An example with a grid passes; the claim is about every list of points and every mode, and fails only for some of them. | parsevasp/kpoints.py: Kpoints.get_dict, Kpoints.__init__, Kpoints._write
C82 | INCAR dictionary round trip | Incar(incar_dict=x.get_dict()) has the same tags in the same order with the same values as x. | every Incar object made from any source and changed by any history of modify and delete calls | Values pass through the tokenizer a second time; that this changes nothing must hold for every value any text or history can produce. | parsevasp/incar.py: Incar.get_dict, Incar._from_dict, IncarItem._clean_entry
C83 | Stream counts | number_of_entries is the number of different streams detected and has_entries tells if there is any. | every configuration, every text, with and without history | Counting depends on all lines and all triggers of the configuration together. | parsevasp/stream.py: Stream.number_of_entries, Stream.has_entries, Stream.__str__
C84 | Stream with the shipped configuration | Without own configuration every text is accepted, each of the 26 documented errors is reported exactly if its phrase occurs in a line, and nostart exactly if no line has 'vasp' followed by a further character. | every text, with and without history | The set of reports is a function of the whole text; a test sees single texts. | parsevasp/stream.yml; parsevasp/stream.py: Stream.__init__, VaspStream.check_line
C85 | KPOINTS objects are independent | What a Kpoints object holds is determined by its construction and the calls on it; calls on one object never change what another object, or the dictionary of the caller, holds. | every program of constructions, modify and delete_point calls on any number of objects | Sharing shows only in particular combinations of objects and calls; a test makes one object at a time. | parsevasp/kpoints.py: Kpoints.__init__, Kpoints.modify, Kpoints.delete_point
C86 | POSCAR objects are independent | What a Poscar object holds is determined by its construction and the calls on it; constructing or changing one object never changes what another object, or the caller's dictionary and Site objects, hold. | every program of constructions, modify and delete_site calls on any number of objects | Sharing and in-place conversion of Site objects show only in particular combinations of objects, cells and calls. | parsevasp/poscar.py: Poscar.__init__, Poscar._from_dict, Poscar.modify, Poscar.delete_site
C87 | write() and the disk | A write(file_path=p) leaves every other path alone; when it returns, p holds exactly the text; when it is refused, fails or is killed, p still holds the old content or the complete new one. | every class, content, argument combination, every point at which the process is killed, every schedule of buffer flushes, and every history of such calls | crash points and buffering cannot be enumerated; a test looks at the file after a normal return | parsevasp/base.py: BaseParser.write, open_close_file_handler; parsevasp/utils.py: remove_newline; parsevasp/potcar.py: Potcar._write; parsevasp/outcar.py: Outcar._write
C88 | Objects survive the disk | After x.write(file_path=p) returned, constructing an object of the same class from file_path=p gives the values of x (up to the printed digits). | all INCAR, KPOINTS and POSCAR objects, all disks and flush schedules | a test writes and reads a few objects | parsevasp/base.py: BaseParser.write; parsevasp/incar.py: Incar._write; parsevasp/kpoints.py: Kpoints._write; parsevasp/poscar.py: Poscar._write
C89 | File checks | file_exists tells for every non-empty path whether it names anything and exits 16 for an empty one; the file check of the parsers passes exactly for regular files and exits 14 otherwise. | all disks and paths | a test checks a few paths | parsevasp/utils.py: file_exists; parsevasp/base.py: BaseParser._check_file
C90 | vasprun objects report the document | For an object made from a vasprun.xml file, every getter returns the quantity the document prints under its name: cells, positions, forces, stress, species, energies, k-points and weights, eigenvalues, occupancies, projections, velocities, densities of states, Fermi levels, dielectric data, Hessian, dynamical matrix, Born charges, parameters, version. | every file that is accepted, every document of the layout in question, every size | a getter that returns the wrong field, or a step, spin, atom or band off by one, needs documents in which these differ; sizes are unbounded | parsevasp/vasprun.py: Xml.__init__, Xml.get_forces, Xml.get_stress, Xml.get_unitcell, Xml.get_positions, Xml.get_species, Xml.get_energies, Xml.get_eigenvalues, Xml.get_occupancies, Xml.get_projectors, Xml.get_dos, Xml.get_fermi_level, Xml.get_dielectrics, Xml.get_born, Xml.get_parameters, Xml.get_version
C91 | OUTCAR cut off | An OUTCAR cut off anywhere, if accepted, is reported as unfinished and unconverged unless the final timings were written; the ionic and electronic counts are a beginning of those of the complete file, and the lists and tables read so far are those of the complete file unless they are printed again. | every OUTCAR text and every place at which it is cut | a calculation can die at any byte; a test cuts one file at one place | parsevasp/outcar.py: Outcar._parse_file, get_run_status, get_run_stats
C92 | EIGENVAL cut off | An EIGENVAL cut off is refused, and if it is accepted it has the eigenvalues of the complete file. | every EIGENVAL text and every place at which it is cut | a calculation can die at any byte; a test cuts one file at one place | parsevasp/eigenval.py: Eigenval._from_list
C93 | DOSCAR cut off | A DOSCAR cut off is refused, and if it is accepted it has the densities of states of the complete file. | every DOSCAR text and every place at which it is cut | a calculation can die at any byte; a test cuts one file at one place | parsevasp/doscar.py: Doscar._from_list
C94 | CHGCAR cut off | A CHGCAR cut off is refused, and if it is accepted it has the charge density and the magnetization of the complete file. | every CHGCAR text and every place at which it is cut | a calculation can die at any byte; a test cuts one file at one place | parsevasp/chgcar.py: Chgcar._from_file
C95 | POTCAR cut off or joined | A POTCAR cut off at any byte gives exactly what the complete file gives or an error; whatever follows the parameters, such as further potentials of a joined file, has no influence. | every POTCAR text and every place at which it is cut or continued | a test cuts one file at one place | parsevasp/potcar.py: Potcar._from_file, _generate_metadata
C96 | Output of a running calculation | While standard output grows, reported errors and warnings stay and keep their order; only the absence of something can stop being reported, and it never starts being reported. | every configuration, every output and every continuation of it | a test looks at finished outputs only | parsevasp/stream.py: Stream._from_list, _add_inverse_triggers; parsevasp/stream.yml
C97 | POSCAR cut off | A POSCAR cut off, for example by a killed write, is refused, and if it is accepted it has the structure of the complete file. | every POSCAR text and every place at which it is cut | a write can be killed at any byte; a test cuts one file at one place | parsevasp/poscar.py: Poscar._from_list
C98 | INCAR cut off | An INCAR cut off is refused, or every tag it has has the value of the complete file. | every INCAR text, every written INCAR and every place at which it is cut | a write can be killed at any byte; a test cuts one file at one place | parsevasp/incar.py: Incar._from_list
C99 | KPOINTS cut off | A KPOINTS cut off is refused, and if it is accepted it has the sampling of the complete file. | every KPOINTS text and every place at which it is cut | a write can be killed at any byte; a test cuts one file at one place | parsevasp/kpoints.py: Kpoints._from_list
C100 | Blank lines at the end | Blank lines at the end of a file with complete lines do not change what is read from it, whatever the file. | every text of every file type with complete lines and every number of blank lines appended to it | editors and schedulers append blank lines; a test reads files as VASP left them | parsevasp/incar.py: Incar._from_list; parsevasp/kpoints.py: Kpoints._from_list; parsevasp/poscar.py: Poscar._from_list; parsevasp/potcar.py: Potcar._from_file; parsevasp/outcar.py: Outcar._from_list; parsevasp/eigenval.py: Eigenval._from_list; parsevasp/doscar.py: Doscar._from_list; parsevasp/chgcar.py: Chgcar._from_file; parsevasp/stream.py: Stream._from_list
C101 | Written files are stable | The text written for an INCAR, KPOINTS or POSCAR object, read again and written again with the same options, is the same text byte for byte, although the numbers were rounded to the printed digits and to binary floating point numbers on the way. | every object of the three types, every number of decimals, every set of machine numbers with correctly rounded reading (binary64 among them) | all numbers, all texts and all roundings; a test writes a few numbers | parsevasp/incar.py: Incar._write; parsevasp/kpoints.py: Kpoints._write; parsevasp/poscar.py: Poscar._write
C102 | Blanks between and around words do not matter | Changing the blanks (spaces, tabs) between and around the words of a line never changes what is read from an INCAR, KPOINTS, POSCAR, DOSCAR, EIGENVAL or CHGCAR file: the same data, or the same refusal. | every pair of texts that agree word by word on every line (for INCAR: in tags, values and comments) | all texts and all ways to change blanks; tests read one spacing per file | parsevasp/incar.py: Incar._from_list, Incar._clean_entry; parsevasp/kpoints.py: Kpoints._from_list; parsevasp/poscar.py: Poscar._from_list; parsevasp/doscar.py: Doscar._from_list; parsevasp/eigenval.py: Eigenval._from_list; parsevasp/chgcar.py: Chgcar._from_file
C103 | A missing newline at the end of the file does not matter | Whether the last line of an INCAR, KPOINTS, POSCAR, POTCAR, OUTCAR, DOSCAR, EIGENVAL, CHGCAR or standard output ends with a newline never changes what is read: the same data, or the same refusal. | every text that ends in a character other than white space, with and without a newline appended | all texts; tests read files as editors and VASP leave them | parsevasp/incar.py: Incar._from_list; parsevasp/kpoints.py: Kpoints._from_list; parsevasp/poscar.py: Poscar._from_list; parsevasp/potcar.py: Potcar._generate_metadata; parsevasp/outcar.py: Outcar._from_list, Outcar._parse_timings_memory; parsevasp/doscar.py: Doscar._from_list; parsevasp/eigenval.py: Eigenval._from_list; parsevasp/chgcar.py: Chgcar._from_file; parsevasp/stream.py: Stream._parse
C104 | A call that fails changes nothing | If modify, delete, delete_point, delete_site, add_point, add_site or the construction of an object from a dictionary exits or raises, every object, list, dictionary and Site in memory is as before the call; so a program that catches the failure goes on as if the call had not been made. | every object, every argument, every history of calls with failures caught anywhere | A test sees one failing call with one state; the assignments before the exception matter for every argument and every order of calls. | parsevasp/incar.py: Incar.modify, Incar.delete; parsevasp/kpoints.py: Kpoints.__init__, Kpoints.modify, Kpoints.delete_point, Kpoints.add_point; parsevasp/poscar.py: Poscar.__init__, Poscar._from_dict, Poscar.modify, Poscar.delete_site, Poscar.add_site
C105 | INCAR objects are independent | What an Incar object holds is determined by its construction and the calls on it: calls on other objects, and whatever the caller does with values given to or taken from the object, never change it. | every program of constructions, modify, delete, get and get_dict calls on any number of objects, with values shared in any way, and changes of lists by the caller | Sharing shows only in particular combinations of objects, lists and calls. | parsevasp/incar.py: Incar.__init__, Incar._from_dict, Incar.modify, Incar.get, Incar.get_dict, IncarItem._clean_entry
C106 | Upper and lower case do not matter | Two texts that differ only in the case of letters (tags, keywords, species, truth values, exponents) give the same object from KPOINTS, POSCAR, INCAR, DOSCAR and EIGENVAL, up to the case of letters in comments, names and values that are text, or are refused in the same way. | every pair of texts equal after lower-casing, from a file path, a file handler or a string | A test changes the case of one keyword; every letter of every text may be either case, and each of them passes through different comparisons. | parsevasp/kpoints.py: Kpoints._from_list; parsevasp/poscar.py: Poscar._from_list, Site; parsevasp/incar.py: Incar._from_list, IncarItem._clean_entry, IncarItem._test_string_for_bool; parsevasp/doscar.py: Doscar._from_list; parsevasp/eigenval.py: Eigenval._from_list
C107 | A stream object stays valid | A VaspStream can be built only from allowed values (strings for name, message and suggestion, the kinds ERROR and WARNING in any case, the locations STDOUT and STDERR, truth values, a pattern that compiles); it then has exactly these attributes, no sequence of assignments, refused ones caught, gives an attribute another kind of value, check_line never raises and answers None or an equal stream, and its text is "(kind) shortname: message". | every eight arguments of any type, every sequence of assignments of any objects to any attributes, every line, every regular expression library | Eight attributes, objects of any type and sequences of assignments with exceptions caught: tests try a few. | parsevasp/stream.py: VaspStream.__init__, VaspStream setters and getters, VaspStream.check_line, VaspStream.__str__, VaspStream.recoverable
C108 | A file handler is as good as the file | An object made from an open file handler is the object made from a file with the same text, however the handler was used before; making it changes no text and no other handler. | every class, every text, any number of handlers, every program of constructions and seeks on them | A test opens a handler, parses once and closes it; positions and the order of uses come from the caller's program. | parsevasp/utils.py: read_from_file; parsevasp/vasprun.py: Xml._set_file_size, Xml._set_xml_truncated, Xml._parsew; parsevasp/incar.py: Incar._from_file; parsevasp/stream.py: Stream._parse, Stream._from_file; parsevasp/outcar.py: Outcar._from_file
C109 | Getters return what was parsed | Once a POTCAR, CHGCAR, DOSCAR, EIGENVAL or OUTCAR is parsed, each getter returns the parsed value, the same object every time, whatever else the program does with this and with other parser objects. | every sequence of parsings, getter calls, item reads and item assignments, every number of objects and variables, results of every shape | A test calls a getter once and compares; whether a returned value is shared with the object shows only in longer programs. | parsevasp/doscar.py: Doscar.get_metadata, Doscar.get_dos, Doscar.get_pdos; parsevasp/eigenval.py: Eigenval.get_metadata, Eigenval.get_eigenvalues, Eigenval.get_kpoints; parsevasp/chgcar.py: Chgcar.charge_density, Chgcar.magnetization_density; parsevasp/outcar.py: Outcar getters; parsevasp/potcar.py: Potcar.metadata
C110 | The dictionary of a vasprun.xml object is everything | get_dict contains all parsed data: each getter returns what the dictionary holds under its name (quantities of ionic steps selected by the documented statuses all, initial, final), and objects with equal dictionaries answer every getter alike. | every object of either parser, every getter and argument | A test compares a few keys for one file. | parsevasp/vasprun.py: Xml.get_dict, Xml getters, Xml._check_calc_status
C111 | Coordinate conversions with rounding | With machine numbers the conversions between direct and cartesian coordinates undo each other up to a stated error, each is within a stated error of the exact result, and the reciprocal cell is reciprocal up to a stated error; the error depends only on the precision, the sizes of the cell and its inverse, and the residual of the inverse. | every cell and vector in the range of the machine numbers, every set of machine numbers and rounding with the stated accuracy, binary64 included | A test compares a few vectors with a tolerance; a bound must hold for all. | parsevasp/utils.py: dir_to_cart, cart_to_dir, lat_to_reclat
C112 | POSCAR round trips settle with machine arithmetic | A structure is written (direct or cartesian, with or without conserved order) and read back with machine arithmetic: sites keep order, species and flags, coordinates change by at most one unit of the last printed digit; writing and reading what was read gives the same object again, so nothing drifts however often it is repeated. | every structure whose numbers are in range, every precision, every machine arithmetic whose conversion error is below half a unit of the last digit | A test does one round trip with a tolerance; drift shows only over many. | parsevasp/poscar.py: Poscar._from_list, Poscar._to_direct, Poscar._to_cart, Poscar._write; parsevasp/utils.py: dir_to_cart, cart_to_dir
C113 | A vasprun.xml that is cut off | A vasprun.xml of a run that was killed is read with recovery; whatever is returned is what the complete file gives, shortened to what was written: each parameter is the same or missing, lists and tables are first parts, completed ionic steps are returned unchanged under their numbers, and data cut off in the middle is missing or refused, never returned as something else. | every document, every place between two tags where it may end, both settings of extract_all and k_before_band | The crash point is arbitrary; a test has one truncated file. | parsevasp/vasprun.py: Xml._parse, Xml._parsew, Xml._fetch_upfsw, Xml._fetch_totensw, Xml._fetch_dosw, Xml._fetch_eigenvaluesw, Xml._fetch_projectorsw, Xml._fetch_bornw, Xml._fetch_dynmatw
C114 | A Poscar stays well typed | The comment is a string (or None), the unit cell a 3x3 array and the sites a list of Site objects: the constructor refuses anything else, modify accepts a value exactly if it fits its entry and then changes only that entry, and every history of modify and delete_site keeps it so. | every object, every name and value, every history of edits | A test edits a few entries once; the values and the order of edits come from the caller. | parsevasp/poscar.py: Poscar._validate, Poscar.modify, Poscar.delete_site, Poscar._check_allowed_entries, Poscar._check_unitcell, Poscar._check_comment, Poscar._check_sites, Poscar._check_site
C115 | KPOINTS and POSCAR string and file agree | A text given as a string gives the same object, or the same refusal, as a file or file handler with that text. | every text | all texts, all line ends | parsevasp/kpoints.py: Kpoints._from_string, Kpoints._from_file, Kpoints._from_list; parsevasp/poscar.py: Poscar._from_string, Poscar._from_file, Poscar._from_list
C116 | Exit codes | A parser ends the process (sys.exit) only with the codes of its own table of errors, and for each parser the exact set of codes that a call can produce is known: constructors, modify, delete_site, write, the getters of vasprun.xml. Incomplete objects and files are refused with the code of that error. | every source, every text, every XML document, every edit | an enumeration of all refusals is only meaningful if no other input produces another one | parsevasp/incar.py: Incar.__init__; parsevasp/kpoints.py: Kpoints.__init__; parsevasp/poscar.py: Poscar.__init__, Poscar.modify, Poscar._write; parsevasp/outcar.py: Outcar.__init__; parsevasp/doscar.py: Doscar.__init__; parsevasp/eigenval.py: Eigenval.__init__; parsevasp/chgcar.py: Chgcar.__init__; parsevasp/potcar.py: Potcar.__init__; parsevasp/stream.py: Stream.__init__; parsevasp/vasprun.py: Xml.__init__, Xml._parsew, Xml._parsee, Xml._check_calc_status; parsevasp/base.py: BaseParser.ERROR_MESSAGES
C117 | What a Stream says it looks for | kinds lists the supported kinds of the configuration in force, each once, in order of first appearance; configured_streams lists under the lower-case plural of each kind every stream of that kind exactly once, the ordinary ones before the inverse ones, each group in the order of the configuration; str() gives the number of entries and the kinds. | every configuration with and without entries of the user, every text | All sets of entries, all spellings of kinds and all mixtures of overriding and new entries. | parsevasp/stream.py: Stream.kinds, Stream.configured_streams, Stream.__str__, Stream._load_config, Stream._set_streams, Stream._build_stream_triggers, Stream._from_list
C118 | Writing to a file handler | write(file_handler=f) puts the text of the object at the position of f and moves f behind it; what stands in front of the position stays, however the call ends; a call that ends with an exit code leaves f as it was; objects written one after another stand one after another, and each can be read from where it starts. | every INCAR, KPOINTS and POSCAR object, every file and position, every sequence of objects | All objects times all contents and positions of files times all sequences of writes. | parsevasp/base.py: BaseParser.write; parsevasp/incar.py: Incar._write; parsevasp/kpoints.py: Kpoints._write; parsevasp/poscar.py: Poscar._write; parsevasp/utils.py: remove_newline
C119 | Reading a file whose writing was killed | If the process is killed during x.write(file_path=p), an object of the same class read afterwards from p is the object that was there before or x (up to the printed digits), or the file is refused. | every INCAR, KPOINTS and POSCAR object, every disk, every moment at which the process is killed, every division of the text into flushed pieces | A test cannot kill the process at every byte, nor enumerate the objects. | parsevasp/base.py: BaseParser.write; parsevasp/incar.py: Incar._write; parsevasp/incar.py: Incar._from_list; parsevasp/kpoints.py: Kpoints._write; parsevasp/kpoints.py: Kpoints._from_list; parsevasp/poscar.py: Poscar._write; parsevasp/poscar.py: Poscar._from_list
C120 | Line ends do not matter | Whether the lines of a file or string end with LF, CRLF (Windows) or CR (old Macintosh) does not change what any parser makes of it: the same object, or the same refusal. | every text without carriage returns, every parser, every source (path, string, file handler that does not translate line ends) | A test tries one file with one kind of line end; the property ranges over all texts and over every place where a line end is looked at. | parsevasp/base.py: open_close_file_handler; parsevasp/utils.py: read_from_file; parsevasp/incar.py: Incar._from_list; parsevasp/kpoints.py: Kpoints._from_list; parsevasp/poscar.py: Poscar._from_list; parsevasp/outcar.py: Outcar._parse_timings_memory; parsevasp/potcar.py: Potcar._generate_metadata; parsevasp/eigenval.py: Eigenval._from_list; parsevasp/chgcar.py: Chgcar._from_file; parsevasp/stream.py: Stream._parse_stream
C121 | POSCAR lattice and scaling factor | The unit cell of an object read from a POSCAR text consists of the vectors on lines three to five times the scaling factor of line two; how the scale is split between factor and vectors does not matter; factors the code does not support (negative, zero, one per axis) are refused. | every accepted text, every pair of texts that differ only by moving a factor between line two and the vectors (cell, cartesian positions), every negative factor | A test reads one cell with one factor; the property ranges over all cells, factors and pairs of texts. | parsevasp/poscar.py: Poscar._from_list
C122 | POSCAR velocities and predictors come from their own lines | The velocity and the predictor of a site are those printed for it in the velocity and predictor blocks, in direct coordinates if the block is direct and converted with the cell if it is cartesian; sites of files without these blocks have none. | every accepted text, every site | A test tries one layout; the property ranges over all combinations of layouts, numbers of sites and sites. | parsevasp/poscar.py: Poscar._from_list
C123 | Damaged number fields are refused, never misread | A number field that Fortran could not print properly (overflow stars, a field that runs into the next one, an exponent without its letter) makes the file be refused; it is never read as another number. | every accepted POSCAR, DOSCAR, EIGENVAL, OUTCAR and CHGCAR text, every table row of a vasprun.xml, every number position | A test damages one field of one file; the property ranges over all files, positions and kinds of damage. | parsevasp/poscar.py: Poscar._from_list; parsevasp/doscar.py: Doscar._from_list; parsevasp/eigenval.py: Eigenval._from_list; parsevasp/chgcar.py: Chgcar._from_file; parsevasp/vasprun.py: Xml._convert_array2D_f; parsevasp/utils.py: line_to_type
C124 | Impossible counts are refused | A file whose header announces an impossible number of things (a negative number of sites, energies, k-points, bands, tetrahedra or grid points, no spins, a grid with other than three extents) is refused; a file that is accepted returns as many as it announces. | every POSCAR, DOSCAR, EIGENVAL, CHGCAR and KPOINTS text, every integer at the place of a count | A test tries one wrong count in one file; the property ranges over all files and all integers, and slices and reshapes give negative counts a meaning of their own. | parsevasp/poscar.py: Poscar._from_list; parsevasp/doscar.py: Doscar._from_list; parsevasp/eigenval.py: Eigenval._from_list; parsevasp/chgcar.py: Chgcar._from_file; parsevasp/kpoints.py: Kpoints._from_list
C125 | Numbers printed as NaN or Infinity | A number printed as NaN or (plus or minus) Infinity is returned as such at its place, and does not change what is returned for anything else. | every DOSCAR, EIGENVAL, CHGCAR and OUTCAR text, every place of a number | A test puts one NaN at one place; the property ranges over all places, combinations and sizes. | parsevasp/doscar.py: Doscar._from_list; parsevasp/eigenval.py: Eigenval._from_list; parsevasp/chgcar.py: Chgcar._from_file; parsevasp/outcar.py: Outcar._from_list; parsevasp/utils.py: line_to_type
C126 | A ';' at the end of an INCAR line | What is accepted from a file is also accepted, with the same tags and values, with a comment appended to one of its lines, as a string, with CRLF line ends and without the newline at its end - unless the line concerned ends with ';' and has no comment; then it is refused with exit code 102, whatever else the file contains. | every accepted INCAR file, every line, every comment | The exception must be exactly this one: a test cannot show that no other line is affected, nor that every such line is. | parsevasp/incar.py: Incar._from_list, Incar._from_string, Incar._from_file; parsevasp/utils.py: read_from_file
C127 | Which exceptions escape from reading a file | Whatever is wrong with a text file, reading it ends with a result, with an exit code, or with one of a fixed set of Python exceptions: IndexError and ValueError, for DOSCAR also TypeError, KeyError, AttributeError and OverflowError, for EIGENVAL TypeError and AttributeError, for POTCAR KeyError and AttributeError but not IndexError, for OUTCAR KeyError and TypeError, for POSCAR LinAlgError, for vasprun.xml TypeError and AttributeError and, in event mode, KeyError and ZeroDivisionError; none of these sets can be made smaller. | every text of a KPOINTS, POSCAR, INCAR, OUTCAR, DOSCAR, EIGENVAL, CHGCAR or POTCAR file, every XML document | A caller that catches these exceptions must catch them for every damaged file; tests only show the exceptions of the files they damage. | parsevasp/kpoints.py: Kpoints._from_list; parsevasp/poscar.py: Poscar._from_list; parsevasp/incar.py: Incar._from_list; parsevasp/outcar.py: Outcar._from_list; parsevasp/doscar.py: Doscar._from_list; parsevasp/eigenval.py: Eigenval._from_list; parsevasp/chgcar.py: Chgcar._from_file; parsevasp/potcar.py: Potcar._generate_metadata; parsevasp/vasprun.py: Xml._parsew, Xml._parsee
C128 | Positions in edits | delete_site, delete_point and modify with a position take any integer: positions 0 .. n-1 count from the front and -1 .. -n from the back, exactly the element named is deleted or replaced and everything else stays; a position of n or more is refused (304 for sites, 211 for points) and one below -n raises IndexError; over every history of such calls the first position that is out of range, in the list as it is then, decides. | every object that holds a list of sites or points, every history of edits with every integer as position | The list shrinks as the history goes on, so which positions are in range depends on all earlier calls. | parsevasp/poscar.py: Poscar.modify, Poscar.delete_site, Poscar._check_site_number; parsevasp/kpoints.py: Kpoints.modify, Kpoints.delete_point, Kpoints._check_point_number
C129 | Which source is used | Of every combination of string, dictionary, path and handler given to Incar, Kpoints or Poscar exactly these are refused with exit 10: none at all, the string with the dictionary or a path, and dictionary, path and handler together. Of the others Incar uses the dictionary before the string before the handler before the path, and needs a path given with a dictionary to exist (exit 14); Kpoints and Poscar use the handler before the path before the dictionary, and the string before the handler, whose file must be readable nonetheless. The result is that of the source used, given alone. | every combination of sources with every content | The guards look at the combination and the loading code at the contents; a test fixes both. | parsevasp/incar.py: Incar.__init__; parsevasp/kpoints.py: Kpoints.__init__; parsevasp/poscar.py: Poscar.__init__
C130 | Exactly what modify accepts | On every valid Kpoints or Poscar object modify(entry, value) returns normally exactly if the value is well typed for the entry, or is None (but not for the points of a Kpoints), or the entry is the comment and the comment is None, or the name is no entry but contains the name of one; it then has stored the value under that name and changed nothing else. | every valid object, every name, every value | Names and values come from the caller; a test tries a few of each. | parsevasp/kpoints.py: Kpoints.modify, Kpoints._check_allowed_entries; parsevasp/poscar.py: Poscar.modify, Poscar._check_allowed_entries
C131 | Writing a KPOINTS whose points were edited | Take a valid explicit Kpoints object of n points without tetrahedra and any history of delete_point and modify(entry, value, point_number) that runs to its end. The object can be written; the text announces n points and lists the points left, one fewer for each deletion. If nothing was deleted the text is read back as the points left, rounded to the decimals printed; if anything was deleted, reading it raises IndexError, from string, path and handler. | every explicit object, comment and number of decimals, every history of edits by position | The number announced and the points listed come from different entries; what a test sees depends on the history it happens to run. | parsevasp/kpoints.py: Kpoints.delete_point, Kpoints.modify, Kpoints._write, Kpoints._from_list
C132 | What becomes of a POSCAR comment | The first header written is the formula alone if there is no comment, the comment alone if the formula occurs in it, and otherwise the formula with the comment behind it. However often the file is then read and written again, the comment read and the header written are what the first header has behind its '#', without any other '#' and without blanks around. The header is therefore final from the first write on exactly if there is no comment, or the comment has no '#', does not end in a blank, and either has the formula and does not begin with a blank, or has not and is not empty. | every writable structure without '#' in species names, every comment, number of decimals and order, any number of cycles | The comment is arbitrary text and is rewritten at every cycle; a test sees one text and one cycle. | parsevasp/poscar.py: Poscar._write, Poscar._from_list
C133 | The verdict on a run numbered in order | For every OUTCAR whose ionic steps are numbered on from 1 and the electronic steps within each from 1, the verdict is a function of the numbers of electronic steps, of whether the run finished, and of the last printed NELM, NSW and IBRION. On such a run a consistent breach is a breach and the run is not electronically converged, and a finished run that is not converged has a breach. On any OUTCAR whatsoever a breach is reported as consistent but not as contained exactly if the run is unfinished, all its iteration lines are of one ionic step later than the first, and there are fewer of them than NELM. | every OUTCAR accepted, every number of ionic and electronic steps | The flags are computed from masks over all steps; a test has one run. | parsevasp/outcar.py: Outcar._from_list
C134 | Species of POSCAR sites, whatever the counts | In every POSCAR that can be read the number of sites is the sum of the count line, and their species are the first that many names of the species line repeated by the counts, where a count below zero in the first place is taken as zero and a count below one in any other place as one. | every text that can be read, with any integers on the count line | A test has the counts of one structure, all positive. | parsevasp/poscar.py: Poscar._from_list
C135 | Stream history on and off | For every configuration and every file, a Stream without history is the one with history with only the first record of every stream kept, in the same order; where one cannot be built the other cannot either, with the same error. With history the number of entries is the number of finds over all lines and streams that are not inverse, plus one for every inverse stream found in no line. | every configuration, every text, every regular expression engine | The two modes take different paths through the loops over lines and triggers; a test compares one file. | parsevasp/stream.py: Stream._from_list, Stream._add_inverse_triggers, Stream.number_of_entries
C136 | Rows of numbers in vasprun.xml, overflow or not | Whatever numbers the rows of a table print before their text ends or a number overflows ('****'), the table has one row per element and as many places in each as asked for. A row stores the numbers printed exactly if they are as many as its places; one number alone is stored in every place; otherwise the row is zero. A list of single numbers is read exactly if every element prints one number, and otherwise reading exits with 509. | every list of elements, every number of places, every text of number literals with or without overflow | NumPy's broadcasting decides silently what is stored; a test has rows of the right length. | parsevasp/vasprun.py: Xml._convert_array2D_f, Xml._convert_array1D_f
C137 | Writing a POSCAR whose sites were edited | Take a valid Poscar object and any history of delete_site and modify(entry, site, site_number) that runs to its end, leaving sites that all or none have velocities and likewise predictors. The object can be written and is read back, from file, handler and string, as the sites left: in their order with conserve_order, otherwise grouped by species with the order within a species kept, each with its species, flags, velocities and predictors, numbers rounded to the decimals printed. After deletions alone nothing more is needed than was needed before. | every object, every history of edits by position, every number of decimals, both orders, both coordinate systems | A test runs one history on one structure; the formula, counts and blocks of the file are recomputed after every edit. | parsevasp/poscar.py: Poscar.delete_site, Poscar.modify, Poscar._write, Poscar._from_list
C138 | Line-mode KPOINTS read from a string | A line-mode KPOINTS with n points, written and read back from a string, holds the comment, number and mode written and n + (n-1)/2 points: a point without coordinates follows every second point but the last, so that point j is at place j + j/2, with its coordinates rounded to the decimals printed. The points are those written exactly if there are at most two. | every line-mode object, every comment, number of points and of decimals | The blank lines of the file become points only for a string; a test sees one number of points from one source. | parsevasp/kpoints.py: Kpoints._from_list, Kpoints._from_string, Kpoints._write
C139 | Writing an INCAR whose tags were edited | Take an Incar object read from any text without lists of truth values, infinities and nan, and any history of modify and delete calls with words for tags, values or texts that do not contain '=', ';' or '#' and one-line comments, calls that fail included. Written with or without comments and read back by path or from an open file, the object answers every get as the finite map does that the history describes (last value set, nothing for deleted tags, failed calls change nothing), and holds the object's comments if they were written; get_string() given back as a string reads the same if no verbatim value has an exotic line break. | every object, every history of edits, both comment settings, with and without tag validation | A test runs one history on one INCAR; what is lost on the way to the file depends on every value stored in between. | parsevasp/incar.py: Incar.modify, Incar.delete, Incar._write, Incar._from_list, IncarItem._clean_entry
C140 | Exactly which ionic step the vasprun getters show | For every accepted vasprun.xml with a cell and positions in each of n structures (all steps extracted), get_unitcell, get_positions, get_forces and get_stress have max(n,2) entries numbered from one: 'initial' is the first, 'last' the last, 'all' has all of them and no others; entry k is step k, but for a single step the second entry repeats it and, for two steps of a quantity with one row (one atom), both entries are the first step. A quantity that is not printed gives None for the first and last entry. Any other word exits 507; in a document without atoms, or (all steps extracted) without any structure, every word gives None. | every document, number of steps, number of atoms, every word | The exceptions sit at particular numbers of steps and atoms; a test sees one. | parsevasp/vasprun.py: Xml._fetch_upfsw, Xml.get_forces, Xml.get_stress, Xml.get_unitcell, Xml.get_positions, Xml._check_calc_status
C141 | Exactly which edits keep a Kpoints object well typed | On a well typed Kpoints object a modify or delete_point call that returns normally leaves a well typed object unless it sets num_kpoints to None, comment to something that is neither a string nor None, or divisions to None on an object with neither points nor generating vectors; then the class's own validation of what is left exits 13 or 206. An object is well typed all along a history of calls exactly if no call in it is one of these for the object it is made on. | every well typed object, every call and value, every history | A test makes a few calls with a few values; which value is harmful depends on what the object holds. | parsevasp/kpoints.py: Kpoints.modify, Kpoints.delete_point, Kpoints._validate, Kpoints._check_comment, Kpoints._check_num_kpoints, Kpoints._check_dict
C142 | Exactly which edits keep a Poscar object well typed | On a Poscar object with a string or None as comment, a 3x3 array as unit cell and a list of Site objects as sites, a modify or delete_site call that returns normally leaves such an object unless it sets the comment to something else, the unit cell, the sites or a single site to None, or the sites to anything but a list of Site objects. The object is so all along a history of calls, refused ones included, exactly if no call that returned is one of these, and then it passes the class's own validation. | every object, every call and value, every history with refused calls | A test makes a few calls with a few values; the checks look at stored values in some cases. | parsevasp/poscar.py: Poscar.modify, Poscar.delete_site, Poscar._validate, Poscar._check_comment, Poscar._check_unitcell, Poscar._check_sites, Poscar._check_site
C143 | Projections and partial densities for every number of columns | With the same number of columns in all rows, projectors[atom][band][k] holds the printed row if it has nine numbers, nine times the number if it has one, and nine zeros otherwise; partial[atom][energy] holds the same for rows of ten numbers, with the first removed; totals, integrated densities and energies are the printed columns in all these cases. | every document, every number of columns, atoms, bands, k-points and energies | A test has documents with a few numbers of columns; the shapes accepted without an error are all of them. | parsevasp/vasprun.py: Xml._extract_projectors, Xml._extract_dos
C144 | Exactly which steps get_lattice puts together | With all steps extracted, get_lattice has max(n, 2) entries for n ionic steps; the unit cell of an entry is that of its step (of the only step if n = 1) and so are the positions, except with one atom and two steps, where both entries have the positions of the first step beside the cells of the first and the second. An unknown status exits 507, except in a document without atoms or structures, where cell and positions are None for every word. | every accepted document with a cell and positions in each step, every number of steps and atoms, every word | A test has a few numbers of steps and atoms. | parsevasp/vasprun.py: Xml.get_lattice, Xml.get_unitcell, Xml.get_positions, Xml._fetch_upfsw
C145 | Index arguments that are not integers | modify and delete_point of Kpoints and modify and delete_site of Poscar take True and False as the indices 1 and 0; with an index that is no int at all (a float, a string, ...) every such call exits - with 207 or 305 for an unknown name, with 210 for a KPOINTS value that is no Kpoint, otherwise with 13 - and in every history of calls whose failures are caught such calls might as well be left out. | every object, every name, every value, every index, every history | A test tries a few indices; an index of another type could pass one of the comparisons. | parsevasp/kpoints.py: Kpoints.modify, Kpoints.delete_point, Kpoints._check_point_number; parsevasp/poscar.py: Poscar.modify, Poscar.delete_site, Poscar._check_site_number
C146 | CHGCAR densities in machine arithmetic | With machine arithmetic a text is accepted exactly if it is a CHGCAR whose data sets fill its grid and whose computed volume is not zero, and each density value is computed from the number printed for its point and the computed volume alone. If each operation has relative error u and scalar products d, and nothing overflows or underflows, the computed volume differs from the exact triple product by at most ((1+u)^11 (1+d) - 1) times the sum of the absolute values of its six terms (u = 2^-52, d = 2^-49 for binary64); if that is at most the fraction e < 1 of the volume, a text that exact arithmetic accepts is accepted and all densities have relative errors of at most (1+u)^2/(1-e) - 1. | every text, every cell, every grid, every arithmetic with these errors | A test compares a few densities with a tolerance; how large the error can get depends on how flat the cell is. | parsevasp/chgcar.py: Chgcar._from_file
C147 | Files are sequences of bytes | A file given by its path is read as the text whose UTF-8 form it is, and any other sequence of bytes is refused with a UnicodeDecodeError, for INCAR, POSCAR, KPOINTS, DOSCAR, EIGENVAL, CHGCAR, POTCAR and OUTCAR. A file cut behind any byte, for example by a killed write(), is refused exactly if the cut is inside a character, and is otherwise read as the text cut there; a file that is all ASCII is never refused for where it is cut. A single byte beyond ASCII among ASCII characters (a comment in Latin-1) is always noticed. | every file, every number of bytes kept, every class | A test writes and reads ASCII files; which sequences of bytes are text, and what a cut inside a character does, is a property of all files. | parsevasp/base.py: open_close_file_handler; parsevasp/utils.py: read_from_file
C148 | Which OUTCAR files are accepted | An OUTCAR is accepted exactly if it has an iteration line, every other line is readable, NELM is printed, NSW is printed if the run finished with IBRION > 0, and each of the last fifty lines with (sec) or (kb) has a colon. Readable means: integers behind NSW, IBRION, NELM and NBANDS=, a line below the cell lines and an integer in the line of the space group under an analysis of symmetry, six rows of numbers below each header of elastic moduli, below each header of magnetization rows of numbered sites up to a total or, if some site is known, a blank line, and numbers behind number of electron. It ends with exit code 600 exactly if it has no iteration line and all lines are readable, and with an uncaught exception otherwise. | every text, any number and order of lines and tables, truncated anywhere | A test runs a few complete files; where a truncation or a damaged line is noticed, and how, depends on every line of the file. | parsevasp/outcar.py: Outcar._from_list, _parse_timings_memory; parsevasp/utils.py: match_integer_param
C149 | Which EIGENVAL files are accepted | An EIGENVAL is accepted exactly if its first six lines are four integers (the last, the number of spins, not negative), two lines of numbers, one word, any line, and three integers (the last two, the numbers of k-points and bands, not negative); the part behind is not blank and neither its first two nor its last two pieces between line breaks are both blank; it has at most as many blocks (runs of lines that are not blank) as k-points; and each block begins with four numbers, or one, followed by lines that begin with the number of a band (zero and negative numbers count from the last) and have, in the columns of the spins, as many numbers as spins, or one. Infinite numbers and NaN count as numbers. Every other text raises IndexError, ValueError, TypeError or AttributeError; none ends with an exit code. | every text whose only line break is the newline, any sizes, number and length of blocks, truncated anywhere | A test reads one complete file; which truncations and damages go unnoticed depends on every line. | parsevasp/eigenval.py: Eigenval._from_list; parsevasp/utils.py: empty_line, line_to_type
C150 | Which DOSCAR files are accepted | A DOSCAR is accepted exactly if its first six lines are four integers, two lines that are not read, one word, any line, and five numbers of which the third is finite (without its fraction the number n of energies); all lines behind contain numbers only; the first n of them are there, at least one, and all have three or all have five numbers; and either no line repeats the five numbers of the header, or, counted from the first line that does, every ion (at least one) has the same number of lines, at least one and at most n, all with the same number of columns, which must be one of the known ones. Infinite numbers and NaN count as numbers; a negative n counts from the end, as in a slice. Every other text raises one of six exceptions; none ends with an exit code. | every text, any number of ions, energies and columns, truncated anywhere, with and without the flag for non-collinear calculations | A test reads a few complete files; which truncations and damages go unnoticed depends on every line. | parsevasp/doscar.py: Doscar._from_list, _get_num_spin, _get_dtype_pdos; parsevasp/utils.py: line_to_type
C151 | Which POSCAR files are accepted | A POSCAR is accepted exactly if the second line begins with a scale that is not negative, three lines hold three numbers each, the sixth line does not consist of numbers separated by single blanks, the seventh holds integers; there is a name for every position; every position line begins with three numbers and has six words if there are flags, and the lattice can be inverted unless positions are direct; the second line behind the positions, if there is one, begins with a number; and, if the line behind the positions begins with d or c, there are as many lines of three numbers behind it (and an invertible lattice if one of the two is not direct), and the blank line behind them, if any, has another one below, which if it begins with a number begins as many lines of three numbers; or, if it is blank and not the last line, as many lines of three numbers follow. Every other text ends with exit code 301, 302, 307 or 13 or one of three exceptions. | every text without infinite numbers and NaN: all counts (also negative ones, whose line numbers count from the end), all scales and lattices, with and without flags, velocities and predictors, truncated anywhere | A test reads a few complete files; which truncations and damages go unnoticed depends on every line. | parsevasp/poscar.py: Poscar._from_list, _to_direct, _validate; parsevasp/utils.py: is_number, is_numbers, cart_to_dir
C152 | Which KPOINTS files are accepted | A KPOINTS is accepted exactly if the second line begins with an integer n, the third has a first letter, and: for the letter l the fourth line begins with r or d and all below are mere newlines or have numbers as their first words (up to three); otherwise for positive n the letter is neither k nor c, n lines of three numbers follow (a fourth word must be a number), and what is behind them is nothing, or a line that is not blank, and if that begins with t, it has nothing or an integer, a number and as many lines of five integers below; otherwise the letter is g or m and the fourth line holds integers (and the fifth, if it is the last, numbers), or it is r and four lines of numbers follow. Every other text ends with exit code 200, 201, 202, 203 or 206 or one of two exceptions. | every text without infinite numbers and NaN, all modes and numbers of points and tetrahedra, truncated anywhere | A test reads a few complete files; which truncations and damages go unnoticed depends on every line. | parsevasp/kpoints.py: Kpoints._from_list, _validate
C153 | Which INCAR texts, dictionaries and assignments are accepted | An INCAR text is accepted exactly if every assignment of it (the pieces between ; in front of #, blank lines aside) has one =, a tag in front of it, and, but for SYSTEM, MAGMOM and M_CONSTR, values of one kind: whole numbers, other finite numbers, or words that are no numbers. Otherwise the first assignment at fault decides: exit 101 for two =, 102 for none, IndexError for no tag, ValueError for the literal of an infinity or NaN among the values, exit 104 for values of several kinds; nothing else happens. A constructor succeeds exactly if the text is acceptable and, unless the validation is switched off, every tag is in the table; a dictionary exactly if each item has a tag and a value of one of the types, a string at most one # and values of one kind in front of it; modify exactly if the tag and value are acceptable, whatever is stored already. | every text (file, handler or string), every dictionary, every call of modify, every table of tags | A test tries a few malformed entries; that nothing else is refused and nothing else accepted is a statement about all texts. | parsevasp/incar.py: Incar.__init__, _from_list, _from_dict, validate, modify, IncarItem._clean_entry; parsevasp/utils.py: test_string_content
C154 | Regular expressions | What the program takes out of a text with a regular expression is what Python's engine takes: the entries of a POTCAR (re.findall of KEY = VALUE), the part of a POTCAR between the two marks, the truth values, whole and real numbers of the entries, the whole number behind a parameter of an OUTCAR, the iterations of an OUTCAR line, the lines of the timings and their pieces, the version of vasprun.xml and the blocks of an EIGENVAL. | every text, every value, every line; the engine tries the ways of the first piece of a pattern in order of preference, and for each of them those of the pieces behind it | A test matches a few lines; which of several possible matches is taken, and that nothing else matches, is a statement about all texts. | parsevasp/potcar.py: Potcar._generate_metadata; parsevasp/utils.py: match_integer_param, empty_line; parsevasp/outcar.py: Outcar._parse_timings_memory; parsevasp/vasprun.py: Xml.get_version; parsevasp/eigenval.py: Eigenval._from_file
C155 | Which POTCAR files are accepted, and what is stored | A POTCAR is accepted if and only if both marks are there, the value of every entry with a known key can be read, and there is a TITEL; metadata[KEY] is then what is read from the value printed last for KEY, and there is nothing else. Otherwise the error is AttributeError for a missing mark or an unreadable truth value or whole number, ValueError for an unreadable real number or STEP, KeyError for a missing TITEL, whichever is met first. | every text, the entries being the matches of the pattern KEY = VALUE, well separated or not | A test reads a few sound files; the property decides for every text whether it is read, what is stored and how it fails otherwise. | parsevasp/potcar.py: Potcar._generate_metadata
