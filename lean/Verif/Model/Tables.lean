import Verif.Py.Str
/-! Generated by tools/gen_tables.py: data tables of /repo/parsevasp. Do not edit. -/
set_option autoImplicit false
namespace Verif

/-- Top-level keys of /repo/parsevasp/incar.yml (the keys of `constants.incar_tags`, constants.py:128-131). -/
def incarTags : List Str := [
  c!"addgrid",
  c!"aexx",
  c!"aggac",
  c!"aggax",
  c!"aldac",
  c!"aldax",
  c!"algo",
  c!"amin",
  c!"amix",
  c!"amix_mag",
  c!"andersen_prob",
  c!"antires",
  c!"apaco",
  c!"auger_bmax_eeh",
  c!"auger_bmax_ehh",
  c!"auger_bmin_eeh",
  c!"auger_bmin_ehh",
  c!"auger_ecblo",
  c!"auger_edens",
  c!"auger_efermi",
  c!"auger_emax_eeh",
  c!"auger_emax_ehh",
  c!"auger_emin_eeh",
  c!"auger_emin_ehh",
  c!"auger_evbhi",
  c!"auger_ewidth",
  c!"auger_hdens",
  c!"auger_occ_fac_eeh",
  c!"auger_occ_fac_ehh",
  c!"auger_temp",
  c!"avecconst",
  c!"avgap",
  c!"bconst",
  c!"bext",
  c!"bmix",
  c!"bmix_mag",
  c!"bparam",
  c!"ch_amplification",
  c!"ch_jdoscorehole",
  c!"ch_lspec",
  c!"ch_nedos",
  c!"ch_sigma",
  c!"cll",
  c!"cln",
  c!"clnt",
  c!"clz",
  c!"cmbj",
  c!"cmbja",
  c!"cmbjb",
  c!"cnexp",
  c!"cparam",
  c!"cshift",
  c!"darwinr",
  c!"darwinv",
  c!"deg_threshold",
  c!"deper",
  c!"dfield",
  c!"dim",
  c!"dimer_dist",
  c!"dipol",
  c!"dq",
  c!"dummy_k",
  c!"dummy_mass",
  c!"dummy_positions",
  c!"dummy_r0",
  c!"dvvdelta0",
  c!"dvvehistory",
  c!"dvvmaxpotim",
  c!"dvvminpotim",
  c!"dvvminus",
  c!"dvvvnorm0",
  c!"ebreak",
  c!"ediff",
  c!"ediffg",
  c!"efermi",
  c!"efield",
  c!"efield_pead",
  c!"eint",
  c!"emax",
  c!"emin",
  c!"enaug",
  c!"enchg",
  c!"encut",
  c!"encut4o",
  c!"encutae",
  c!"encutfock",
  c!"encutgw",
  c!"encutgwlow",
  c!"encutgwsoft",
  c!"encutlf",
  c!"encutsubrotscf",
  c!"engine",
  c!"enini",
  c!"enmax",
  c!"epsilon",
  c!"equi_regime",
  c!"eref",
  c!"esemicore",
  c!"estop",
  c!"evenonly",
  c!"evenonlygw",
  c!"external_pressure",
  c!"external_stress",
  c!"exxoep",
  c!"fbias_a",
  c!"fbias_d",
  c!"fbias_r0",
  c!"ferdo",
  c!"ferwe",
  c!"findiff",
  c!"fletcher_reeves",
  c!"fourorbit",
  c!"gga",
  c!"gga_compat",
  c!"griddeviation",
  c!"hfalpha",
  c!"hfkident",
  c!"hflmax",
  c!"hfrcut",
  c!"hfscreen",
  c!"hfscreenc",
  c!"hills_andersen_prob",
  c!"hills_bin",
  c!"hills_h",
  c!"hills_k",
  c!"hills_m",
  c!"hills_maxstride",
  c!"hills_position",
  c!"hills_sqq",
  c!"hills_stride",
  c!"hills_temperature",
  c!"hills_variable_w",
  c!"hills_velocity",
  c!"hills_w",
  c!"hills_wall_lower",
  c!"hills_wall_upper",
  c!"hitoler",
  c!"i_constrained_m",
  c!"ialgo",
  c!"iband",
  c!"ibrion",
  c!"ibse",
  c!"icharg",
  c!"ichibare",
  c!"icorelevel",
  c!"idiot",
  c!"idipol",
  c!"iepsilon",
  c!"igpar",
  c!"images",
  c!"imix",
  c!"increm",
  c!"inimix",
  c!"iniwav",
  c!"interactive",
  c!"ipead",
  c!"irc_delta0",
  c!"irc_direction",
  c!"irc_maxstep",
  c!"irc_minstep",
  c!"irc_stop",
  c!"irc_vnorm0",
  c!"irestart",
  c!"isif",
  c!"ismear",
  c!"isp_index",
  c!"isp_out",
  c!"ispin",
  c!"istart",
  c!"isym",
  c!"itim",
  c!"itmaxlsq",
  c!"ivdw",
  c!"iwavpr",
  c!"jatom",
  c!"kblock",
  c!"kblowup",
  c!"kgamma",
  c!"kimages",
  c!"kinter",
  c!"kpar",
  c!"kpoint_bse",
  c!"kproj_threshold",
  c!"kpts_index",
  c!"kpts_out",
  c!"kpuse",
  c!"kspacing",
  c!"l2order",
  c!"l_wr_density",
  c!"l_wr_moments",
  c!"ladaptelin",
  c!"ladder",
  c!"laddherm",
  c!"laechg",
  c!"lambda",
  c!"langevin_gamma",
  c!"langevin_gamma_l",
  c!"lasph",
  c!"lasync",
  c!"lattice_constraints",
  c!"lauger",
  c!"lauger_collect",
  c!"lauger_dhdk",
  c!"lauger_eeh",
  c!"lauger_ehh",
  c!"lauger_jit",
  c!"lbeefbas",
  c!"lbeefens",
  c!"lberry",
  c!"lbfconst",
  c!"lblueout",
  c!"lbone",
  c!"lcalceps",
  c!"lcalcpol",
  c!"lcfdm",
  c!"lcharg",
  c!"lchargh5",
  c!"lchgfit",
  c!"lchimag",
  c!"lcompat",
  c!"lcorr",
  c!"lcrpaplot",
  c!"ldau",
  c!"ldauj",
  c!"ldaul",
  c!"ldauprint",
  c!"ldautype",
  c!"ldauu",
  c!"ldiag",
  c!"ldipol",
  c!"ldisentangled",
  c!"ldmatrix",
  c!"ldmp1",
  c!"ldownsample",
  c!"ldrude",
  c!"ldyson",
  c!"lefg",
  c!"lelf",
  c!"lelph",
  c!"lelph_testing",
  c!"lepsilon",
  c!"lfciinput",
  c!"lfermigw",
  c!"lfinite_temperature",
  c!"lfockace",
  c!"lfockaedft",
  c!"lfxc",
  c!"lfxceps",
  c!"lfxheg",
  c!"lgauge",
  c!"lgausrc",
  c!"lgwlf",
  c!"lh5",
  c!"lhartree",
  c!"lhfcalc",
  c!"lhfone",
  c!"lhyperfine",
  c!"lidm_selective",
  c!"ligrids",
  c!"linterfast",
  c!"lintpol_conductivity",
  c!"lintpol_kpath",
  c!"lintpol_kpath_orb",
  c!"lintpol_orb",
  c!"lintpol_velocity",
  c!"lintpol_wpot",
  c!"lj_epsilon",
  c!"lj_only",
  c!"lj_radius",
  c!"lj_sigma",
  c!"lkotani",
  c!"lkproj",
  c!"llraug",
  c!"lmagbloch",
  c!"lmatchrw",
  c!"lmaxfock",
  c!"lmaxfockae",
  c!"lmaxmix",
  c!"lmaxmp2",
  c!"lmaxpaw",
  c!"lmaxtau",
  c!"lmetagga",
  c!"lmimicfc",
  c!"lmixtau",
  c!"lmodelhf",
  c!"lmono",
  c!"lmp2lt",
  c!"lmusic",
  c!"lnabla",
  c!"lnicsall",
  c!"lnlrpa",
  c!"lnmr_sym_red",
  c!"lnoncollinear",
  c!"localize",
  c!"localized_basis",
  c!"locproj",
  c!"lonlysemicore",
  c!"loptics",
  c!"lorbit",
  c!"lorbitalreal",
  c!"lorbmom",
  c!"lpade_fit",
  c!"lpard",
  c!"lpead",
  c!"lpead_sym_red",
  c!"lphon",
  c!"lphon_polar",
  c!"lplane",
  c!"lplotdis",
  c!"lprojected",
  c!"lrctype",
  c!"lread_amn",
  c!"lread_eigenvalues",
  c!"lreal",
  c!"lregularize",
  c!"lrelcor",
  c!"lrelvol",
  c!"lrhfatm",
  c!"lrhfcalc",
  c!"lrpa",
  c!"lrpaforce",
  c!"lrscor",
  c!"lrsrpa",
  c!"lscaaware",
  c!"lscalapack",
  c!"lscaler0",
  c!"lscalu",
  c!"lscsgrad",
  c!"lselfenergy",
  c!"lsepb",
  c!"lsepk",
  c!"lsingles",
  c!"lsmp2lt",
  c!"lsorbit",
  c!"lspectral",
  c!"lspectralgw",
  c!"lspiral",
  c!"lstockholder",
  c!"lsubrot",
  c!"lsymgrad",
  c!"ltctc",
  c!"ltcte",
  c!"ltemper",
  c!"ltete",
  c!"lthomas",
  c!"ltriplet",
  c!"ltssurf",
  c!"luse_vdw",
  c!"luseorth_locprojs",
  c!"lusew",
  c!"lvcader",
  c!"lvdw",
  c!"lvdw_ewald",
  c!"lvdw_onecell",
  c!"lvdw_relvolone",
  c!"lvdw_sametype",
  c!"lvdwexpansion",
  c!"lvdwscs",
  c!"lvel",
  c!"lvhar",
  c!"lvpot",
  c!"lvtot",
  c!"lwannier",
  c!"lwannier90",
  c!"lwannier90_run",
  c!"lwannierinterpol",
  c!"lwave",
  c!"lwaveh5",
  c!"lweighted",
  c!"lwpot",
  c!"lwrite_mmn_amn",
  c!"lwrite_unk",
  c!"lwrite_wanproj",
  c!"lwrtcur",
  c!"lwswq",
  c!"lzeroz",
  c!"lzora",
  c!"m_constr",
  c!"magatom",
  c!"magdipol",
  c!"magmom",
  c!"magpos",
  c!"maxlie",
  c!"maxmem",
  c!"maxmix",
  c!"maxpwamp",
  c!"mbd_beta",
  c!"mcalpha",
  c!"mdalgo",
  c!"metagga",
  c!"minrot",
  c!"mixfirst",
  c!"mixpre",
  c!"model_alpha",
  c!"model_eps0",
  c!"model_gw",
  c!"mremove",
  c!"naturalo",
  c!"nbands",
  c!"nbands_index",
  c!"nbands_out",
  c!"nbandsexact",
  c!"nbandsgw",
  c!"nbandsgwlow",
  c!"nbandshigh",
  c!"nbandslf",
  c!"nbandslow",
  c!"nbandso",
  c!"nbandsv",
  c!"nbconopt",
  c!"nblk",
  c!"nblock",
  c!"nblock_fock",
  c!"nbmod",
  c!"nbseeig",
  c!"nbvalopt",
  c!"ncore",
  c!"ncore_in_image1",
  c!"ncores_per_band",
  c!"ncrpa_bands",
  c!"ncshmem",
  c!"ncycles",
  c!"ndatalsq",
  c!"ndav",
  c!"nedos",
  c!"nelect",
  c!"nelm",
  c!"nelmall",
  c!"nelmdl",
  c!"nelmhf",
  c!"nelmin",
  c!"nfree",
  c!"ngaus",
  c!"ngx",
  c!"ngxf",
  c!"ngy",
  c!"ngyf",
  c!"ngyromag",
  c!"ngz",
  c!"ngzf",
  c!"nkoffopt",
  c!"nkopt",
  c!"nkred",
  c!"nkredlf",
  c!"nkredlfx",
  c!"nkredlfy",
  c!"nkredlfz",
  c!"nkredx",
  c!"nkredy",
  c!"nkredz",
  c!"nlspline",
  c!"nmaxalt",
  c!"nmaxfockae",
  c!"nmin",
  c!"nomega",
  c!"nomega_dump",
  c!"nomega_index",
  c!"nomega_out",
  c!"nomegaadd",
  c!"nomegapar",
  c!"nomegar",
  c!"npaco",
  c!"npar",
  c!"nppstr",
  c!"nreboot",
  c!"nrmm",
  c!"nscorrel",
  c!"nsim",
  c!"nstorb",
  c!"nsubsys",
  c!"nsw",
  c!"ntarget_states",
  c!"ntaupar",
  c!"ntemper",
  c!"nthreads_a2a",
  c!"nthreads_hi",
  c!"nthreads_lo",
  c!"nthreads_mu",
  c!"nthreads_rproj",
  c!"nucind",
  c!"nupdown",
  c!"nwhigh",
  c!"nwlow",
  c!"nwrite",
  c!"oddonly",
  c!"oddonlygw",
  c!"ofield_a",
  c!"ofield_k",
  c!"ofield_kappa",
  c!"ofield_q6_far",
  c!"ofield_q6_near",
  c!"omega_acont_start",
  c!"omega_acont_stop",
  c!"omegagrid",
  c!"omegamax",
  c!"omegamin",
  c!"omegatl",
  c!"orbitalmag",
  c!"pairpot",
  c!"param1",
  c!"param2",
  c!"param3",
  c!"pflat",
  c!"phon_atom_indices",
  c!"phon_born_charges",
  c!"phon_dielectric",
  c!"phon_g_cutoff",
  c!"phon_lbose",
  c!"phon_lmc",
  c!"phon_nstruct",
  c!"phon_tlist",
  c!"plevel",
  c!"pmass",
  c!"pomass",
  c!"potim",
  c!"prec",
  c!"precfock",
  c!"proutine",
  c!"pstress",
  c!"psubsys",
  c!"pthreshold",
  c!"qmaxfockae",
  c!"qspiral",
  c!"quad_efg",
  c!"radeq",
  c!"random_seed",
  c!"rcmix",
  c!"rcndl",
  c!"rcrep",
  c!"rcrhocut",
  c!"rcstrd",
  c!"restartcg",
  c!"rgaus",
  c!"ropt",
  c!"rtime",
  c!"rwigs",
  c!"saxis",
  c!"scalee",
  c!"scaling",
  c!"scissor",
  c!"scsrad",
  c!"shakemaxiter",
  c!"shakesca",
  c!"shaketol",
  c!"shaketolsoft",
  c!"shiftred",
  c!"sigma",
  c!"skip_edotp",
  c!"skip_scf",
  c!"smass",
  c!"smearings",
  c!"spring",
  c!"spring_k",
  c!"spring_r0",
  c!"spring_v0",
  c!"step_max",
  c!"step_size",
  c!"stm",
  c!"switch",
  c!"symprec",
  c!"system",
  c!"tau0",
  c!"tebeg",
  c!"teend",
  c!"telescope",
  c!"thermostat",
  c!"time",
  c!"tmbpt",
  c!"tsubsys",
  c!"turbo",
  c!"value_max",
  c!"value_min",
  c!"vca",
  c!"vcaimages",
  c!"vcutoff",
  c!"vdw_a1",
  c!"vdw_a2",
  c!"vdw_alpha",
  c!"vdw_c6",
  c!"vdw_c6au",
  c!"vdw_cnradius",
  c!"vdw_d",
  c!"vdw_idampf",
  c!"vdw_mbd_size",
  c!"vdw_r0",
  c!"vdw_r0au",
  c!"vdw_radius",
  c!"vdw_refstate",
  c!"vdw_s6",
  c!"vdw_s8",
  c!"vdw_scaling",
  c!"vdw_sr",
  c!"voskown",
  c!"wanproj",
  c!"wanproj_e",
  c!"wanproj_i",
  c!"wanproj_l",
  c!"wc",
  c!"weimin",
  c!"wplasma",
  c!"wplasmai",
  c!"zab_vdw",
  c!"zct",
  c!"zval"]

/-- /repo/parsevasp/constants.py:6-126 `elements`: lower-case symbol and atomic number. -/
def elementTable : List (Str × Nat) := [
  (c!"x", 0),
  (c!"h", 1),
  (c!"he", 2),
  (c!"li", 3),
  (c!"be", 4),
  (c!"b", 5),
  (c!"c", 6),
  (c!"n", 7),
  (c!"o", 8),
  (c!"f", 9),
  (c!"ne", 10),
  (c!"na", 11),
  (c!"mg", 12),
  (c!"al", 13),
  (c!"si", 14),
  (c!"p", 15),
  (c!"s", 16),
  (c!"cl", 17),
  (c!"ar", 18),
  (c!"k", 19),
  (c!"ca", 20),
  (c!"sc", 21),
  (c!"ti", 22),
  (c!"v", 23),
  (c!"cr", 24),
  (c!"mn", 25),
  (c!"fe", 26),
  (c!"co", 27),
  (c!"ni", 28),
  (c!"cu", 29),
  (c!"zn", 30),
  (c!"ga", 31),
  (c!"ge", 32),
  (c!"as", 33),
  (c!"se", 34),
  (c!"br", 35),
  (c!"kr", 36),
  (c!"rb", 37),
  (c!"sr", 38),
  (c!"y", 39),
  (c!"zr", 40),
  (c!"nb", 41),
  (c!"mo", 42),
  (c!"tc", 43),
  (c!"ru", 44),
  (c!"rh", 45),
  (c!"pd", 46),
  (c!"ag", 47),
  (c!"cd", 48),
  (c!"in", 49),
  (c!"sn", 50),
  (c!"sb", 51),
  (c!"te", 52),
  (c!"i", 53),
  (c!"xe", 54),
  (c!"cs", 55),
  (c!"ba", 56),
  (c!"la", 57),
  (c!"ce", 58),
  (c!"pr", 59),
  (c!"nd", 60),
  (c!"pm", 61),
  (c!"sm", 62),
  (c!"eu", 63),
  (c!"gd", 64),
  (c!"tb", 65),
  (c!"dy", 66),
  (c!"ho", 67),
  (c!"er", 68),
  (c!"tm", 69),
  (c!"yb", 70),
  (c!"lu", 71),
  (c!"hf", 72),
  (c!"ta", 73),
  (c!"w", 74),
  (c!"re", 75),
  (c!"os", 76),
  (c!"ir", 77),
  (c!"pt", 78),
  (c!"au", 79),
  (c!"hg", 80),
  (c!"tl", 81),
  (c!"pb", 82),
  (c!"bi", 83),
  (c!"po", 84),
  (c!"at", 85),
  (c!"rn", 86),
  (c!"fr", 87),
  (c!"ra", 88),
  (c!"ac", 89),
  (c!"th", 90),
  (c!"pa", 91),
  (c!"u", 92),
  (c!"np", 93),
  (c!"pu", 94),
  (c!"am", 95),
  (c!"cm", 96),
  (c!"bk", 97),
  (c!"cf", 98),
  (c!"es", 99),
  (c!"fm", 100),
  (c!"md", 101),
  (c!"no", 102),
  (c!"lr", 103),
  (c!"rf", 104),
  (c!"db", 105),
  (c!"sg", 106),
  (c!"bh", 107),
  (c!"hs", 108),
  (c!"mt", 109),
  (c!"ds", 110),
  (c!"rg", 111),
  (c!"cn", 112),
  (c!"uut", 113),
  (c!"uuq", 114),
  (c!"uup", 115),
  (c!"uuh", 116),
  (c!"uus", 117),
  (c!"uuo", 118)]

end Verif
