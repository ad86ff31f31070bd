import Verif.Model.Stream
/-! Generated by tools/gen_stream.py: the content of /repo/parsevasp/stream.yml. Do not edit. -/
set_option autoImplicit false
namespace Verif.Stream
open Verif

/-- /repo/parsevasp/stream.yml:1-202, stream.py:125-134 `_load_config_from_file`: what `yaml.safe_load` makes of the file. -/
def streamYml (Rx : Type) : Config Rx := [
  (c!"nostart", [(c!"kind", .str c!"ERROR"), (c!"location", .str c!"STDOUT"), (c!"message", .str c!"VASP has not been started."), (c!"recover", .bool false), (c!"regex", .str c!"vasp."), (c!"inverse", .bool true), (c!"suggestion", .str c!"")]),
  (c!"ibzkpt", [(c!"kind", .str c!"ERROR"), (c!"location", .str c!"STDOUT"), (c!"message", .str c!"Error with the k-points."), (c!"recover", .bool true), (c!"regex", .str c!"internal error in subroutine IBZKPT"), (c!"suggestion", .str c!"")]),
  (c!"brmix", [(c!"kind", .str c!"ERROR"), (c!"location", .str c!"STDOUT"), (c!"message", .str c!"Error in BRMIX."), (c!"recover", .bool false), (c!"regex", .str c!"BRMIX: very serious problems"), (c!"suggestion", .str c!"")]),
  (c!"cnormn", [(c!"kind", .str c!"ERROR"), (c!"location", .str c!"STDOUT"), (c!"message", .str c!"Error in CNORMN."), (c!"recover", .bool false), (c!"regex", .str c!"WARNING: CNORMN"), (c!"suggestion", .str c!"")]),
  (c!"denmp", [(c!"kind", .str c!"ERROR"), (c!"location", .str c!"STDOUT"), (c!"message", .str c!"Error in DENMP."), (c!"recover", .bool false), (c!"regex", .str c!"WARNING: DENMP: can't reach specified precision"), (c!"suggestion", .str c!"")]),
  (c!"dentet", [(c!"kind", .str c!"ERROR"), (c!"location", .str c!"STDOUT"), (c!"message", .str c!"Error with DENTET."), (c!"recover", .bool false), (c!"regex", .str c!"WARNING: DENTET"), (c!"suggestion", .str c!"")]),
  (c!"edddav_zhegv", [(c!"kind", .str c!"ERROR"), (c!"location", .str c!"STDOUT"), (c!"message", .str c!"Error in ZHEGV from EDDAV."), (c!"recover", .bool false), (c!"regex", .str c!"Error EDDDAV: Call to ZHEGV failed"), (c!"suggestion", .str c!"")]),
  (c!"eddrmm_zhegv", [(c!"kind", .str c!"ERROR"), (c!"location", .str c!"STDOUT"), (c!"message", .str c!"Error in EDDRMM."), (c!"recover", .bool false), (c!"regex", .str c!"WARNING in EDDRMM: call to ZHEGV failed"), (c!"suggestion", .str c!"")]),
  (c!"edwav", [(c!"kind", .str c!"ERROR"), (c!"location", .str c!"STDOUT"), (c!"message", .str c!"Error in EDWAV."), (c!"recover", .bool false), (c!"regex", .str c!"EDWAV: internal error"), (c!"suggestion", .str c!"")]),
  (c!"fexcp", [(c!"kind", .str c!"ERROR"), (c!"location", .str c!"STDOUT"), (c!"message", .str c!"Error in FEXCP."), (c!"recover", .bool false), (c!"regex", .str c!"ERROR FEXCP: supplied Exchange"), (c!"suggestion", .str c!"")]),
  (c!"fock_acc", [(c!"kind", .str c!"ERROR"), (c!"location", .str c!"STDERR"), (c!"message", .str c!"Error in FOCK_ACC."), (c!"recover", .bool false), (c!"regex", .str c!"internal error in FOCK_ACC"), (c!"suggestion", .str c!"")]),
  (c!"invgrp", [(c!"kind", .str c!"ERROR"), (c!"location", .str c!"STDOUT"), (c!"message", .str c!"Error in INVGRP."), (c!"recover", .bool false), (c!"regex", .str c!"internal error in subroutine INVGRP"), (c!"suggestion", .str c!"")]),
  (c!"kpoints_trans", [(c!"kind", .str c!"ERROR"), (c!"location", .str c!"STDERR"), (c!"message", .str c!"Error in GENERATE_KPOINTS_TRANS."), (c!"recover", .bool false), (c!"regex", .str c!"internal error in GENERATE_KPOINTS_TRANS"), (c!"suggestion", .str c!"")]),
  (c!"non_collinear", [(c!"kind", .str c!"ERROR"), (c!"location", .str c!"STDOUT"), (c!"message", .str c!"Using a collinear spin executable for a non-colinear calculation."), (c!"recover", .bool false), (c!"regex", .str c!"ERROR: non collinear calculations require"), (c!"suggestion", .str c!"Please make sure to use the VASP executable that has been compiled with the non-colinear functionality (ncl flavor, consult build instructions)")]),
  (c!"not_hermitian", [(c!"kind", .str c!"ERROR"), (c!"location", .str c!"STDOUT"), (c!"message", .str c!"Sub-space matrix not Hermitian in DAV."), (c!"recover", .bool false), (c!"regex", .str c!"not Hermitian in DAV"), (c!"suggestion", .str c!"")]),
  (c!"psmaxn", [(c!"kind", .str c!"ERROR"), (c!"location", .str c!"STDOUT"), (c!"message", .str c!"Error in PSMAXN."), (c!"recover", .bool false), (c!"regex", .str c!"PSMAXN for non-local potential too small"), (c!"suggestion", .str c!"")]),
  (c!"pssyevx", [(c!"kind", .str c!"ERROR"), (c!"location", .str c!"STDOUT"), (c!"message", .str c!"Error in PSSYEVX."), (c!"recover", .bool false), (c!"regex", .str c!"Error in subspace rotation PSSYEVX"), (c!"suggestion", .str c!"")]),
  (c!"pzstein", [(c!"kind", .str c!"ERROR"), (c!"location", .str c!"STDOUT"), (c!"message", .str c!"Error in PZSETIN"), (c!"recover", .bool false), (c!"regex", .str c!"PZSTEIN parameter number had an illegal value"), (c!"suggestion", .str c!"")]),
  (c!"real_optlay", [(c!"kind", .str c!"ERROR"), (c!"location", .str c!"STDOUT"), (c!"message", .str c!"Error in REAL_OPTLAY."), (c!"recover", .bool false), (c!"regex", .str c!"REAL_OPTLAY: internal error"), (c!"suggestion", .str c!"")]),
  (c!"rhosyg", [(c!"kind", .str c!"ERROR"), (c!"location", .str c!"STDOUT"), (c!"message", .str c!"Error in RHOSYG"), (c!"recover", .bool false), (c!"regex", .str c!"RHOSYG: internal error"), (c!"suggestion", .str c!"")]),
  (c!"rspher", [(c!"kind", .str c!"ERROR"), (c!"location", .str c!"STDOUT"), (c!"message", .str c!"Error in RSPHER"), (c!"recover", .bool false), (c!"regex", .str c!"Internal ERROR RSPHER."), (c!"suggestion", .str c!"")]),
  (c!"set_indpw_full", [(c!"kind", .str c!"ERROR"), (c!"location", .str c!"STDOUT"), (c!"message", .str c!"Error in INDPW: insufficient memory."), (c!"recover", .bool false), (c!"regex", .str c!"internal error in SET_INDPW_FULL: insufficient"), (c!"suggestion", .str c!"")]),
  (c!"sgrcon", [(c!"kind", .str c!"ERROR"), (c!"location", .str c!"STDOUT"), (c!"message", .str c!"Error in SGRCON"), (c!"recover", .bool false), (c!"regex", .str c!"internal error in subroutine SGRCON"), (c!"suggestion", .str c!"")]),
  (c!"zbrent", [(c!"kind", .str c!"ERROR"), (c!"location", .str c!"STDOUT"), (c!"message", .str c!"Error in ZBRENT"), (c!"recover", .bool false), (c!"regex", .str c!"ZBRENT: fatal error in bracketing"), (c!"suggestion", .str c!"")]),
  (c!"no_potim", [(c!"kind", .str c!"ERROR"), (c!"location", .str c!"STDOUT"), (c!"message", .str c!"NSW specified, but no POTIM or IBRION set."), (c!"recover", .bool false), (c!"regex", .str c!"Fatal error! IBRION=0, but no entry for POTIM on file INCAR. MUST be specified!!"), (c!"suggestion", .str c!"")]),
  (c!"magmom", [(c!"kind", .str c!"ERROR"), (c!"location", .str c!"STDOUT"), (c!"message", .str c!"MAGMON is specified, but ISPIN is set to one."), (c!"recover", .bool false), (c!"regex", .str c!"Error reading item 'MAGMOM' from file INCAR"), (c!"suggestion", .str c!"")]),
  (c!"bandocc", [(c!"kind", .str c!"ERROR"), (c!"location", .str c!"STDOUT"), (c!"message", .str c!"The topmost band is occupied."), (c!"recover", .bool false), (c!"regex", .str c!"TOO FEW BANDS"), (c!"suggestion", .str c!"")])]

end Verif.Stream
