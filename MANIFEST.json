{
 "claims": [
  {
   "property": "C01",
   "status": "proved",
   "theorems": [
    "Fclaw.Packing.C01_int",
    "Fclaw.Packing.C01_size_t",
    "Fclaw.Packing.C01_double",
    "Fclaw.Packing.C01_string"
   ],
   "note": "Byte-level model with buffer overrun as a distinct outcome."
  },
  {
   "property": "C02",
   "status": "proved",
   "theorems": [
    "Fclaw.Global.C02_global_roundtrip",
    "Fclaw.Global.C02_unregistered_aborts",
    "Fclaw.Global.C02_long_key_counterexample"
   ],
   "note": "For keys of at most 981 characters; longer keys overrun a stack buffer in check_vt (third theorem)."
  },
  {
   "property": "C03",
   "status": "partial",
   "theorems": [
    "Fclaw.Options.C03_options_roundtrip_partial",
    "Fclaw.Options.C03_regression_check_counterexample"
   ],
   "note": "All members survive except regression_check, whose pointer is copied raw and dangles in the receiver; the property is false of the code for it (counterexample)."
  },
  {
   "property": "C04",
   "status": "proved",
   "theorems": [
    "Fclaw.PointerMap.C04_get_last",
    "Fclaw.PointerMap.C04_iterate",
    "Fclaw.PointerMap.C04_destroy_once",
    "Fclaw.PointerMap.C04_overwrite_destroys_now"
   ],
   "note": ""
  },
  {
   "property": "C05",
   "status": "partial",
   "theorems": [
    "Fclaw.PowInt.C05_powInt_iff",
    "Fclaw.PowInt.C05_powInt_zero",
    "Fclaw.PowInt.C05_powInt_partial",
    "Fclaw.PowInt.C05_powInt_two",
    "Fclaw.PowInt.C05_powInt_counterexample"
   ],
   "note": "Exact characterisation of the safe arguments; as stated the property is false of the code (2^16..2^30 overflow in a superfluous squaring)."
  },
  {
   "property": "C06",
   "status": "proved",
   "theorems": [
    "Fclaw.Domain.C06_blocks",
    "Fclaw.Domain.C06_local",
    "Fclaw.Domain.C06_global",
    "Fclaw.Domain.C06_exchange"
   ],
   "note": "Any number of children C>0, blocks, patches, levels and processes; the forest (p4est) is input."
  },
  {
   "property": "C07",
   "status": "proved",
   "theorems": [
    "Fclaw.Domain.C07_iterate_patches",
    "Fclaw.Domain.C07_iterate_level",
    "Fclaw.Domain.C07_iterate_families",
    "Fclaw.Domain.C07_families_disjoint",
    "Fclaw.Domain.C07_families_complete"
   ],
   "note": "For every domain built by the modelled domain construction; linked lists are walked with fuel, so termination is part of the statement."
  },
  {
   "property": "C08",
   "status": "proved",
   "theorems": [
    "Fclaw.Adapt.C08_callbacks",
    "Fclaw.Adapt.C08_right_patches",
    "Fclaw.Adapt.C08_covered_once",
    "Fclaw.Adapt.C08_tree",
    "Fclaw.Adapt.C08_forest"
   ],
   "note": "Any forest and any adaptation by at most one level per patch; assertions modelled as failure."
  },
  {
   "property": "C09",
   "status": "proved",
   "theorems": [
    "Fclaw.Partition.C09_callbacks",
    "Fclaw.Partition.C09_each_new_once",
    "Fclaw.Partition.C09_same_patch",
    "Fclaw.Partition.C09_each_retained_once"
   ],
   "note": "The window computed by p4est_wrap_partition (external) is modelled as documented."
  },
  {
   "property": "C10",
   "status": "proved",
   "theorems": [
    "Fclaw.Partition.C10_process",
    "Fclaw.Partition.C10_all"
   ],
   "note": "p4est moving the buffers attached to quadrants is assumed."
  },
  {
   "property": "C11",
   "status": "proved",
   "theorems": [
    "Fclaw.Exchange.C11_slots",
    "Fclaw.Exchange.C11_setup_ready",
    "Fclaw.Exchange.C11_exchange"
   ],
   "note": "Any number of processes, blocks, patches and levels; p4est's ghost exchange itself is modelled as documented."
  },
  {
   "property": "C12",
   "status": "proved",
   "theorems": [
    "Fclaw.FaceNbr.C12_face_neighbors",
    "Fclaw.FaceNbr.C12_boundary_type",
    "Fclaw.FaceNbr.C12_normal_match",
    "Fclaw.FaceNbr.C12_face_swap",
    "Fclaw.FaceNbr.C12_face_swap_all"
   ],
   "note": "The mesh arrays (p4est) are input, related to neighbours by the documented encoding."
  },
  {
   "property": "C13",
   "status": "proved",
   "theorems": [
    "Fclaw.Transform.C13_face_point",
    "Fclaw.Transform.C13_same_block",
    "Fclaw.Transform.C13_face_inverse",
    "Fclaw.Transform.C13_ghost_interior",
    "Fclaw.Transform.C13_gluing_2d"
   ],
   "note": "Doubles as exact rationals (all values are multiples of 1/2 below 2^52); truncation towards zero is modelled. In 3D the nine-entry transformation made by p4est is input, in 2D its construction is modelled."
  },
  {
   "property": "C14",
   "status": "proved",
   "theorems": [
    "Fclaw.Transform.C14_face2_children",
    "Fclaw.Transform.C14_face2_same_block"
   ],
   "note": "As C13."
  },
  {
   "property": "C15",
   "status": "proved",
   "theorems": [
    "Fclaw.Transform.C15_corner_point",
    "Fclaw.Transform.C15_corner2_children"
   ],
   "note": "As C13; across a block corner the blocks have parallel axes, as the code documents."
  },
  {
   "property": "C16",
   "status": "proved",
   "theorems": [
    "Fclaw.Indirect.C16_indirect_face",
    "Fclaw.Indirect.C16_indirect_corner"
   ],
   "note": "The int arrays, flag bits, keys and in-place rewriting are modelled; transport of the array is C11, p4est's mesh and ghost layer are input."
  },
  {
   "property": "C17",
   "status": "proved",
   "theorems": [
    "Fclaw.Search.C17_search_points",
    "Fclaw.Search.C17_found_once"
   ],
   "note": "p4est_search_local is modelled from its documentation; coordinates are exact rationals (NaN not modelled)."
  },
  {
   "property": "C18",
   "status": "proved",
   "theorems": [
    "Fclaw.Search.C18_integrate_rays",
    "Fclaw.Search.C18_distribution"
   ],
   "note": "Exact arithmetic; the callback is a function of patch and ray."
  },
  {
   "property": "C19",
   "status": "proved",
   "theorems": [
    "Fclaw.Overlap.C19_overlap"
   ],
   "note": "All processes, arbitrary arrival orders on both sides; callback as documented. A point lying in the parts of several processes is sent to the lowest rank only."
  },
  {
   "property": "C20",
   "status": "proved",
   "theorems": [
    "Fclaw.Serial.C20_one_at_a_time",
    "Fclaw.Serial.C20_exclusive",
    "Fclaw.Serial.C20_no_deadlock",
    "Fclaw.Serial.C20_bounded",
    "Fclaw.Serial.C20_consecutive_sections_counterexample"
   ],
   "note": "The last theorem records that two consecutive sections without a barrier may overlap."
  },
  {
   "property": "C21",
   "status": "proved",
   "theorems": [
    "Fclaw.Lifecycle.C21_protocol",
    "Fclaw.Lifecycle.C21_one_owner",
    "Fclaw.Lifecycle.C21_all_destroyed"
   ],
   "note": "Every history of adapt/partition/complete/destroy calls on any number of domains; a failed assertion is an abort (the contract of a debug build)."
  },
  {
   "property": "C22",
   "status": "proved",
   "theorems": [
    "Fclaw.Smooth.C22_smooth",
    "Fclaw.Smooth.C22_independent"
   ],
   "note": "Neighbour queries are assumed to return the neighbours (C12, C58); p4est's target exchange is assumed to deliver the owner's value. In 3D the code regards face and corner neighbours only, and so does the theorem."
  },
  {
   "property": "C23",
   "status": "proved",
   "theorems": [
    "Fclaw.Regrid.C23_levels",
    "Fclaw.Regrid.C23_families"
   ],
   "note": "Tagging phase of fclaw2d_regrid on domains built from any quadrants; the answers of the user's tagging functions are arbitrary."
  },
  {
   "property": "C24",
   "status": "proved",
   "theorems": [
    "Fclaw.Advance.C24_subcycle"
   ],
   "note": "Exact arithmetic for times."
  },
  {
   "property": "C25",
   "status": "proved",
   "theorems": [
    "Fclaw.Advance.C25_exchange"
   ],
   "note": ""
  },
  {
   "property": "C26",
   "status": "proved",
   "theorems": [
    "Fclaw.Advance.C26_coarse_first"
   ],
   "note": ""
  },
  {
   "property": "C27",
   "status": "proved",
   "theorems": [
    "Fclaw.Advance.C27_lockstep"
   ],
   "note": ""
  },
  {
   "property": "C28",
   "status": "proved",
   "theorems": [
    "Fclaw.Run.C28_output_times",
    "Fclaw.Run.C28_fixed_dt"
   ],
   "note": "Exact arithmetic; positive CFL numbers (a zero CFL number would divide by zero). Second theorem: fixed steps that divide the output interval, as the options check demands."
  },
  {
   "property": "C29",
   "status": "proved",
   "theorems": [
    "Fclaw.Run.C29_rejected",
    "Fclaw.Run.C29_rejected_style3"
   ],
   "note": "Aux data is restored only if save_aux is set, as documented."
  },
  {
   "property": "C30",
   "status": "proved",
   "theorems": [
    "Fclaw.Run.C30_style3",
    "Fclaw.Run.C30_style4",
    "Fclaw.Run.C30_style1_regrid",
    "Fclaw.Run.C30_nstep_zero"
   ],
   "note": "nstep > 0 assumed; nstep = 0 passes the options check and divides by zero (last theorem). That style 3 does reach nout steps: C61."
  },
  {
   "property": "C31",
   "status": "proved",
   "theorems": [
    "Fclaw.Ledger.C31_running",
    "Fclaw.Ledger.C31_finalized"
   ],
   "note": "Every history of regriddings with or without repartitioning after initialisation. The positions passed to the callbacks are those proved in C08 and C09. Patch data is an abstract handle; the contents are not modelled here."
  },
  {
   "property": "C32",
   "status": "proved",
   "theorems": [
    "Fclaw.GhostFill.C32_filled",
    "Fclaw.GhostFill.C32_reads",
    "Fclaw.GhostFill.C32_after_exchange"
   ],
   "note": "Validity (provenance) model of fclaw2d_ghost_update on all processes: strips, halves and corners of every patch, both grids, exchange and indirect neighbours."
  },
  {
   "property": "C33",
   "status": "proved",
   "theorems": [
    "Fclaw.GhostFill.C33_once",
    "Fclaw.GhostFill.C33_before_sending",
    "Fclaw.GhostFill.C33_local"
   ],
   "note": ""
  },
  {
   "property": "C34",
   "status": "proved",
   "theorems": [
    "Fclaw.CopyGhost.C34_copy_face",
    "Fclaw.CopyGhost.C34_copy_corner",
    "Fclaw.CopyGhost.C34_update"
   ],
   "note": "Whole ghost update on any number of processes, on any balanced mesh (uniform meshes are the special case where every neighbour has the same size). Received grids are assumed to hold the sent values in the outermost mbc interior layers (C41). Averages, interpolation and physical conditions are arbitrary functions confined to the regions they write (GhostFill.effects)."
  },
  {
   "property": "C35",
   "status": "proved",
   "theorems": [
    "Fclaw.TimeSync.C35"
   ],
   "note": "For every proper mesh (Mesh.Ok of C32), every process, level range and register contents; meshes with several processes. The order of the loops over levels and the reset rules are those of fclaw2d_time_sync.c; a process's copies of remote registers are what C41 delivers. What one correction computes is C36."
  },
  {
   "property": "C36",
   "status": "proved",
   "theorems": [
    "Fclaw.Correction.C36",
    "Fclaw.Correction.C36_steps",
    "Fclaw.Correction.C36_f2c",
    "Fclaw.Correction.C36_samesize",
    "Fclaw.Correction.C36_mbc1_counterexample"
   ],
   "note": "Rational arithmetic. clawpack 4.6 routines. Riemann solver and flux function assumed conservative (Conservative). With one layer of ghost cells the correction writes out of bounds of its work array: C36_mbc1_counterexample."
  },
  {
   "property": "C37",
   "status": "partial",
   "theorems": [
    "Fclaw.Transfer.C37_partial",
    "Fclaw.Transfer.C37_counterexample"
   ],
   "note": "Proved for all even square grids, Cartesian and mapped. False of the code for my != mx (average2coarse offsets the upper children by mx/2 rows instead of my/2), which the option check accepts; witness 4 x 8. Rational arithmetic."
  },
  {
   "property": "C38",
   "status": "proved",
   "theorems": [
    "Fclaw.Transfer.C38",
    "Fclaw.Transfer.C38_one_layer_counterexample"
   ],
   "note": "All even sizes with mbc >= 2, Cartesian and mapped (with the correction for capacity). With mbc = 1, which is not rejected, the routine writes outside the array (C38_one_layer_counterexample). Rational arithmetic."
  },
  {
   "property": "C39",
   "status": "proved",
   "theorems": [
    "Fclaw.Transfer.C39_no_new_extrema",
    "Fclaw.Transfer.C39_linear"
   ],
   "note": "Interpolation to children on Cartesian grids, limiter mth = 5 as hardwired. Rational arithmetic."
  },
  {
   "property": "C40",
   "status": "proved",
   "theorems": [
    "Fclaw.Transfer.C40"
   ],
   "note": "Even square grids, Cartesian and mapped. Rational arithmetic."
  },
  {
   "property": "C41",
   "status": "partial",
   "theorems": [
    "Fclaw.GhostPack.C41_partial",
    "Fclaw.GhostPack.C41_received",
    "Fclaw.GhostPack.C41_small_counterexample",
    "Fclaw.GhostPack.C41_assertion_counterexample"
   ],
   "note": "Solution, areas and flux registers; proved for grids with at least 4*mbc cells in both directions. For 2*mbc <= mx,my < 4*mbc, which the option check accepts, the property is false of the code: interior cells are silently not sent (proved for all such sizes, e.g. 4x4 with mbc=2); if one size is above and the other below 4*mbc an assertion fails. C41_received discharges the hypothesis Received of C34. Extra user fields are not modelled."
  },
  {
   "property": "C42",
   "status": "proved",
   "theorems": [
    "Fclaw.TimeInterp.C42"
   ],
   "note": "Rationals instead of doubles. The routine's error code is not checked by its caller, as in the code."
  },
  {
   "property": "C43",
   "status": "proved",
   "theorems": [
    "Fclaw.ArrayBox.C43",
    "Fclaw.ArrayBox.C43_restore",
    "Fclaw.ArrayBox.C43_partition",
    "Fclaw.ArrayBox.C43_copy_constructor_counterexample",
    "Fclaw.ArrayBox.C43_self_assignment_counterexample"
   ],
   "note": "Refinement to value semantics for every program over containers, including memory safety and absence of leaks. The copy constructor (not used by the library) leaves the data pointer unset, and self-assignment in debug builds loses the elements: both shown as counterexamples."
  },
  {
   "property": "C44",
   "status": "proved",
   "theorems": [
    "Fclaw.Timer.C44"
   ],
   "note": "Any sequence of starts and stops of any timers; exact arithmetic."
  },
  {
   "property": "C45",
   "status": "proved",
   "theorems": [
    "Fclaw.Gauge.C45",
    "Fclaw.Gauge.C45_independent",
    "Fclaw.Gauge.C45_zero_buffer_counterexample"
   ],
   "note": "Any number of processes, any history of updates and relocations, any order of processes within an operation; operations are separated by collective communication. Buffer length 0, which the options do not exclude, overflows (counterexample)."
  },
  {
   "property": "C46",
   "status": "proved",
   "theorems": [
    "Fclaw.Gauge.C46"
   ],
   "note": "The first sample comes at least one increment after the start of the window, because the last time is initialised to it."
  },
  {
   "property": "C47",
   "status": "partial",
   "theorems": [
    "Fclaw.Gauge.C47_partial",
    "Fclaw.Gauge.C47_single_block_partial",
    "Fclaw.Gauge.C47_found",
    "Fclaw.Gauge.C47_overrun",
    "Fclaw.Gauge.C47_shared_edge_counterexample",
    "Fclaw.Gauge.C47_middle_counterexample",
    "Fclaw.Gauge.C47_not_brick_counterexample",
    "Fclaw.Gauge.C47_outside_counterexample"
   ],
   "note": "Holds for gauges in the domain and not on an edge shared by blocks, together with the search (C17). The code violates the rest: a gauge on a shared block edge is counted twice and overruns the coordinate array, and a gauge outside is looked up at index -1."
  },
  {
   "property": "C48",
   "status": "proved",
   "theorems": [
    "Fclaw.ParFile.C48",
    "Fclaw.ParFile.C48_layout",
    "Fclaw.ParFile.C48_open_write"
   ],
   "note": "For the version 1 writing functions and the public fclaw2d_file_open_write, for every distribution and every order in which the bytes of a collective write arrive. Serialised connectivity and quadrants are inputs; counts above 2 GiB per process are outside the model."
  },
  {
   "property": "C49",
   "status": "partial",
   "theorems": [
    "Fclaw.ParFile.C49_partial",
    "Fclaw.ParFile.C49_user_string",
    "Fclaw.ParFile.C49_header_partial",
    "Fclaw.ParFile.C49_header_counterexample"
   ],
   "note": "Holds for every file that could be written, read with the (currently disabled) reading code of the same source file. Missing: sections of length 15 modulo 16 cannot be written (see C50), and a 47 character user string in the file header loses its last character when read."
  },
  {
   "property": "C50",
   "status": "partial",
   "theorems": [
    "Fclaw.ParFile.C50_partial",
    "Fclaw.ParFile.C50_counterexample",
    "Fclaw.ParFile.C50_write_counterexample"
   ],
   "note": "Holds unless the length is 15 modulo 16. For those lengths the code violates the property: 17 padding bytes are needed, a debug build aborts and another build writes past the buffer."
  },
  {
   "property": "C51",
   "status": "proved",
   "theorems": [
    "Fclaw.NbrType.C51",
    "Fclaw.NbrType.C51_run"
   ],
   "note": "C51: the flag computation, for every combination of face, edge and corner types and missing corners, in any dimension.  C51_run: over every history of adaptations and partitions, with arbitrary stale memory in new records, the debug assertion never fails and the record of each patch agrees with what the mesh says about it.  The mesh queries themselves are C12-C15."
  },
  {
   "property": "C52",
   "status": "proved",
   "theorems": [
    "Fclaw.Tag.C52_refine",
    "Fclaw.Tag.C52_coarsen",
    "Fclaw.Tag.C52_exclusive",
    "Fclaw.Tag.C52_thresholds_counterexample",
    "Fclaw.Tag.C52_variable_counterexample"
   ],
   "note": "All built-in criteria (value, difference, minmax, gradient with and without mapping) and local user criteria, on every grid with at least one ghost layer and an existing threshold variable; clawpack 4.6 routines in two dimensions.  The counterexamples show that the condition on the thresholds is needed and that the option threshold-variable, which is not checked, can lead outside of the arrays."
  },
  {
   "property": "C53",
   "status": "proved",
   "theorems": [
    "Fclaw.Diag.C53",
    "Fclaw.Diag.C53_distribution",
    "Fclaw.Diag.C53_conserved",
    "Fclaw.Diag.C53_mapped_counterexample"
   ],
   "note": "Exact arithmetic: the compensation stays zero and the reported mass is the exact sum; independent of order and distribution; combined with C63 the reported difference is exactly the boundary inflow. The counterexample: a mapping in use without metric terms reads a null pointer, since two different options control them."
  },
  {
   "property": "C54",
   "status": "proved",
   "theorems": [
    "Fclaw.Brick.C54",
    "Fclaw.Brick.C54_brick2c",
    "Fclaw.Brick.C54_no_brick_counterexample"
   ],
   "note": "p4est's brick connectivity is assumed to have the lower left corners of its trees at the integer points of the brick, in any order. The counterexample is a side remark: without a brick the generic entry point always fails its assertion in debug builds."
  },
  {
   "property": "C55",
   "status": "proved",
   "theorems": [
    "Fclaw.BlockFace.C55_flags",
    "Fclaw.BlockFace.C55_physical"
   ],
   "note": "In 2D and 3D, for local and ghost patches. That the p4est mesh agrees with positions and connectivity is assumed (Agrees)."
  },
  {
   "property": "C56",
   "status": "partial",
   "theorems": [
    "Fclaw.ParFile.Fault.C56_create_partial",
    "Fclaw.ParFile.Fault.C56_block_partial",
    "Fclaw.ParFile.Fault.C56_field_partial",
    "Fclaw.ParFile.Fault.C56_block_serial_partial",
    "Fclaw.ParFile.Fault.C56_field_serial_partial",
    "Fclaw.ParFile.Fault.C56_create_counterexample",
    "Fclaw.ParFile.Fault.C56_count_counterexample",
    "Fclaw.ParFile.Fault.C56_data_counterexample",
    "Fclaw.ParFile.Fault.C56_write_all_counterexample",
    "Fclaw.ParFile.Fault.C56_short_counterexample"
   ],
   "note": "The code violates the property. The partial theorems say exactly (if and only if) for which patterns of failures it holds, for any number of processes; the counterexamples show different error codes, processes left waiting, NULL with the code of success, and the use of an unset communicator."
  },
  {
   "property": "C57",
   "status": "partial",
   "theorems": [
    "Fclaw.PatchInfo.C57_blockno_partial",
    "Fclaw.PatchInfo.C57_patchno_partial",
    "Fclaw.PatchInfo.C57_regrid_counterexample",
    "Fclaw.PatchInfo.C57_partition_counterexample"
   ],
   "note": "The code violates the property for patch numbers: fclaw2d_patch_reset_data has no caller, so a patch that survives a regrid or partition at another position keeps its old number. Block numbers are proved right, and the exact set of right patch numbers is proved."
  },
  {
   "property": "C58",
   "status": "proved",
   "theorems": [
    "Fclaw.FaceNbr.C58_corner_found",
    "Fclaw.FaceNbr.C58_corner_boundary"
   ],
   "note": "As C12."
  },
  {
   "property": "C59",
   "status": "proved",
   "theorems": [
    "Fclaw.Advance.C59_cfl"
   ],
   "note": ""
  },
  {
   "property": "C60",
   "status": "proved",
   "theorems": [
    "Fclaw.Advance.C60_collective"
   ],
   "note": "Two arbitrary processes are compared; so all agree."
  },
  {
   "property": "C61",
   "status": "proved",
   "theorems": [
    "Fclaw.Run.C61_style1",
    "Fclaw.Run.C61_style3",
    "Fclaw.Run.C61_counterexample"
   ],
   "note": "The counterexample shows that desired_cfl > max_cfl, which no check excludes, can reject the first step for ever."
  },
  {
   "property": "C62",
   "status": "partial",
   "theorems": [
    "Fclaw.GhostFill.C62_partial",
    "Fclaw.GhostFill.C62_counterexample"
   ],
   "note": "The property is false of the code: same-size face copies before the exchange read ghost patches whatever read_parallel_patches says (results are overwritten later, C32). Proved for corner copies, averages and interpolation."
  },
  {
   "property": "C63",
   "status": "proved",
   "theorems": [
    "Fclaw.Conserve.C63",
    "Fclaw.Conserve.C63_conserved",
    "Fclaw.Conserve.C63_progress"
   ],
   "note": "2D, clawpack 4.6, exact arithmetic, conservative Riemann solver, even patch sizes with at least two ghost layers; combines C35 (which corrections happen) and C36 (what they do). Ghost patches' registers are those of their owners when a synchronisation starts (ghost exchange precedes it)."
  },
  {
   "property": "C64",
   "status": "proved",
   "theorems": [
    "Fclaw.Timer.C64",
    "Fclaw.Timer.C64_unaccounted",
    "Fclaw.Timer.C64_unaccounted_counterexample"
   ],
   "note": "Timer calls of the 2D library functions as nondeterministic programs (all branches and loop counts), clawpack 4.6 solver; user callbacks are assumed not to touch timers. The unaccounted time that is reported is too large by up to 2 s since sums are converted to int (counterexample to exactness)."
  },
  {
   "property": "C65",
   "status": "proved",
   "theorems": [
    "Fclaw.Diag.C65"
   ],
   "note": "The 2-norm is stated under its square root. Cell errors come from a user function and are arbitrary."
  },
  {
   "property": "C66",
   "status": "partial",
   "theorems": [
    "Fclaw.Bc.C66_partial",
    "Fclaw.Bc.C66_frame",
    "Fclaw.Bc.C66_stop",
    "Fclaw.Bc.C66_code_counterexample",
    "Fclaw.Bc.C66_wall_counterexample"
   ],
   "note": "The filling, frame and stop parts are proved for all sizes with at least as many cells as ghost layers, codes 1 and 3 and enough components. The code violates the rest: other codes are skipped silently and leave the ghost cells unset, and a solid wall with too few components writes outside of the array. Rational arithmetic."
  },
  {
   "property": "C67",
   "status": "proved",
   "theorems": [
    "Fclaw.CoarseFine.C67_face",
    "Fclaw.CoarseFine.C67_both",
    "Fclaw.CoarseFine.C67_corner"
   ],
   "note": "Rational arithmetic. Positions are in the reference squares of the blocks."
  },
  {
   "property": "C68",
   "status": "partial",
   "theorems": [
    "Fclaw.CoarseFine.C68_face_partial",
    "Fclaw.CoarseFine.C68_corner_partial",
    "Fclaw.CoarseFine.C68_mean",
    "Fclaw.CoarseFine.C68_bounds",
    "Fclaw.CoarseFine.C68_linear",
    "Fclaw.CoarseFine.C68_tall_counterexample",
    "Fclaw.CoarseFine.C68_odd_counterexample",
    "Fclaw.CoarseFine.C68_single_counterexample"
   ],
   "note": "Proved for even sizes with at least twice as many cells as ghost layers, an even number of ghost layers and, at the left and right faces, as many rows as columns. The code violates the rest: with more rows than columns or an odd number of ghost layers, which the option check accepts, ghost cells are left unset. Rational arithmetic."
  },
  {
   "property": "C69",
   "status": "proved",
   "theorems": [
    "Fclaw.GhostAll.C69_values",
    "Fclaw.GhostAll.C69_unique",
    "Fclaw.GhostAll.C69_distribution",
    "Fclaw.GhostAll.C69_received"
   ],
   "note": "Composes the schedule of the update (C32), the parallel exchange (C41) and the operations on values (C34, C66, C67, C68). Expected is an inductive relation that only looks at interior values and positions. Hypotheses: Sizes (square patches with even sizes and an even number of ghost layers, 2 mbc at most mx; other sizes violate C68), Mesh.Ok (balanced, symmetric mesh), Fits (the positions of patches match the mesh), Received (discharged by C69_received if 4 mbc is at most mx and my). Rational arithmetic instead of doubles."
  },
  {
   "property": "C70",
   "status": "partial",
   "theorems": [
    "Fclaw.Wave.C70_step",
    "Fclaw.Wave.C70_fwave_partial",
    "Fclaw.Wave.C70_local",
    "Fclaw.Wave.C70_constant",
    "Fclaw.Wave.C70_conservation",
    "Fclaw.Wave.C70_feeds_corrections",
    "Fclaw.Wave.C70_bad_capacity",
    "Fclaw.Wave.C70_default_counterexample",
    "Fclaw.Wave.C70_fwave_counterexample"
   ],
   "note": "Proved in full for steps with waves (use_fwaves off) whenever mcapa is 0 or names an auxiliary value and there are at least two ghost layers. The code violates the rest: the default mcapa of -1 is used as an index and the option check accepts it; with f-waves and capacities that differ, right-going transverse waves use the capacity of the wrong cell. Riemann solvers are functions of the states and auxiliary values at the two sides of an edge; rational arithmetic."
  },
  {
   "property": "C71",
   "status": "proved",
   "theorems": [
    "Fclaw.Wave.C71_limiters",
    "Fclaw.Wave.C71_beam_warming_counterexample",
    "Fclaw.Wave.C71_no_new_extrema"
   ],
   "note": "About the step of C70 with the advection Riemann solver. Limiter 5 (Beam-Warming) is not one of those listed and is shown not to have the property. Rational arithmetic."
  },
  {
   "property": "C72",
   "status": "proved",
   "theorems": [
    "Fclaw.Parallel.C72_same",
    "Fclaw.Parallel.C72_run",
    "Fclaw.Parallel.C72_progress",
    "Fclaw.Parallel.C72_exists"
   ],
   "note": "Refinement to a schedule independent of the distribution, then determinism by a lockstep simulation; progress from every reachable state. The model has neither time synchronisation (option time_sync, see C63) nor source terms; real arithmetic. Corners at which three blocks meet are not filled and not read."
  },
  {
   "property": "C73",
   "status": "partial",
   "theorems": [
    "Fclaw.Metric.C73_same_partial",
    "Fclaw.Metric.C73_any_element_partial",
    "Fclaw.Metric.C73_sum",
    "Fclaw.Metric.C73_progress",
    "Fclaw.Metric.C73_total_partial",
    "Fclaw.Metric.C73_counterexample",
    "Fclaw.Metric.C73_extruded_counterexample"
   ],
   "note": "Proved for square patches (mx = my), any even size, any map, any history; additivity of areas built from scratch for all even sizes. False for mx < my (areas averaged from children leave rows unset) and for volumes on extruded meshes: counterexamples proved."
  },
  {
   "property": "C74",
   "status": "partial",
   "theorems": [
    "Fclaw.Repopulate.C74_progress_partial",
    "Fclaw.Repopulate.C74_events_partial",
    "Fclaw.Repopulate.C74_valid_partial",
    "Fclaw.Repopulate.C74_mass_partial",
    "Fclaw.Repopulate.C74_history_partial",
    "Fclaw.Repopulate.C74_same_partial",
    "Fclaw.Repopulate.C74_init_partial"
   ],
   "note": "For square patches (mx = my), even sizes and at least two layers of ghost cells; for others the code is wrong (counterexamples C37_counterexample, C38_one_layer_counterexample, C73_counterexample). 2D clawpatch; rational arithmetic."
  },
  {
   "property": "C75",
   "status": "partial",
   "theorems": [
    "Fclaw.Lifetime.C75_partial",
    "Fclaw.Lifetime.C75_partition_partial",
    "Fclaw.Lifetime.C75_progress_partial"
   ],
   "note": "For square patches (mx = my), even sizes and at least two layers of ghost cells; for others regridding is wrong (counterexamples C37_counterexample, C38_one_layer_counterexample, C73_counterexample). Time steps end with a synchronisation of all levels before regridding or repartitioning (C63 shows what is pending otherwise). 2D clawpatch, wave propagation of the form of C62; rational arithmetic."
  },
  {
   "property": "C76",
   "status": "partial",
   "theorems": [
    "Fclaw.Invariance.C76_same_partial",
    "Fclaw.Invariance.C76_progress_partial",
    "Fclaw.Invariance.C76_refine_partial",
    "Fclaw.Invariance.C76_coarsen_partial",
    "Fclaw.Invariance.C76_tags_counterexample"
   ],
   "note": "Runs of any number of turns on any two numbers of processes give the same meshes, times and solutions, for tags that depend on filled cells; the library's tagging routines have this property except at corners where three blocks meet, where they read ghost cells that nothing fills (counterexample). Missing: time synchronisation, patches that are not square, what p4est makes of the tags (a function of mesh and tags here)."
  },
  {
   "property": "C77",
   "status": "partial",
   "theorems": [
    "Fclaw.Vtk.C77_parallel_partial",
    "Fclaw.Vtk.C77_same_partial",
    "Fclaw.Vtk.C77_failure",
    "Fclaw.Vtk.C77_serial_partial",
    "Fclaw.Vtk.C77_noMpiio_counterexample",
    "Fclaw.Vtk.C77_large_counterexample",
    "Fclaw.Vtk.C77_empty_counterexample"
   ],
   "note": "With MPI I/O the file is exactly header, arrays and footer for every distribution and schedule, and the reader of the format finds every cell; another distribution changes only the array of owners; failures of process 0 reach all. Partial because the code violates the property for patches with 2 GB of data or more (int overflow), and in builds without MPI I/O with several processes (uninitialised file pointer) or with nothing to write."
  },
  {
   "property": "C78",
   "status": "partial",
   "theorems": [
    "Fclaw.Ascii.C78_frame_partial",
    "Fclaw.Ascii.C78_others_partial",
    "Fclaw.Ascii.C78_same_partial",
    "Fclaw.Ascii.C78_completes_partial",
    "Fclaw.Ascii.C78_solution_partial",
    "Fclaw.Ascii.C78_manyPatches_counterexample",
    "Fclaw.Ascii.C78_frameNumber_counterexample",
    "Fclaw.Ascii.C78_prefix_counterexample",
    "Fclaw.Ascii.C78_longPrefix_counterexample",
    "Fclaw.Ascii.C78_components_counterexample",
    "Fclaw.Ascii.C78_solution_counterexample"
   ],
   "note": "For numbers of at most five digits, frames below 10000 and the default prefix the files of every completed frame show the whole forest, for every interleaving, distribution and former contents; other files are untouched, runs always end. Partial because the code violates the property outside of these limits, stops for more than 20 (3D: 5) components, and changes solution values below 1e-99."
  },
  {
   "property": "C79",
   "status": "partial",
   "theorems": [
    "Fclaw.Tikz.C79_mesh_partial",
    "Fclaw.Tikz.C79_serial_partial",
    "Fclaw.Tikz.C79_pieces_partial",
    "Fclaw.Tikz.C79_completes_partial",
    "Fclaw.Tikz.C79_level_counterexample",
    "Fclaw.Tikz.C79_brick_counterexample",
    "Fclaw.Tikz.C79_order_counterexample",
    "Fclaw.Tikz.C79_torn_counterexample"
   ],
   "note": "Proved for every distribution, interleaving and former contents if the text of each process fits in its buffer (or on one process), for one block or bricks whose numbers of blocks are powers of two, and levels up to 15. The code violates the property otherwise: torn lines, misplaced rectangles and undefined behaviour are proved as counterexamples. Formats of reals in the preamble are opaque; multi-block domains that are not bricks are not covered."
  },
  {
   "property": "C80",
   "status": "partial",
   "theorems": [
    "Fclaw.Layout.C80_layout",
    "Fclaw.Layout.C80_history_partial",
    "Fclaw.Layout.C80_two_layers",
    "Fclaw.Layout.C80_counterpart",
    "Fclaw.Layout.C80_coarsen_tags",
    "Fclaw.Layout.C80_refine_tags_partial",
    "Fclaw.Layout.C80_diagnostics",
    "Fclaw.Layout.C80_interpolate_counterexample",
    "Fclaw.Layout.C80_corner_counterexample",
    "Fclaw.Layout.C80_exchange_counterexample",
    "Fclaw.Layout.C80_time_counterexample",
    "Fclaw.Layout.C80_tag_counterexample"
   ],
   "note": "Proved for all histories with two ghost layers, and for any number of layers without the operations that have it built in; coarsening tags and diagnostics without restriction; refinement tags for the first variable or the value criterion. The code violates the rest (counterexamples). Not part of it: corners of pillow spheres, output (C78), the solvers' time step."
  },
  {
   "property": "C81",
   "status": "partial",
   "theorems": [
    "Fclaw.Wave5.C81_step_partial",
    "Fclaw.Wave5.C81_any_corner",
    "Fclaw.Wave5.C81_as_46",
    "Fclaw.Wave5.C81_conservation",
    "Fclaw.Wave5.C81_constant",
    "Fclaw.Wave5.C81_local",
    "Fclaw.Wave5.C81_limiter_six",
    "Fclaw.Wave5.C81_bad_capacity",
    "Fclaw.Wave5.C81_default_counterexample",
    "Fclaw.Wave5.C81_corner_counterexample"
   ],
   "note": "The formula and the comparison with 4.6 are proved for patches at whose corners no three blocks meet, for every valid mcapa and limiters 0 to 5; success, conservation, constants and locality without these restrictions. The code violates the rest: corners of three blocks are not turned for the sweep in y, and the default mcapa of -1 is used as an index. Riemann solvers are functions of the states and auxiliary values at the two sides of an edge; rational arithmetic."
  },
  {
   "property": "C82",
   "status": "partial",
   "theorems": [
    "Fclaw.Geo.C82_merged_nonneg",
    "Fclaw.Geo.C82_merged_velocity",
    "Fclaw.Geo.C82_merged_conserves_partial",
    "Fclaw.Geo.C82_merged_bound",
    "Fclaw.Geo.C82_merged_rest_partial",
    "Fclaw.Geo.C82_average_face",
    "Fclaw.Geo.C82_average_corner",
    "Fclaw.Geo.C82_coarsen",
    "Fclaw.Geo.C82_rest_average_face",
    "Fclaw.Geo.C82_rest_average_corner",
    "Fclaw.Geo.C82_rest_coarsen",
    "Fclaw.Geo.C82_interpolate_face_partial",
    "Fclaw.Geo.C82_interpolate_corner_partial",
    "Fclaw.Geo.C82_refine",
    "Fclaw.Geo.C82_rest_interpolate_face_partial",
    "Fclaw.Geo.C82_rest_interpolate_corner_partial",
    "Fclaw.Geo.C82_rest_refine",
    "Fclaw.Geo.C82_refine_conserves",
    "Fclaw.Geo.C82_round_trip",
    "Fclaw.Geo.C82_start",
    "Fclaw.Geo.C82_before_step",
    "Fclaw.Geo.C82_negative_counterexample",
    "Fclaw.Geo.C82_division_counterexample",
    "Fclaw.Geo.C82_coarse_negative_counterexample",
    "Fclaw.Geo.C82_valley_counterexample",
    "Fclaw.Geo.C82_lake_counterexample",
    "Fclaw.Geo.C82_mass_counterexample",
    "Fclaw.Geo.C82_capacity_counterexample",
    "Fclaw.Geo.C82_momentum_counterexample",
    "Fclaw.Geo.C82_layers_counterexample",
    "Fclaw.Geo.C82_tall_counterexample"
   ],
   "note": "Averaging (faces, corners, coarsening) is proved for all inputs with non-negative depths and positive capacities: values, rest (no capacity function or surface at height zero, or all wet), sign, velocities, conservation where all four cells are wet. Interpolation is proved for two ghost layers and, at left and right faces, square patches; rest for a lake at the sea level. The code violates the rest; counterexamples are proved. Moving ground, the Riemann solver of GeoClaw and topography files are not modelled; rational arithmetic."
  },
  {
   "property": "C83",
   "status": "partial",
   "theorems": [
    "Fclaw.Pillow.C83_neighbor",
    "Fclaw.Pillow.C83_copy",
    "Fclaw.Pillow.C83_average_partial",
    "Fclaw.Pillow.C83_interpolate",
    "Fclaw.Pillow.C83_interpolate_partial",
    "Fclaw.Pillow.C83_interpolate_bounds",
    "Fclaw.Pillow.C83_place_face",
    "Fclaw.Pillow.C83_area_counterexample",
    "Fclaw.Pillow.C83_half_counterexample",
    "Fclaw.Pillow.C83_layers_counterexample",
    "Fclaw.Pillow.C83_place_counterexample"
   ],
   "note": "The neighbour, the exchange between patches of the same size, memory accesses and unchanged elements hold for all inputs. Averaging keeps the mass at three corners; at the lower left one it uses the area of another ghost cell (proved for equal areas, counterexample otherwise). Interpolation takes the right quarter at the lower left corner only (counterexample at another one) and, for up to two layers, stays in range. The values are those of the other block, while the mapping puts these ghost cells on cells of the same block (proved for all inputs)."
  },
  {
   "property": "C84",
   "status": "partial",
   "theorems": [
    "Fclaw.Extrude.C84_layers",
    "Fclaw.Extrude.C84_independent",
    "Fclaw.Extrude.C84_refine_mass",
    "Fclaw.Extrude.C84_coarsen_mass",
    "Fclaw.Extrude.C84_roundtrip_partial",
    "Fclaw.Extrude.C84_roundtrip_counterexample"
   ],
   "note": "The statement on layers is proved for all histories. In it, 2D coarsening takes the sum of four areas for the area of a cell, as the 3D routine does. Coarsening keeps mass and undoes refinement if the volume of a cell is that of the four cells it consists of; otherwise it does not (counterexample)."
  },
  {
   "property": "C85",
   "status": "partial",
   "theorems": [
    "Fclaw.Tag3.C85_refine",
    "Fclaw.Tag3.C85_coarsen",
    "Fclaw.Tag3.C85_exclusive_partial",
    "Fclaw.Tag3.C85_exclusive_counterexample",
    "Fclaw.Tag3.C85_flat"
   ],
   "note": "Tags are characterised completely for all built-in criteria and local user criteria. Refinement also looks at the ghost cells above and below, coarsening does not, so with the criteria value and minmax a patch can be tagged for both (counterexample); exclusiveness is proved for difference and gradient, and for the others if the ghost cells above and below hold no new values."
  },
  {
   "property": "C86",
   "status": "proved",
   "theorems": [
    "Fclaw.Sync5.C86",
    "Fclaw.Sync5.C86_conserved",
    "Fclaw.Sync5.C86_progress",
    "Fclaw.Sync5.C86_step",
    "Fclaw.Sync5.C86_f2c",
    "Fclaw.Sync5.C86_samesize",
    "Fclaw.Sync5.C86_loops46"
   ],
   "note": "2D, exact arithmetic, conservative Riemann solver (hypothesis on fluctuations and flux function), flux function reads only its components. C86_loops46 also removes the simplification in C36 and C63 that storing fluxes and fluctuations is described element by element."
  },
  {
   "property": "C87",
   "status": "partial",
   "theorems": [
    "Fclaw.Elliptic.C87_apply",
    "Fclaw.Elliptic.C87_internal",
    "Fclaw.Elliptic.C87_contract",
    "Fclaw.Elliptic.C87_symmetric",
    "Fclaw.Elliptic.C87_definite",
    "Fclaw.Elliptic.C87_solve",
    "Fclaw.Elliptic.C87_fixpoint",
    "Fclaw.Elliptic.C87_bc",
    "Fclaw.Elliptic.C87_bc_partial",
    "Fclaw.Elliptic.C87_corner_counterexample",
    "Fclaw.Elliptic.C87_neumann_counterexample",
    "Fclaw.Elliptic.C87_beta_counterexample"
   ],
   "note": "Operators and patch problems: proved in full. Inhomogeneous boundary conditions: what the routine does is proved for all inputs (C87_bc); that it is right only if no boundary side follows another one with non-zero values, the operator's factor fits the type of the condition and the coefficient at the boundary is 1 (C87_bc_partial). Otherwise the code is wrong, with witnesses: contributions of a side are subtracted once more for every boundary side that follows, so at every corner of the domain (C87_corner_counterexample); fivePoint and varpoisson treat Neumann sides as Dirichlet sides (C87_neumann_counterexample); the coefficient is left out (C87_beta_counterexample). The ThunderEgg library itself is not modelled."
  },
  {
   "property": "C88",
   "status": "partial",
   "theorems": [
    "Fclaw.Wave3.C88_step",
    "Fclaw.Wave3.C88_method_partial",
    "Fclaw.Wave3.C88_local",
    "Fclaw.Wave3.C88_constant",
    "Fclaw.Wave3.C88_conservation",
    "Fclaw.Wave3.C88_rotation",
    "Fclaw.Wave3.C88_exchange_partial",
    "Fclaw.Wave3.C88_default_order_counterexample",
    "Fclaw.Wave3.C88_capacity_counterexample",
    "Fclaw.Wave3.C88_exchange_counterexample",
    "Fclaw.Wave3.C88_default_capacity_counterexample"
   ],
   "note": "The step is determined for all inputs (C88_step), and locality, constants, conservation, Courant number and cyclic renaming of axes hold always. The method itself and the exchange of y and z hold for all orders but 2 2 2, and without a capacity function if waves are propagated twice; for the others the code violates the property (counterexamples proved)."
  },
  {
   "property": "C89",
   "status": "partial",
   "theorems": [
    "Fclaw.Bc3.C89_partial",
    "Fclaw.Bc3.C89_frame",
    "Fclaw.Bc3.C89_periodic",
    "Fclaw.Bc3.C89_layers",
    "Fclaw.Bc3.C89_stop",
    "Fclaw.Bc3.C89_periodic_counterexample",
    "Fclaw.Bc3.C89_code_counterexample",
    "Fclaw.Bc3.C89_wall_counterexample"
   ],
   "note": "Proved for all usable options; the code does not reject the others (counterexamples proved)."
  },
  {
   "property": "C90",
   "status": "partial",
   "theorems": [
    "Fclaw.Topo.C90_partial",
    "Fclaw.Topo.C90_volume",
    "Fclaw.Topo.C90_stop",
    "Fclaw.Topo.C90_same",
    "Fclaw.Topo.C90_refine",
    "Fclaw.Topo.C90_area",
    "Fclaw.Topo.C90_start",
    "Fclaw.Topo.C90_hole_counterexample"
   ],
   "note": "Real numbers without rounding; the specification is the Lebesgue integral over the cell. Partial because the property fails where data are missing: the check at the start accepts up to one per cent without data, and cells cut by such a hole count it as height zero (C90_hole_counterexample; C90_stop says what is computed in general). Reading of files, moving ground, storm and friction fields are not modelled."
  },
  {
   "property": "C91",
   "status": "partial",
   "theorems": [
    "Fclaw.Mapping.C91_cubedsphere",
    "Fclaw.Mapping.C91_fivepatch",
    "Fclaw.Mapping.C91_squareddisk",
    "Fclaw.Mapping.C91_pillowdisk_partial",
    "Fclaw.Mapping.C91_pillowdisk_counterexample",
    "Fclaw.Mapping.C91_pillowdisk5_partial",
    "Fclaw.Mapping.C91_pillowsphere_partial",
    "Fclaw.Mapping.C91_bilinear",
    "Fclaw.Mapping.C91_periodic",
    "Fclaw.Mapping.C91_rotate",
    "Fclaw.Mapping.C91_scale_shift"
   ],
   "note": "Cubed sphere, square and squared disk of five blocks: one-to-one up to the glued edges, and onto. Pillow disk and sphere: the same except within 1e-10 of the middle of a block, where the code maps different places to one point (counterexample); that the pillow sphere covers the sphere is not proved, points are within 5e-11 of it. Four blocks (bilinear): edges and corners; that the quadrilaterals do not overlap inside is not proved (it needs a centre for which they are convex). Real arithmetic."
  },
  {
   "property": "C92",
   "status": "partial",
   "theorems": [
    "Fclaw.GeoStep.C92_rest_partial",
    "Fclaw.GeoStep.C92_thin_counterexample",
    "Fclaw.GeoStep.C92_default_counterexample"
   ],
   "note": "Proved for every state at rest without layers thinner than the dry tolerance, every order, limiter, transverse and source option, plane and sphere, patches without three-block corners, 0 <= mcapa <= maux. The counterexamples show that thin layers move, and that the default mcapa = -1 reads outside of aux."
  },
  {
   "property": "C93",
   "status": "partial",
   "theorems": [
    "Fclaw.GeoStep.C93_interface",
    "Fclaw.GeoStep.C93_momentum",
    "Fclaw.GeoStep.C93_wall",
    "Fclaw.GeoStep.C93_speeds",
    "Fclaw.GeoStep.C93_periodic",
    "Fclaw.GeoStep.C93_closed_partial",
    "Fclaw.GeoStep.C93_sphere_partial",
    "Fclaw.GeoStep.C93_sphere_counterexample"
   ],
   "note": "Edges, walls and periodic patches in full; closed patches for first order. On the sphere the code violates the property: exact balance with the additional term and a counterexample. Non-negative depths before the step."
  },
  {
   "property": "C94",
   "status": "partial",
   "theorems": [
    "Fclaw.GeoStep.C94_depth",
    "Fclaw.GeoStep.C94_friction",
    "Fclaw.GeoStep.C94_manning",
    "Fclaw.GeoStep.C94_coriolis_partial",
    "Fclaw.GeoStep.C94_coriolis_counterexample",
    "Fclaw.GeoStep.C94_angle"
   ],
   "note": "Depths and friction in full. The Coriolis step does not keep the size of the momentum (counterexample); what it computes exactly is proved."
  },
  {
   "property": "C95",
   "status": "partial",
   "theorems": [
    "Fclaw.GeoTag.C95_touch",
    "Fclaw.GeoTag.C95_refine_partial",
    "Fclaw.GeoTag.C95_coarsen_partial",
    "Fclaw.GeoTag.C95_exclusive_partial",
    "Fclaw.GeoTag.C95_stable_partial",
    "Fclaw.GeoTag.C95_overlap_counterexample",
    "Fclaw.GeoTag.C95_initial_counterexample",
    "Fclaw.GeoTag.C95_speed_counterexample",
    "Fclaw.GeoTag.C95_allow_counterexample",
    "Fclaw.GeoTag.C95_exclusive_counterexample"
   ],
   "note": "Exactly when patches are refined and families coarsened, for all inputs. The code violates the property: of overlapping regions the smallest minimum counts; during initialisation all families are coarsened unless regions forbid it; speed tolerances and allowflag make patches alternate; a patch may be tagged for both if a region touches only its siblings. Counterexamples for each."
  },
  {
   "property": "C96",
   "status": "partial",
   "theorems": [
    "Fclaw.OptArray.C96_ints",
    "Fclaw.OptArray.C96_doubles",
    "Fclaw.OptArray.C96_null",
    "Fclaw.OptArray.C96_comma_counterexample",
    "Fclaw.OptArray.C96_range_counterexample"
   ],
   "note": "Proved for every text that lists decimal numbers (strtol and strtod after the C standard, without hexadecimal numerals, infinity and nan). The code violates the rest: other text and numbers out of range are not reported (counterexamples)."
  },
  {
   "property": "C97",
   "status": "partial",
   "theorems": [
    "Fclaw.App.C97_values_partial",
    "Fclaw.App.C97_exit_partial",
    "Fclaw.App.C97_status",
    "Fclaw.App.C97_calls",
    "Fclaw.App.C97_destroy",
    "Fclaw.App.C97_agree_partial",
    "Fclaw.App.C97_save_counterexample",
    "Fclaw.App.C97_file_counterexample",
    "Fclaw.App.C97_order_counterexample",
    "Fclaw.App.C97_null_counterexample"
   ],
   "note": "libsc is modelled by its documentation. The code violates the property: the return value -1 of sc_options_load is not seen as an error; with several files that name an option the order of a hash table decides; failure to save is an error on the first process only; packages without file and parsing without file to save to, allowed by the documentation, pass NULL where it is not allowed (counterexamples)."
  },
  {
   "property": "C98",
   "status": "proved",
   "theorems": [
    "Fclaw.Edge.C98_edge_point",
    "Fclaw.Edge.C98_edge2_children",
    "Fclaw.Edge.C98_edge_inverse",
    "Fclaw.Edge.C98_ghost_interior",
    "Fclaw.Edge.C98_edge_found",
    "Fclaw.Edge.C98_edge_boundary",
    "Fclaw.Edge.C98_edge_swap"
   ],
   "note": "Blocks that meet in an edge have parallel axes, as the documentation of the transformations requires; arrays of the p8est mesh are inputs with their documented meaning."
  },
  {
   "property": "C99",
   "status": "partial",
   "theorems": [
    "Fclaw.GeoRun.C99_dtopo_step",
    "Fclaw.GeoRun.C99_style1_steps",
    "Fclaw.GeoRun.C99_style1_times",
    "Fclaw.GeoRun.C99_style3_steps",
    "Fclaw.GeoRun.C99_style4_steps",
    "Fclaw.GeoRun.C99_replay",
    "Fclaw.GeoRun.C99_frame_numbers",
    "Fclaw.GeoRun.C99_cfl_partial",
    "Fclaw.GeoRun.C99_interval",
    "Fclaw.GeoRun.C99_cfl_counterexample",
    "Fclaw.GeoRun.C99_instant_counterexample",
    "Fclaw.GeoRun.C99_style4_counterexample"
   ],
   "note": "Violated for CFL control of steps that touch the motion (never retaken, and the small steps inside inflate the next one), for a motion that takes no time (0/0 converted to an integer), and for output style 4, which ignores the motion. All else proved; rational arithmetic instead of floating point."
  },
  {
   "property": "C100",
   "status": "partial",
   "theorems": [
    "Fclaw.Dtopo.C100_displacement",
    "Fclaw.Dtopo.C100_bounds",
    "Fclaw.Dtopo.C100_ground",
    "Fclaw.Dtopo.C100_determined",
    "Fclaw.Dtopo.C100_saved_partial",
    "Fclaw.Dtopo.C100_all_partial",
    "Fclaw.Dtopo.C100_final_partial",
    "Fclaw.Dtopo.C100_saved_counterexample",
    "Fclaw.Dtopo.C100_stale_counterexample"
   ],
   "note": "Violated for files with topography that meet a file with displacements other than the last one only (they are not moved), and for patches if a step ends less than 1% after the end of the motion (they keep the ground of a time before). All else proved; real arithmetic instead of floating point."
  },
  {
   "property": "C101",
   "status": "proved",
   "theorems": [
    "Fclaw.Rays.C101_component",
    "Fclaw.Rays.C101_phases",
    "Fclaw.Rays.C101_rays",
    "Fclaw.Rays.C101_off",
    "Fclaw.Rays.C101_distribution"
   ],
   "note": "The search by p4est is as in C18. The user's callback may set the mark of a ray but not clear it. Rational arithmetic."
  },
  {
   "property": "C102",
   "status": "partial",
   "theorems": [
    "Fclaw.TopoRead.C102_xyz",
    "Fclaw.TopoRead.C102_grid",
    "Fclaw.TopoRead.C102_missing",
    "Fclaw.TopoRead.C102_short_partial",
    "Fclaw.TopoRead.C102_truncated_counterexample"
   ],
   "note": "Violated for files with positions that are cut off: they are accepted and give a ground that is displaced. All else proved. How numbers are found in a line of text and NetCDF files are not modelled; real arithmetic instead of floating point."
  },
  {
   "property": "C103",
   "status": "partial",
   "theorems": [
    "Fclaw.DtopoRead.C103_read",
    "Fclaw.DtopoRead.C103_short_partial",
    "Fclaw.DtopoRead.C103_truncated_counterexample"
   ],
   "note": "Violated for files with times and positions that are cut off: they are accepted, and all displacements of the last time are lost. All else proved. How numbers are found in a line of text is not modelled; real arithmetic instead of floating point."
  },
  {
   "property": "C104",
   "status": "partial",
   "theorems": [
    "Fclaw.TopoStart.C104_read",
    "Fclaw.TopoStart.C104_ground_partial",
    "Fclaw.TopoStart.C104_saved_partial",
    "Fclaw.TopoStart.C104_uncovered_counterexample"
   ],
   "note": "Violated for nodes of files with displacements without topography: their heights are never set, and the check whether the files cover the domain accepts this. The initial heights are kept for files that meet the last file with displacements only (see C100). All else proved; real arithmetic instead of floating point."
  },
  {
   "property": "C105",
   "status": "partial",
   "theorems": [
    "Fclaw.Perturb.C105_file",
    "Fclaw.Perturb.C105_rest",
    "Fclaw.Perturb.C105_partial",
    "Fclaw.Perturb.C105_volume_counterexample",
    "Fclaw.Perturb.C105_negative_counterexample"
   ],
   "note": "Violated for cells that are partly in the area of the file: the mean over the part with data is used for the whole cell, so the added volume depends on the size of the cells; and a trough deeper than the sea gives a negative depth. Missing: on a sphere, cells that are partly in the area of the file (the capacity of the whole cell is used there). All else proved; real arithmetic instead of floating point."
  },
  {
   "property": "C106",
   "status": "partial",
   "theorems": [
    "Fclaw.Friction.C106_partial",
    "Fclaw.Friction.C106_unique",
    "Fclaw.Friction.C106_off",
    "Fclaw.Friction.C106_default_counterexample"
   ],
   "note": "Violated outside of all regions: there the coefficient is zero instead of the constant one, against the order of precedence that the module describes. All else proved for regions with one coefficient per interval and descending depths; real arithmetic instead of floating point."
  },
  {
   "property": "C107",
   "status": "partial",
   "theorems": [
    "Fclaw.GeoGauge.C107_dry",
    "Fclaw.GeoGauge.C107_linear",
    "Fclaw.GeoGauge.C107_range_partial",
    "Fclaw.GeoGauge.C107_surface",
    "Fclaw.GeoGauge.C107_total",
    "Fclaw.GeoGauge.C107_range_counterexample"
   ],
   "note": "Violated for gauges left of or below the centre of their cell: always the cells to the right and above are used, so values are extrapolated and can leave the range of the values around the gauge (a negative depth although there is water everywhere). All else proved, for three equations and at least two layers of ghost cells; real arithmetic instead of floating point."
  },
  {
   "property": "C108",
   "status": "partial",
   "theorems": [
    "Fclaw.GaugeRead.C108_partial",
    "Fclaw.GaugeRead.C108_none",
    "Fclaw.GaugeRead.C108_header",
    "Fclaw.GaugeRead.C108_cut",
    "Fclaw.GaugeRead.C108_long_counterexample"
   ],
   "note": "Violated for lines of 200 characters or more: of the line with an interval for each gauge only 199 characters are used, and gauges beyond get the interval zero without notice (C108_cut states exactly what is read). Proved for all files with shorter lines; numbers are not rounded."
  },
  {
   "property": "C109",
   "status": "proved",
   "theorems": [
    "Fclaw.TeVector.C109_get",
    "Fclaw.TeVector.C109_store",
    "Fclaw.TeVector.C109_again",
    "Fclaw.TeVector.C109_same"
   ],
   "note": "How ThunderEgg (not part of ForestClaw) finds an element of a vector from starts and strides is taken from its documentation. Values of any type, so rounding plays no role."
  },
  {
   "property": "C110",
   "status": "partial",
   "theorems": [
    "Fclaw.CellAve.C110_whole",
    "Fclaw.CellAve.C110_zeroin",
    "Fclaw.CellAve.C110_range_partial",
    "Fclaw.CellAve.C110_both",
    "Fclaw.CellAve.C110_line",
    "Fclaw.CellAve.C110_range_counterexample"
   ],
   "note": "Violated if a zero is within the tolerance of a corner of the cell: zeroin then adds half of the length of the interval instead of subtracting the tolerance, so it can leave the edge, and the fraction can be more than 1 (9/8 for a polynomial). For a straight line whose crossings are found exactly, the fraction is the exact area (integral) of the left side. The bounds are proved for points that are on the edges; not proved: that the search ends. Arithmetic of an ordered field instead of floating point."
  },
  {
   "property": "C111",
   "status": "partial",
   "theorems": [
    "Fclaw.HeaderText.C111_values_partial",
    "Fclaw.HeaderText.C111_order",
    "Fclaw.HeaderText.C111_head_partial",
    "Fclaw.HeaderText.C111_tab_counterexample",
    "Fclaw.HeaderText.C111_ten_counterexample",
    "Fclaw.HeaderText.C111_long_counterexample"
   ],
   "note": "Violated if a tab is between a name and its value (both are one word, and the value is used without having been set), for ten words in a line (the run stops, although ten values are allowed) and for lines with more than 80 characters. Proved for all other lines. What list-directed input makes of a single word is a parameter."
  },
  {
   "property": "C112",
   "status": "proved",
   "theorems": [
    "Fclaw.GeoBc.C112_fill",
    "Fclaw.GeoBc.C112_frame",
    "Fclaw.GeoBc.C112_rest",
    "Fclaw.GeoBc.C112_stop"
   ],
   "note": "Rational numbers instead of floating point."
  },
  {
   "property": "C113",
   "status": "partial",
   "theorems": [
    "Fclaw.GeoAscii.C113_patch_partial",
    "Fclaw.GeoAscii.C113_after",
    "Fclaw.GeoAscii.C113_stop",
    "Fclaw.GeoAscii.C113_files_partial",
    "Fclaw.GeoAscii.C113_names_partial",
    "Fclaw.GeoAscii.C113_five_counterexample",
    "Fclaw.GeoAscii.C113_names_counterexample"
   ],
   "note": "False with five equations: the format has five columns but six values are written, so that each cell takes two lines although the run does not stop (C113_five_counterexample); and from frame 10000 on, which replaces the files of frame 0 (C113_names_counterexample). Proved for one to four equations and for the first 10000 frames."
  },
  {
   "property": "C114",
   "status": "partial",
   "theorems": [
    "Fclaw.AuxPack.C114_roundtrip_partial",
    "Fclaw.AuxPack.C114_one_counterexample",
    "Fclaw.AuxPack.C114_more_counterexample"
   ],
   "note": "Proved for two layers of ghost cells and at least eight cells in each direction. The Fortran routine sets nghost = 2 whatever mbc is: with mbc = 1 it accesses memory outside of the array (C114_one_counterexample), with mbc of 3 or more the sizes do not agree and the program ends (C114_more_counterexample). Patches with fewer than eight cells are missing, see C41."
  },
  {
   "property": "C115",
   "status": "partial",
   "theorems": [
    "Fclaw.GeoDiag.C115_total_partial",
    "Fclaw.GeoDiag.C115_value_counterexample",
    "Fclaw.GeoDiag.C115_index_counterexample"
   ],
   "note": "Proved without mappings. With a mapping the check uses the local variable c_kahan, which has no value (the argument of this name is missing in the routine), for every patch with cells (C115_value_counterexample); and it uses q(i,j,m) in place of q(m,i,j), which is outside of the array if there are more cells in a row than components (C115_index_counterexample). Rational numbers instead of floating point."
  },
  {
   "property": "C116",
   "status": "partial",
   "theorems": [
    "Fclaw.DataFile.C116_ready_partial",
    "Fclaw.DataFile.C116_stop",
    "Fclaw.DataFile.C116_lost_counterexample",
    "Fclaw.DataFile.C116_many_counterexample"
   ],
   "note": "Proved for files with at most 1001 comment lines and a blank line behind them, as Clawpack writes them. The routine has to read the first line behind the comments in order to recognise it, and the rewind that its description promises is commented out: without a blank line the first line of data is lost (C116_lost_counterexample). Behind 1002 comment lines, comments are taken for data (C116_many_counterexample)."
  },
  {
   "property": "C117",
   "status": "partial",
   "theorems": [
    "Fclaw.RegionRead.C117_regions_partial",
    "Fclaw.RegionRead.C117_short",
    "Fclaw.RegionRead.C117_empty",
    "Fclaw.RegionRead.C117_hundred_counterexample"
   ],
   "note": "Proved for up to 99 regions. Their number is read with the format (i2): of a number with three digits only the first two are read, and all further regions are ignored without an error (C117_hundred_counterexample). The parsing of the eight numbers of a region is a given function; a region lies on one line."
  },
  {
   "property": "C118",
   "status": "partial",
   "theorems": [
    "Fclaw.ValueCount.C118_count_partial",
    "Fclaw.ValueCount.C118_blank_counterexample",
    "Fclaw.ValueCount.C118_long_counterexample"
   ],
   "note": "Proved for lines of at most 128 characters that begin with their first value. In a line that begins with a blank the routine uses a variable that has no value (C118_blank_counterexample). If the values take 128 characters or more, one value is counted (C118_long_counterexample)."
  },
  {
   "property": "C119",
   "status": "proved",
   "theorems": [
    "Fclaw.GeoParam.C119_parameters"
   ],
   "note": "Files with at least one density and, with friction, at least one coefficient, laid out as Clawpack writes them. Lines are lists of tokens: the conversion of digits is not modelled. That the number of densities is counted as assumed here is C118, that the file is ready for reading behind its comments is C116."
  }
 ]
}