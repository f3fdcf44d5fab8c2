{"id": "C01", "title": "Packing primitives are lossless", "statement": "Packing an int, size_t, double or (possibly NULL) C string into a buffer and unpacking it from the start of that buffer returns the same value, leaves everything after it untouched, reads exactly as many bytes as were written, and for strings that number equals what fclaw_packsize_string announced.", "quantifier": "every value, every string without interior NUL, every NULL, any bytes following in the buffer", "why_tests_cant": "Strings and buffers are unbounded; a test only samples lengths and contents.", "anchors": ["src/fclaw_packing.c: fclaw_pack_string, fclaw_unpack_string, fclaw_packsize_string, fclaw_pack_int, fclaw_pack_size_t, fclaw_pack_double", "src/fclaw_packing.h: FCLAW_PACK, FCLAW_UNPACK"]}
{"id": "C02", "title": "A global context survives pack/unpack", "statement": "fclaw2d_global_unpack applied to what fclaw2d_global_pack wrote restores the current time, the time step and, for every key, the stored options; it consumes exactly fclaw2d_global_packsize bytes. This holds for any set of option packages whose own pack/unpack/size functions are lossless, and for any order in which the option map is iterated.", "quantifier": "every time/dt value, every finite set of option packages with keys of at most 981 characters (longer keys overrun a message buffer), every iteration order", "why_tests_cant": "The set of packages and the hash-map iteration order are not enumerable by tests.", "anchors": ["src/fclaw2d_global.c: fclaw2d_global_pack, fclaw2d_global_packsize, fclaw2d_global_unpack"]}
{"id": "C03", "title": "The core option structure survives pack/unpack", "statement": "Unpacking a packed fclaw_options structure yields a structure whose every field, including every string and array it refers to, has the packed value and is usable by the receiver.", "quantifier": "every option structure", "why_tests_cant": "A pointer that is not re-created on unpack still compares equal inside one test process.", "anchors": ["src/fclaw_options.c: options_pack, options_unpack, options_packsize", "src/fclaw_options.h: fclaw_options_t"]}
{"id": "C04", "title": "The pointer map is a last-writer-wins map that destroys every owned value exactly once", "statement": "After any sequence of inserts, fclaw_pointer_map_get returns the pointer last inserted for that key or NULL, the size is the number of distinct keys, iteration visits each key once, and by the time the map is destroyed the destructor of every inserted (pointer, destructor) pair has run exactly once: at the moment it is overwritten or at destruction.", "quantifier": "every sequence of insert operations, every hash iteration order", "why_tests_cant": "Double frees and leaks depend on the whole history of overwrites.", "anchors": ["src/fclaw_pointer_map.c: fclaw_pointer_map_insert, fclaw_pointer_map_get, fclaw_pointer_map_destroy, fclaw_pointer_map_size, fclaw_pointer_map_iterate"]}
{"id": "C05", "title": "Integer power is exact", "statement": "pow_int(base, exp) returns base to the power exp whenever that value fits in an int.", "quantifier": "every base and every non-negative exponent", "why_tests_cant": "The intermediate squarings can overflow although the result fits; only a proof over all arguments finds the exact safe range.", "anchors": ["src/fclaw_math.c: pow_int"]}
{"id": "C06", "title": "A new domain's bookkeeping agrees with its patches", "statement": "In a freshly built domain the patches of each block are numbered consecutively, block offsets are the running sums of block sizes, each per-level list of a block contains exactly that block's patches of that level once and in order, and the block, process and global minimum and maximum levels are the true ones.", "quantifier": "every forest (any number of blocks, patches and levels) and every distribution over processes", "why_tests_cant": "Forest shapes are unbounded.", "anchors": ["src/fclaw2d_convenience.c: fclaw2d_domain_new"]}
{"id": "C07", "title": "Domain iterators visit exactly the right patches exactly once", "statement": "fclaw2d_domain_iterate_patches visits every local patch once in order; iterate_level visits exactly the local patches of that level once in order; iterate_families visits exactly the complete, locally available sibling groups once, and no patch belongs to two visited families.", "quantifier": "every domain and every level", "why_tests_cant": "Correctness over all forests and all families cannot be sampled.", "anchors": ["src/forestclaw2d.c: fclaw2d_domain_iterate_level, fclaw2d_domain_iterate_patches, fclaw2d_domain_iterate_families"]}
{"id": "C08", "title": "Old/new patch matching after refinement and coarsening is exact", "statement": "When the new forest arises from the old one by keeping some patches, splitting some into their children and merging some complete families, fclaw2d_domain_iterate_adapted makes exactly one callback per such event, in order, with the right patch indices on both sides; every old and every new local patch is covered exactly once.", "quantifier": "every old forest and every legal one-level adaptation of it, any number of blocks", "why_tests_cant": "All adaptation patterns over unbounded forests.", "anchors": ["src/forestclaw2d.c: fclaw2d_domain_iterate_adapted"]}
{"id": "C09", "title": "Repartitioning calls back once per new patch and pairs retained patches with themselves", "statement": "fclaw2d_domain_iterate_partitioned makes exactly one callback per new local patch, in order; it passes the old patch exactly when the patch was local before, and then the old and new patch are the same global patch; every retained old patch is passed exactly once.", "quantifier": "every global forest, every old and new contiguous distribution, every process, blocks of any size (including empty)", "why_tests_cant": "The interval arithmetic has many overlap cases per block and per process.", "anchors": ["src/forestclaw2d.c: fclaw2d_domain_iterate_partitioned", "src/fclaw2d_convenience.c: fclaw2d_domain_partition"]}
{"id": "C10", "title": "Repartitioning moves every patch's data to its new owner unchanged", "statement": "After a partition step every patch, wherever it now lives, carries the user data it carried before, for patches that stayed (pointer moved) and for patches that migrated (packed, sent, unpacked); no other patch's data is lost or duplicated.", "quantifier": "every forest, number of processes, old and new distribution", "why_tests_cant": "Needs all distributions and all processes at once.", "anchors": ["src/fclaw2d_partition.c: fclaw2d_partition_domain, cb_partition_pack, cb_partition_transfer", "src/forestclaw2d.c: fclaw2d_domain_allocate_before_partition, fclaw2d_domain_retrieve_after_partition"]}
{"id": "C11", "title": "Ghost exchange delivers each remote patch's own data", "statement": "After a ghost exchange restricted to levels [min,max], every ghost patch of a level in that range holds exactly the bytes its owning process packed for that patch; exchange buffers are set up so that no two ghost slots overlap.", "quantifier": "every forest, distribution, level range and patch data", "why_tests_cant": "The mirror/ghost index bookkeeping must be right for all distributions.", "anchors": ["src/forestclaw2d.c: fclaw2d_domain_allocate_before_exchange, fclaw2d_domain_ghost_exchange_begin, fclaw2d_domain_ghost_exchange_end", "src/fclaw2d_exchange.c"]}
{"id": "C12", "title": "Face neighbour queries decode the mesh correctly and the swap is an involution", "statement": "For every mesh encoding, the face neighbour query reports boundary, half-, same- or double-size with the neighbour's process, block, patch and face (with orientation) that the encoding stands for; swapping face and remote face twice is the identity on all valid pairs, in 2D and 3D.", "quantifier": "every valid encoding, face and orientation", "why_tests_cant": "Encodings depend on sizes that are not bounded.", "anchors": ["src/forestclaw2d.c: fclaw2d_patch_face_neighbors, fclaw2d_patch_encode_neighbor, fclaw2d_patch_face_swap"]}
{"id": "C13", "title": "Same-size face index transformation is geometrically right and invertible", "statement": "fclaw2d_patch_transform_face (2D) and fclaw3d_patch_transform_face (3D) send the index of a cell, seen from one patch, to the index of the same physical cell seen from the same-size face neighbour, for every block gluing; applying the reverse transformation returns the original index; ghost cells beyond the shared face land on interior cells next to the neighbour's face.", "quantifier": "every level, patch position, patch size, index base, cell index and every valid face transformation", "why_tests_cant": "Patch positions, sizes and orientations range over an unbounded set; rounding of half-integers must never be off by one.", "anchors": ["src/forestclaw2d.c: fclaw2d_patch_transform_face", "src/forestclaw3d.c"]}
{"id": "C14", "title": "Half-size face index transformation hits exactly the children of the coarse cell", "statement": "The 4 (2D) or 8 (3D) fine-cell indices returned by fclaw2d_patch_transform_face2 / fclaw3d_patch_transform_face2 are exactly the cells of the fine neighbour's index space that tile the image of the given coarse cell, each once, and entry k is the image of child k of the coarse cell.", "quantifier": "every level, position, patch size, base, cell index and valid face transformation", "why_tests_cant": "As C13, plus the permutation of the children under reflection and axis exchange.", "anchors": ["src/forestclaw2d.c: fclaw2d_patch_transform_face2", "src/forestclaw3d.c"]}
{"id": "C15", "title": "Corner index transformations are geometrically right", "statement": "fclaw2d_patch_transform_corner and transform_corner2 send a cell index to the index of the same physical cell (respectively to its child cells) in the corner neighbour, within a block and across a block corner.", "quantifier": "every level, position, patch size, base, corner and cell index", "why_tests_cant": "Unbounded positions and sizes.", "anchors": ["src/forestclaw2d.c: fclaw2d_patch_transform_corner, fclaw2d_patch_transform_corner2"]}
{"id": "C16", "title": "Indirect neighbour queries agree with the owner's direct query", "statement": "For a ghost patch, the indirect face and corner neighbour queries return what the ghost's owner sees, translated into the local process's ghost numbering, when the neighbour belongs to a third process (neither the ghost's owner nor the caller) and is in the caller's ghost layer; other neighbours are reported as -1, and if none is left as a boundary.", "quantifier": "every mesh, number of processes and ghost layer", "why_tests_cant": "A two-process wire encoding with packed flag bits; all combinations cannot be run.", "anchors": ["src/forestclaw2d.c: fclaw2d_domain_indirect_begin, fclaw2d_domain_indirect_end, fclaw2d_domain_indirect_face_neighbors, fclaw2d_domain_indirect_corner_neighbor"]}
{"id": "C17", "title": "Point search assigns every found point to exactly one patch on exactly one process", "statement": "After fclaw2d_domain_search_points a point contained in some patch is reported by exactly one process: the lowest-ranked one holding a containing patch, with the smallest such patch number; a point in no patch is reported by none.", "quantifier": "every distribution, every set of points including points on patch and process boundaries", "why_tests_cant": "Ties on shared boundaries across any number of processes.", "anchors": ["src/fclaw2d_convenience.c: fclaw2d_domain_search_points, search_point_fn"]}
{"id": "C18", "title": "Ray integrals are the sum over all leaf patches that the ray hits", "statement": "fclaw2d_domain_integrate_rays returns, on every process, the sum of the leaf callback's integrals over all patches of the whole forest, whatever the tree is pruned on, provided that the callback reports no hit on an ancestor only if it contributes nothing on its descendants.", "quantifier": "every forest, distribution, set of rays and callback", "why_tests_cant": "Pruned tree search over unbounded trees.", "anchors": ["src/fclaw2d_convenience.c: fclaw2d_domain_integrate_rays, integrate_ray_fn"]}
{"id": "C19", "title": "Overlap exchange returns every query point answered, in place and independent of message order", "statement": "fclaw2d_overlap_exchange leaves each query point of the consumer in its original position with the contributions of all patches of the producer process chosen for it (the lowest rank whose part of the partition the callback accepts), for any message arrival order; points found on no process are returned untouched.", "quantifier": "every number of processes, set of query points, assignment to processes and arrival order", "why_tests_cant": "Arrival orders are scheduler dependent.", "anchors": ["src/fclaw2d_convenience.c: fclaw2d_overlap_exchange, consumer_add, consumer_interpolate"]}
{"id": "C20", "title": "Serialized sections run one process at a time in rank order", "statement": "In each serialized section (the k-th enter/leave pair on every process) at most one process is inside at any time and processes enter in increasing rank order, for any schedule and any number of sections; no schedule deadlocks, whether sends are stored or wait for their receive.", "quantifier": "every number of processes and every interleaving", "why_tests_cant": "Schedules cannot be enumerated by tests.", "anchors": ["src/forestclaw2d.c: fclaw2d_domain_serialization_enter, fclaw2d_domain_serialization_leave"]}
{"id": "C21", "title": "Domain life cycle protocol", "statement": "Along every legal sequence of new, adapt, partition, complete and destroy calls, the just-adapted and just-partitioned flags follow the documented order (partition only directly after a successful adapt, complete only after a successful partition), at any time exactly one live domain owns the underlying p4est wrap, and it is destroyed exactly once.", "quantifier": "every call sequence and every adapt/partition outcome", "why_tests_cant": "Histories of calls with data dependent outcomes.", "anchors": ["src/fclaw2d_convenience.c: fclaw2d_domain_adapt, fclaw2d_domain_partition, fclaw2d_domain_complete, fclaw2d_domain_destroy, fclaw2d_domain_new"]}
{"id": "C22", "title": "Smooth refinement gives a result independent of patch order and distribution", "statement": "With smooth refinement enabled every patch is finally marked for coarsening, nothing or refinement according to the maximum of its own requested target level and the requested target levels of its face and corner neighbours at or above the smoothing level; the outcome does not depend on the order of patches or on how they are distributed.", "quantifier": "every forest, set of requests and distribution", "why_tests_cant": "Order and distribution independence.", "anchors": ["src/fclaw2d_convenience.c: fclaw2d_domain_adapt, tlevel_callback, fclaw2d_domain_copy_parameters", "src/forestclaw2d.c: fclaw2d_patch_mark_refine, fclaw2d_patch_mark_coarsen"]}
{"id": "C23", "title": "Regridding respects the level bounds", "statement": "Whatever the user's tagging functions answer, tagging never requests a level below the minimum or above the maximum level set in the options, refinement overrides coarsening of the same patch, and only complete families are requested for coarsening.", "quantifier": "every forest with levels within bounds, every tagging function", "why_tests_cant": "Arbitrary user callbacks.", "anchors": ["src/fclaw2d_regrid.c: cb_fclaw2d_regrid_tag4refinement, cb_regrid_tag4coarsening", "src/forestclaw2d.c: fclaw2d_patch_mark_refine, fclaw2d_patch_mark_coarsen"]}
{"id": "C24", "title": "Subcycling advances every level by exactly the global step", "statement": "In fclaw2d_advance_all_levels with subcycling, each level l between the coarsest and finest level takes exactly 2^(l-minlevel) steps of size dt/2^(l-minlevel), so every level ends exactly at t+dt; the recursion and every inner loop terminate.", "quantifier": "every minimum and maximum level, every local coarsest level, every dt", "why_tests_cant": "Recursion depth equals the number of levels.", "anchors": ["src/fclaw2d_advance.c: initialize_timestep_counters, advance_level, advance_all_levels, timeinterp_level"]}
{"id": "C25", "title": "Subcycling synchronises at the right times with the right interpolation weight", "statement": "Whenever ghost cells are exchanged inside a subcycled step, all levels that take part are at the same time; the one coarser level used through time interpolation has a previous and a current state that bracket this time and the weight used is exactly the corresponding fraction (one half).", "quantifier": "every number of levels and every intermediate fine step", "why_tests_cant": "Depends on the whole nested schedule.", "anchors": ["src/fclaw2d_advance.c: advance_level, timeinterp_level, advance_all_levels", "src/fclaw2d_timeinterp.c"]}
{"id": "C26", "title": "Coarse data is available before finer levels need it", "statement": "In the schedule of a global step, when a level takes a step starting at time s, every coarser level has either already reached a time of at least s plus that step, or is at exactly s (and takes its own step next): no level ever advances from data of a coarser level that lags behind.", "quantifier": "every number of levels and every step of the schedule", "why_tests_cant": "Depends on the nested recursion order.", "anchors": ["src/fclaw2d_advance.c: advance_level, advance_all_levels"]}
{"id": "C27", "title": "Without subcycling all levels march in lock step", "statement": "With subcycling switched off every level takes the same number of steps of the same size and ends exactly at t+dt; with one-step advance this is a single step of size dt.", "quantifier": "every number of levels, both settings of advance-one-step", "why_tests_cant": "All level counts.", "anchors": ["src/fclaw2d_advance.c: initialize_timestep_counters, advance_all_levels"]}
{"id": "C28", "title": "Output style 1 writes its frames at the requested times", "statement": "With a variable time step, output style 1 writes nout frames after the initial one, frame n exactly at n*tfinal/nout; the simulation time never moves backwards and never passes a pending output time.", "quantifier": "every sequence of CFL numbers the solver may report, every nout and tfinal", "why_tests_cant": "The step sequence is driven by solver feedback.", "anchors": ["src/fclaw2d_run.c: outstyle_1"]}
{"id": "C29", "title": "A rejected time step leaves no trace", "statement": "When a step is rejected because of the CFL limit and restored, the solution data, the current time and the step counters are what they were before the step, however often it happens in a row.", "quantifier": "every solution state, every sequence of rejections", "why_tests_cant": "Histories of repeated rejections.", "anchors": ["src/fclaw2d_run.c: restore_time_step, save_time_step, outstyle_1, outstyle_3", "src/patches/clawpatch/fclaw2d_clawpatch.cpp: clawpatch_save_step, clawpatch_restore_step"]}
{"id": "C30", "title": "Output styles 3 and 4 write a frame every nstep steps", "statement": "Output style 3 accepts exactly nout steps and output style 4 performs exactly nout steps; a frame is written after every nstep-th accepted step and at no other time (for unsubcycled single steps nout and nstep count coarse steps and are multiplied by 2^(maxlevel-minlevel) unless outstyle-uses-maxlevel is set); regridding happens exactly after accepted steps whose number is a multiple of the regrid interval.", "quantifier": "every nout, nstep, regrid interval and every accept/reject sequence", "why_tests_cant": "Loop histories driven by solver feedback.", "anchors": ["src/fclaw2d_run.c: outstyle_3, outstyle_4"]}
{"id": "C31", "title": "Patch data is created and destroyed in balance", "statement": "Across any history of initialisation, regridding, partitioning and finalisation each patch data structure that is created is deleted exactly once, patch data is never shared by two live domains, and at domain reset the numbers of set and deleted patches agree.", "quantifier": "every history of regrid and partition steps", "why_tests_cant": "Leaks and double deletes depend on the history.", "anchors": ["src/fclaw2d_patch.c: fclaw2d_patch_data_delete, patch_data_new", "src/fclaw2d_regrid.c: cb_fclaw2d_regrid_repopulate", "src/fclaw2d_partition.c: cb_partition_transfer", "src/fclaw2d_domain.c: fclaw2d_domain_reset"]}
{"id": "C32", "title": "Ghost filling leaves nothing stale and interpolates from filled data", "statement": "After a full ghost update every ghost cell region that has a source (a neighbour on the levels of the update, or a physical boundary) of every local patch holds values derived, within this update, only from interior values of the right time; averaging and interpolation never read a region that has not been filled, and after the exchange no copying, averaging or interpolation does.", "quantifier": "every balanced mesh and distribution to processes, every range of levels, both values of time interpolation, interior and parallel-boundary patches", "why_tests_cant": "A global ordering property over all levels and processes.", "anchors": ["src/fclaw2d_ghost_fill.c: fclaw2d_ghost_update, fclaw2d_ghost_update_async, copy2ghost, average2ghost, interpolate2ghost", "src/fclaw2d_face_neighbors.c: cb_face_fill, fclaw2d_face_neighbor_ghost", "src/fclaw2d_corner_neighbors.c: cb_corner_fill", "src/fclaw2d_exchange.c"]}
{"id": "C33", "title": "Every patch is treated once per ghost filling pass", "statement": "The interior-only and parallel-boundary-only passes together treat every local patch on the levels of the update exactly once for each kind of ghost operation (copying; averaging and interpolation as the coarser patch; interpolation as the finer patch) if it is at a coarse-fine interface where that matters; before sending exactly the patches at the parallel boundary are treated; patches of other processes never are.", "quantifier": "every domain, level range and distribution to processes", "why_tests_cant": "All distributions of patches to processes.", "anchors": ["src/fclaw2d_ghost_fill.c: cb_parallel_wrap, cb_interface_wrap, fclaw2d_ghost_update_async"]}
{"id": "C34", "title": "Ghost cells of a uniformly refined domain hold the neighbour's interior values", "statement": "After a ghost update of a domain with a single level, each ghost cell next to a face or corner neighbour equals the interior cell of that neighbour at the same physical location.", "quantifier": "every grid size, number of ghost cells, patch arrangement and solution", "why_tests_cant": "All grid shapes and solutions.", "anchors": ["src/fclaw2d_face_neighbors.c: cb_face_fill", "src/fclaw2d_corner_neighbors.c: cb_corner_fill", "src/patches/clawpatch/fort_4.6/fclaw2d_clawpatch46_copy.f"]}
{"id": "C35", "title": "Conservative corrections are applied once and registers are cleared", "statement": "A time synchronisation of the levels from min on corrects every participating patch exactly once with each neighbour of the same size and exactly once with each of the two smaller neighbours at a face, and never with a larger one; each correction uses the register contents from before the synchronisation (no register is cleared before it is used), on every process and also for the copies of remote patches. Afterwards the registers are zero at every face where all adjacent patches took part and at the physical boundary, and unchanged elsewhere (faces to coarser patches below level min, still needed later).", "quantifier": "every forest and level range", "why_tests_cant": "Each face kind is cleared by a different rule; all mixtures of neighbour types matter.", "anchors": ["src/fclaw2d_time_sync.c", "src/patches/clawpatch/fclaw2d_clawpatch_conservation.c: fclaw2d_clawpatch_time_sync_reset"]}
{"id": "C36", "title": "Flux correction restores conservation at coarse-fine interfaces", "statement": "If fine and coarse updates are in wave-propagation form, adding the fine-to-coarse correction changes the coarse mass so that the net mass change across the interface equals what a single common flux would give: mass lost on one side is gained on the other. The same holds between patches of equal size, each of which makes half of the correction. Nothing else changes.", "quantifier": "every conservative Riemann solver, solution, cell areas, number and lengths of the steps on either side, ghost values, face orientation, and even patch size with at least two layers of ghost cells", "why_tests_cant": "An algebraic identity over all real inputs.", "anchors": ["src/solvers/fc2d_clawpack4.6/fortran_source/clawpack46_time_sync.f: clawpack46_fort_time_sync_f2c, clawpack46_time_sync_store_flux, clawpack46_time_sync_accumulate_waves"]}
{"id": "C37", "title": "Coarsening conserves mass", "statement": "Averaging four sibling patches onto their parent preserves the total mass of every component, on Cartesian and on mapped grids, and sets every interior cell of the parent.", "quantifier": "every even grid size mx, my, every solution and every cell area", "why_tests_cant": "All sizes and solutions.", "anchors": ["src/patches/clawpatch/fort_4.6/fclaw2d_clawpatch46_average.f: fclaw2d_clawpatch46_fort_average2coarse", "src/patches/clawpatch/fclaw2d_clawpatch.cpp: clawpatch_average2coarse"]}
{"id": "C38", "title": "Refinement conserves mass", "statement": "Interpolating a patch onto its four children preserves the mass of every coarse cell in every component, on Cartesian and (through the capacity correction) on mapped grids, and sets every interior cell of each child.", "quantifier": "every even grid size with at least two layers of ghost cells, every solution, every positive cell areas", "why_tests_cant": "All sizes and solutions.", "anchors": ["src/patches/clawpatch/fort_4.6/fclaw2d_clawpatch46_interpolate.f: fclaw2d_clawpatch46_fort_interpolate2fine, fclaw2d_clawpatch46_fort_fixcapaq2"]}
{"id": "C39", "title": "Interpolation creates no new extrema and is exact on constants", "statement": "Each interpolated fine value lies between the minimum and the maximum of the coarse cell and its four face neighbours; constant and, away from sign changes, linear data are reproduced exactly.", "quantifier": "every coarse data", "why_tests_cant": "A statement over all real inputs of the limiter.", "anchors": ["src/patches/clawpatch/fclaw2d_clawpatch_utils.f: fclaw2d_clawpatch_compute_slopes", "src/patches/clawpatch/fort_4.6/fclaw2d_clawpatch46_interpolate.f"]}
{"id": "C40", "title": "Refining and then coarsening a patch returns the original patch", "statement": "Interpolating a patch to its four children and averaging the children back gives the original interior values.", "quantifier": "every even square grid size and solution", "why_tests_cant": "All sizes and solutions.", "anchors": ["src/patches/clawpatch/fort_4.6/fclaw2d_clawpatch46_interpolate.f", "src/patches/clawpatch/fort_4.6/fclaw2d_clawpatch46_average.f"]}
{"id": "C41", "title": "Packing a patch for remote ghost exchange sends all data neighbours need", "statement": "For every grid size the option check accepts, packing a patch and unpacking it into a ghost patch restores all ghost cells and the 2*mbc outermost interior layers of every component (and the area and flux registers, if requested), and the number of packed values is the announced size.", "quantifier": "every accepted mx, my, mbc, meqn and data", "why_tests_cant": "Sizes are unbounded; the loops overlap or leave holes for small grids.", "anchors": ["src/patches/clawpatch/fort_4.6/fclaw2d_clawpatch46_local_ghost_pack.f", "src/patches/clawpatch/fclaw2d_clawpatch.cpp: clawpatch_ghost_pack_elems, clawpatch_ghost_comm", "src/patches/clawpatch/fclaw2d_clawpatch_conservation.c: fclaw2d_clawpatch_time_sync_pack_registers"]}
{"id": "C42", "title": "Time interpolation is linear on exactly the cells it is needed on", "statement": "The time-interpolated patch holds (1-alpha)*old+alpha*new on the outermost mbc interior layers, each computed, and the size check passes exactly when the announced and computed sizes agree.", "quantifier": "every grid size with 2*mbc<=mx,my, every data and alpha", "why_tests_cant": "All sizes.", "anchors": ["src/patches/clawpatch/fort_4.6/fclaw2d_clawpatch46_timeinterp.f", "src/patches/clawpatch/fclaw2d_clawpatch.cpp: clawpatch_setup_timeinterp"]}
{"id": "C43", "title": "Grid data containers copy by value", "statement": "Assigning one grid data container to another yields an independent container with the same box, number of fields and values; copying to memory and back restores all values.", "quantifier": "every box, field count and previous state of the target", "why_tests_cant": "Allocation decisions depend on the target's history.", "anchors": ["src/fclaw2d_farraybox.cpp: FArrayBox::operator=, set_dataPtr, define, copyToMemory, copyFromMemory", "src/patches/clawpatch/fclaw2d_clawpatch.cpp: clawpatch_partition_pack, clawpatch_partition_unpack"]}
{"id": "C44", "title": "Timers accumulate exactly the time between matching start and stop", "statement": "For any sequence of start and stop calls a timer's cumulative value is the sum of the lengths of its completed intervals; starting a running timer or stopping a stopped one aborts.", "quantifier": "every call sequence and clock", "why_tests_cant": "Histories.", "anchors": ["src/fclaw_timer.c: fclaw2d_timer_init, fclaw2d_timer_start, fclaw2d_timer_stop"]}
{"id": "C45", "title": "Every gauge sample is written exactly once and in order", "statement": "Whatever the sequence of updates and relocations, after finalisation the samples written for a gauge over all processes are exactly those taken, each once, in order of time, and the buffer never overflows.", "quantifier": "every buffer length >= 1, every history of updates and patch relocations between processes", "why_tests_cant": "Histories with moving owners.", "anchors": ["src/fclaw_gauges.c: gauge_update, fclaw_locate_gauges, gauge_finalize"]}
{"id": "C46", "title": "Gauge sampling times respect the gauge's window and spacing", "statement": "A gauge is sampled only within its time window, consecutive samples are at least the minimum increment apart, and all processes agree on when it was last sampled.", "quantifier": "every sequence of times", "why_tests_cant": "Histories.", "anchors": ["src/fclaw_gauges.c: gauge_update"]}
{"id": "C47", "title": "Gauges are placed in the right block", "statement": "Every gauge lying in the domain is given the block containing it and the block-local coordinates of its position; initialisation handles any gauge position without corrupting memory.", "quantifier": "every brick layout and every list of gauge positions", "why_tests_cant": "Positions on shared block edges or outside the domain are measure-zero or forgotten test cases.", "anchors": ["src/fclaw_gauges.c: gauge_initialize"]}
{"id": "C48", "title": "Output files do not depend on the number of processes", "statement": "The bytes of a file written by the parallel file functions depend only on the data of the global forest, not on how it is distributed.", "quantifier": "every forest, data and distribution", "why_tests_cant": "All distributions.", "anchors": ["src/fclaw2d_file.c: fclaw2d_file_open_create_v1, fclaw2d_file_write_block_v1, fclaw2d_file_write_field_v1"]}
{"id": "C49", "title": "Output files can be read back", "statement": "A reader following the documented layout (header, then for each section a type, size, user string, data and padding to a multiple of 16) recovers the sequence of sections with their user strings and data; sections neither overlap nor leave gaps.", "quantifier": "every sequence of sections, sizes and user strings", "why_tests_cant": "All sequences.", "anchors": ["src/fclaw2d_file.c: fclaw2d_file_write_block_v1, fclaw2d_file_write_field_v1, fcaw2d_file_get_padding_string_v1"]}
{"id": "C50", "title": "Padding always fits its buffer", "statement": "For every section length the padding is written inside the fixed padding buffer and completes the section to a multiple of 16 bytes.", "quantifier": "every section length", "why_tests_cant": "Only one residue class fails.", "anchors": ["src/fclaw2d_file.c: fcaw2d_file_get_padding_string_v1"]}
{"id": "C51", "title": "Patch neighbour summaries agree with the neighbours", "statement": "After neighbour types are set, a patch is flagged as having finer neighbours exactly if some face or existing corner neighbour is half-size, and as lying on a coarse-fine interface exactly if some face or existing corner neighbour is half- or double-size.", "quantifier": "every assignment of neighbour types and missing corners", "why_tests_cant": "All combinations and orders of setting.", "anchors": ["src/fclaw2d_patch.c: fclaw2d_patch_neighbors_set, fclaw2d_patch_has_finegrid_neighbors, fclaw2d_patch_on_coarsefine_interface"]}
{"id": "C52", "title": "Default tagging follows the chosen criterion and never refines and coarsens at once", "statement": "A patch is tagged for refinement exactly if some cell meets the selected criterion with the refinement threshold, independent of scan order for the min-max criterion; a family is tagged for coarsening exactly if none does with the coarsening threshold; if the coarsening threshold does not exceed the refinement threshold no member of a family tagged for coarsening is tagged for refinement.", "quantifier": "every solution, grid size and thresholds", "why_tests_cant": "All solutions.", "anchors": ["src/patches/clawpatch/fort_4.6/fclaw2d_clawpatch46_tag4refinement.f", "src/patches/clawpatch/fort_4.6/fclaw2d_clawpatch46_tag4coarsening.f", "src/patches/clawpatch/fort_user/fclaw2d_clawpatch_minmax_exceeds_th.f90"]}
{"id": "C53", "title": "The conservation diagnostic is the exact total mass", "statement": "In exact arithmetic the compensated summation used by the conservation check returns exactly the area-weighted sum of the solution over all interior cells of all patches, the compensation term stays zero, and the global value does not depend on the distribution.", "quantifier": "every solution and distribution", "why_tests_cant": "All solutions and distributions.", "anchors": ["src/patches/clawpatch/fort_4.6/fclaw2d_clawpatch46_diagnostics.f: fclaw2d_clawpatch46_fort_conservation_check", "src/patches/clawpatch/fclaw2d_clawpatch_diagnostics.c: fclaw2d_clawpatch_diagnostics_gather"]}
{"id": "C54", "title": "The brick map tiles the unit square", "statement": "The brick mapping sends block b's unit square onto its own cell of an mi by mj partition of the unit square, so that every point has a preimage and interiors of different blocks do not overlap; neighbouring blocks agree on their common edge.", "quantifier": "every mi, mj and point", "why_tests_cant": "All sizes and points.", "anchors": ["src/fclaw2d_map_brick.c", "src/fclaw2d_map_query.c"]}
{"id": "C55", "title": "Block boundary flags and physical boundaries", "statement": "A patch side is treated as a physical boundary exactly if the patch has no neighbour there; the block-face flags of a patch are set exactly for those sides that lie on the boundary of its block.", "quantifier": "every patch position, level and block connectivity", "why_tests_cant": "All positions.", "anchors": ["src/fclaw2d_convenience.c: fclaw2d_domain_new (set_boundary_xylower)", "src/fclaw2d_block.c: fclaw2d_block_get_block_boundary", "src/fclaw2d_physical_bc.c"]}
{"id": "C56", "title": "Failures of a parallel file write are reported consistently on all processes", "statement": "If a collective file write fails on any process, all processes return the same error and none is left waiting in a collective call.", "quantifier": "every pattern of write failures over processes", "why_tests_cant": "Fault patterns.", "anchors": ["src/fclaw2d_file.c: fclaw2d_file_write_block_v1, fclaw2d_file_write_field_v1, fclaw2d_file_open_create_v1"]}
{"id": "C57", "title": "A patch handle knows its current position", "statement": "The block number and the patch number obtained from a patch (fclaw2d_patch_get_blockno, fclaw2d_patch_get_patchno, fclaw2d_patch_get_info2) are those of the patch in the current domain, also after regridding and partitioning.", "quantifier": "every forest, every adaptation, every partition", "why_tests_cant": "Needs a history in which a surviving patch changes its position; single-step tests never see it.", "anchors": ["src/fclaw2d_patch.c: patch_data_new, fclaw2d_patch_get_info2, fclaw2d_patch_get_blockno, fclaw2d_patch_get_patchno, fclaw2d_patch_reset_data", "src/fclaw2d_regrid.c: cb_fclaw2d_regrid_repopulate", "src/fclaw2d_partition.c: cb_partition_transfer"]}
{"id": "C58", "title": "Corner neighbour queries decode the mesh correctly", "statement": "The corner neighbour query reports the process, block, patch, corner and relative size of the diagonal neighbour that the mesh stores: the opposite corner within a block, the stored corner across blocks; it reports a boundary at a physical boundary and where more than one other corner meets at a block corner.", "quantifier": "every mesh, patch and corner, in 2D and 3D", "why_tests_cant": "Encodings depend on sizes that are not bounded.", "anchors": ["src/forestclaw2d.c: fclaw2d_patch_corner_neighbors"]}
{"id": "C59", "title": "The CFL number of a global step is the largest one of all its updates", "statement": "The CFL number returned by fclaw2d_advance_all_levels, which decides on acceptance and on the next step size, is the maximum of the numbers reported by all updates of all levels in the step (and zero).", "quantifier": "every schedule and every sequence of reported numbers", "why_tests_cant": "Ranges over all level structures and all values; an update whose number is lost makes an unstable step look stable.", "anchors": ["src/fclaw2d_advance.c: advance_level, fclaw2d_advance_all_levels"]}
{"id": "C60", "title": "All processes perform the same exchanges in a global step", "statement": "Processes with different coarsest levels, and processes without any patch, call the collective ghost update and conservative synchronisation the same number of times in the same order with the same level ranges and times.", "quantifier": "every level structure, every local coarsest level, every behaviour of the solver", "why_tests_cant": "A mismatch is a deadlock that depends on how patches happen to be distributed.", "anchors": ["src/fclaw2d_advance.c: advance_level, timeinterp_level, fclaw2d_advance_all_levels"]}
{"id": "C61", "title": "Step size control comes to an end", "statement": "If the CFL number of a step is at most a constant times its length and the desired CFL number is smaller than the allowed maximum, a run with variable time step finishes after finitely many steps and rejections.", "quantifier": "every solver whose CFL number is bounded by a constant times the step, every option set with desired_cfl < max_cfl, output styles 1 and 3", "why_tests_cant": "Termination depends on the whole sequence of CFL numbers reported.", "anchors": ["src/fclaw2d_run.c: outstyle_1, outstyle_3"]}
{"id": "C62", "title": "Remote data is read only after the exchange", "statement": "In a ghost update no operation reads a patch of another process before the exchange has delivered its current values.", "quantifier": "every mesh, distribution to processes and range of levels", "why_tests_cant": "Needs neighbouring patches on different processes and a look at what is read, not at the final result, which later operations repair.", "anchors": ["src/fclaw2d_face_neighbors.c: cb_face_fill", "src/fclaw2d_ghost_fill.c: fclaw2d_ghost_update_async"]}
{"id": "C63", "title": "The whole mesh conserves mass", "statement": "With conservative corrections on and a conservative Riemann solver, the total mass over all patches of all processes has changed, at any time between two regriddings, by exactly what entered through the physical boundary plus what the registers at faces between patches still hold. After a synchronisation that includes all levels the registers hold nothing, so that the change of mass is exactly the inflow; without a physical boundary mass has not changed. No correction fails or leaves its arrays.", "quantifier": "every balanced forest of any number of blocks and levels, its distribution to processes, orders and sizes of time steps on the patches, ghost values, and sequence of synchronisations of levels", "why_tests_cant": "Conservation is a sum over all faces of a mesh and both sides of each; a correction made twice, or with a register that was already cleared, shows only as drift in long runs.", "anchors": ["src/fclaw2d_time_sync.c", "src/fclaw2d_face_neighbors.c: cb_face_fill", "src/patches/clawpatch/fclaw2d_clawpatch_conservation.c", "src/solvers/fc2d_clawpack4.6/fortran_source/clawpack46_time_sync.f"]}
{"id": "C64", "title": "The library's timers are used consistently", "statement": "Whatever sequence of initialisation, time steps, ghost updates, regridding, partitioning, elliptic solves, diagnostics and output a program performs, the library never aborts in a timer call; when timings are reported no timer is left running, and the timers presented as exclusive never ran at the same time, so their sum does not exceed the wall time.", "quantifier": "every program over the public API, output style, number of levels, patches and steps, outcome of adaptation and partitioning, and monotone clock", "why_tests_cant": "Timers are stopped and restarted across function boundaries depending on the caller; a wrong pairing aborts a production run only on the path that was not tested.", "anchors": ["src/fclaw_timer.c: fclaw2d_timer_start, fclaw2d_timer_stop, fclaw2d_timer_report", "src/fclaw2d_exchange.c", "src/fclaw2d_ghost_fill.c: fclaw2d_ghost_update_async", "src/fclaw2d_partition.c: fclaw2d_partition_domain", "src/fclaw2d_regrid.c: fclaw2d_regrid", "src/fclaw2d_initialize.c", "src/fclaw2d_advance.c", "src/fclaw2d_run.c"]}
{"id": "C65", "title": "Reported error norms are those of the whole domain", "statement": "With error computation enabled, each diagnostics call reports for each variable the 1-norm and 2-norm of the error as sums over all cells of all patches of all processes weighted by cell areas and divided by the total area, and the largest error of any cell; earlier calls leave no trace in later ones.", "quantifier": "every run of diagnostics calls, distribution of patches over any number of processes, patch sizes, areas and errors", "why_tests_cant": "Accumulators live across calls and processes; a missing reset or a column of the error table that is summed instead of maximised shows only for particular distributions.", "anchors": ["src/patches/clawpatch/fclaw2d_clawpatch_diagnostics.c: cb_compute_diagnostics, fclaw2d_clawpatch_diagnostics_gather, fclaw2d_clawpatch_diagnostics_reset", "src/patches/clawpatch/fort_4.6/fclaw2d_clawpatch46_diagnostics.f: FCLAW2D_CLAWPATCH46_FORT_COMPUTE_ERROR_NORM"]}
{"id": "C66", "title": "Default boundary conditions fill exactly the cells beyond the physical boundary", "statement": "The default physical boundary condition routine gives every ghost cell beyond a physical side of a patch, corners included, the value of the first interior cell (extrapolation) or the mirrored value with the normal component's sign changed (solid wall), in the current or the time-interpolated solution as asked; it changes no other cell and never leaves the array. Codes that need a user routine stop the program, and every other code is rejected.", "quantifier": "every patch size and number of ghost layers, components and solution, set of physical sides and codes of the four sides", "why_tests_cant": "Corner cells depend on the order of the four sides and on each side's index range; tests use a few sizes and codes.", "anchors": ["src/solvers/fc2d_clawpack4.6/fortran_source/clawpack46_bc2_default.f", "src/solvers/fc2d_clawpack4.6/fc2d_clawpack46.cpp: clawpack46_bc2"]}
{"id": "C67", "title": "Ghost cells at smaller neighbours hold means", "statement": "Averaging from a neighbour of half the size, across a face or a corner, within a block or into a glued block of any orientation, sets every ghost cell in the part of the border that the neighbour covers to the mean (by area on manifolds) of the four interior cells of the neighbour that lie in the same place. The two neighbours at a face together set all ghost cells of the face. Nothing else is changed and no memory outside of the arrays is accessed.", "quantifier": "all even patch sizes with at least twice as many cells as ghost layers, all positions of patches, all faces, corners, orientations of blocks, all solution values and positive areas", "why_tests_cant": "Orientations, sizes and positions are unbounded; tests compare a few simulations that use the default orientation.", "anchors": ["src/patches/clawpatch/fort_4.6/fclaw2d_clawpatch46_average.f: fclaw2d_clawpatch46_fort_average_face", "src/patches/clawpatch/fort_4.6/fclaw2d_clawpatch46_average.f: fclaw2d_clawpatch46_fort_average_corner", "src/patches/clawpatch/fclaw2d_clawpatch_transform.c: FCLAW2D_CLAWPATCH_TRANSFORM_FACE_HALF", "src/patches/clawpatch/fclaw2d_clawpatch_transform.c: FCLAW2D_CLAWPATCH_TRANSFORM_CORNER_HALF"]}
{"id": "C68", "title": "Ghost cells at larger neighbours hold a linear reconstruction", "statement": "Interpolation to a neighbour of half the size, across a face or a corner, sets every ghost cell of the small patch that lies in the large one (including those at its corner in the middle of the face) to the limited linear reconstruction of the values of the large patch in the interior cell that contains it. The four values in a cell have the mean of the cell, create no new extrema and are exact for linear data. Nothing else is changed and no memory outside of the arrays is accessed.", "quantifier": "all patch sizes that the options admit, all positions of patches, all faces, corners, orientations of blocks and solution values", "why_tests_cant": "As for averaging; in addition the failing sizes (odd numbers of ghost layers, more rows than columns) are accepted by the option check and give no error.", "anchors": ["src/patches/clawpatch/fort_4.6/fclaw2d_clawpatch46_interpolate.f: fclaw2d_clawpatch46_fort_interpolate_face", "src/patches/clawpatch/fort_4.6/fclaw2d_clawpatch46_interpolate.f: fclaw2d_clawpatch46_fort_interpolate_corner", "src/patches/clawpatch/fclaw2d_clawpatch_utils.f: fclaw2d_clawpatch_build_transform", "src/patches/clawpatch/fclaw2d_clawpatch_options.c: clawpatch_check"]}
{"id": "C69", "title": "A ghost update gives every ghost cell the value its position calls for, on any distribution", "statement": "After a ghost update, every ghost cell of every patch of the updated levels, on every process, holds the value that its position calls for: that of the cell of a neighbour of the same size, the mean of four cells of a smaller neighbour, the limited linear reconstruction from a larger neighbour (itself from values that the position calls for, at grid boundaries and at physical boundaries too), or the boundary condition. These values follow from the interior values alone: what was in ghost cells or ghost patches before the update and the distribution of patches among processes have no influence on the result, and interior cells are unchanged.", "quantifier": "every balanced mesh, number of levels and processes, distribution of patches, orientation of blocks, patch size, time interpolation, boundary condition codes, areas and solution values", "why_tests_cant": "Combines the order of the stages of the update, the parallel exchange and the numerical operations; errors appear in a few ghost cells of particular meshes and distributions and are masked by later steps.", "anchors": ["src/fclaw2d_ghost_fill.c: fclaw2d_ghost_update", "src/fclaw2d_face_neighbors.c", "src/fclaw2d_corner_neighbors.c", "src/fclaw2d_exchange.c", "src/fclaw2d_physical_bc.c", "src/patches/clawpatch/fclaw2d_clawpatch.cpp: clawpatch_copy_face, clawpatch_average_face, clawpatch_interpolate_face, clawpatch_copy_corner, clawpatch_average_corner, clawpatch_interpolate_corner"]}
{"id": "C70", "title": "One step on a patch is the wave propagation method", "statement": "A step of the clawpack 4.6 solver on a patch accesses no memory outside of its arrays, and gives every cell the value that the formula of the wave propagation method (first order fluctuations, limited second order corrections, transverse waves, capacity) gives from the values before; it returns the largest Courant number. The new value in a cell depends on the five by five cells around it only, not on the size of the patch, the place of the cell or what was in work arrays; constant states do not change if the Riemann solver makes no waves of them; the sum over a patch changes by the fluxes through its faces only, and the fluxes left for the corrections between levels are those.", "quantifier": "every patch size, number of equations, waves and auxiliary values, method parameters, Riemann solver, capacity, time step and values", "why_tests_cant": "The formula is spread over in-place updates of work arrays in two sweeps over slices; an index that is off by one changes the solution slightly, and the values at patch boundaries only with particular sizes.", "anchors": ["src/solvers/fc2d_clawpack4.6/fortran_source/clawpack46_step2_wrap.f", "src/solvers/fc2d_clawpack4.6/fortran_source/clawpack46_step2.f", "src/solvers/fc2d_clawpack4.6/fortran_source/clawpack46_flux2.f", "src/solvers/fc2d_clawpack4.6/fortran_source/clawpack46_flux2fw.f", "src/solvers/fc2d_clawpack4.6/fortran_source/clawpack46_inlinelimiter.f", "src/solvers/fc2d_clawpack4.6/fc2d_clawpack46_options.c"]}
{"id": "C71", "title": "Limited steps create no new extrema", "statement": "The limiters minmod, superbee, van Leer, monotonized centred and generalized minmod leave smooth waves unchanged, remove the correction at extrema and never exceed twice the wave or twice the one upwind. Hence in a step of advection of a quantity that depends on one coordinate, at a Courant number of at most one, the new value in every cell is between the values before in the cell and in its upwind neighbour.", "quantifier": "every patch size, velocity, time step with returned Courant number at most one, first order or one of these limiters, transverse option and one-dimensional data", "why_tests_cant": "Over- and undershoots appear only for particular data at particular places; a limiter may be wrong in one range of ratios only.", "anchors": ["src/solvers/fc2d_clawpack4.6/fortran_source/clawpack46_inlinelimiter.f: clawpack46_philim", "src/solvers/fc2d_clawpack4.6/fortran_source/clawpack46_flux2.f", "src/solvers/fc2d_clawpack4.6/fortran_source/clawpack46_step2_wrap.f"]}
{"id": "C72", "title": "Time steps do not depend on the distribution of patches", "statement": "Two global time steps that start with the same solution end with the same solution (interiors, and all ghost cells that are filled) and the same largest CFL number, for any two numbers of processes, any two distributions of patches among them, and any relative speed of the processes. Hence so do runs without regridding in which the time step is chosen, and steps are taken back, by the CFL number. However far the processes have come in a step, they can complete it: none waits for ever.", "quantifier": "every mesh with 2:1 balance, numbers of processes, distributions, subcycling options, interleavings of the processes, time step, solver options, contents of ghost patches, and controls of the time step", "why_tests_cant": "Results on different numbers of processes agree in tests unless stale ghost values, time interpolated data of an earlier step or another order of events happen to matter; deadlocks need a process without patches on a level.", "anchors": ["src/fclaw2d_advance.c: fclaw2d_advance_all_levels", "src/fclaw2d_update_single_step.c", "src/fclaw2d_timeinterp.c", "src/fclaw2d_ghost_fill.c: fclaw2d_ghost_update", "src/fclaw2d_run.c", "src/solvers/fc2d_clawpack4.6/fc2d_clawpack46.cpp"]}
{"id": "C73", "title": "Cell areas add up and do not depend on how a patch came into being", "statement": "On a mapped grid the area of a cell is the sum of the areas of the four cells it is divided into by refinement. The areas of a patch (ghost cells included) are the same whether it was built from scratch or by merging refined patches, any number of times; so the total area of a block is the same for all meshes. No computation of areas leaves the bounds of an array. The same holds for volumes on extruded meshes.", "quantifier": "every even patch size, mapping, maximum level, position of the patch, history of refinement and coarsening, initial contents of memory", "why_tests_cant": "Areas enter all conservation properties; an error shows up as a slow drift of mass on particular meshes, or in rows of cells of patches that have been coarsened.", "anchors": ["src/patches/metric/fclaw2d_metric.cpp: fclaw2d_metric_patch_build, fclaw2d_metric_patch_build_from_fine, metric_average_area_from_fine", "src/patches/metric/fclaw2d_metric_default.c: fclaw2d_metric_compute_area_default", "src/patches/metric/fortran_source2d/fclaw2d_metric_default_fort.f90: fclaw2d_metric_fort_compute_area, fclaw2d_metric_fort_average_area, get_area_approx", "src/patches/metric/fortran_source3d/fclaw3d_metric_default_fort.f90"]}
{"id": "C74", "title": "Regridding conserves mass and does not depend on the distribution of patches", "statement": "When the mesh is adapted, patches that stay keep all of their data; in every cell of a patch that is refined or created by merging, the mass of the four fine cells is that of the coarse cell. Hence the mass of the whole mesh, in every component, is unchanged by any number of adaptations. New patches have the right cell areas and empty flux registers. The result does not depend on the number of processes, the distribution of patches, or the contents of new memory; no null pointer is dereferenced and no array is left. While the initial mesh is built, all patches hold the user's initial values.", "quantifier": "every mesh and adaptation, number of processes and distribution of patches, patch size, mapping, solution, history of adaptations and initial contents of memory", "why_tests_cant": "Combines the matching of old and new patches, their numbering on each process, the metric terms of new patches and the interpolation and averaging; a wrong number moves data to another patch only for particular meshes and distributions.", "anchors": ["src/fclaw2d_regrid.c: cb_fclaw2d_regrid_repopulate, fclaw2d_regrid", "src/fclaw2d_patch.c: fclaw2d_patch_build, fclaw2d_patch_build_from_fine", "src/patches/clawpatch/fclaw2d_clawpatch.cpp: clawpatch_build, clawpatch_build_from_fine, clawpatch_interpolate2fine, clawpatch_average2coarse", "src/forestclaw2d.c: fclaw2d_domain_iterate_adapted"]}
{"id": "C75", "title": "Complete runs conserve mass", "statement": "In a run with time steps and subcycling, synchronisation of levels, regridding and repartitioning, in any order and any number of times, the mass of the whole mesh at any synchronised time is the initial mass plus what has entered through the physical boundary; with periodic boundaries it is constant. In particular no contribution of a flux register is lost when patches are refined, merged or sent to another process, although registers are not sent. Repartitioning changes no solution and always succeeds.", "quantifier": "every initial mesh and solution, sequence of time steps, adaptations and partitions, numbers of processes, conservative solver, mapping, time step and contents of new memory", "why_tests_cant": "Registers are dropped at regridding and repartitioning; whether they are empty then depends on the whole history. A loss of mass shows up only over long runs with moving refinement on several processes.", "anchors": ["src/fclaw2d_run.c", "src/fclaw2d_regrid.c: fclaw2d_regrid", "src/fclaw2d_partition.c: fclaw2d_partition_domain", "src/fclaw2d_time_sync.c", "src/patches/clawpatch/fclaw2d_clawpatch.cpp: clawpatch_partition_pack, clawpatch_partition_unpack", "src/fclaw2d_patch.c: fclaw2d_patch_partition_unpack"]}
{"id": "C76", "title": "Results of complete runs do not depend on the number of processes", "statement": "Two runs of the main loop with the same options and initial data, with time steps that may be taken back because of the CFL number, regridding after tagging, repartitioning and the update of ghost cells after it, produce the same sequence of meshes, times, time steps and solutions, on any numbers of processes, with patches distributed in any way at any time, with processes running at any relative speed, and whatever new memory contains. From every state that a run reaches there is a next turn: no step, regridding or repartitioning fails. The tagging routines of the library look only at cells that have been filled.", "quantifier": "all meshes with their geometry (square patches, without time synchronisation), all patch data and user solvers, all rules for the size of time steps and for adapting the mesh to tags, all numbers of turns, all numbers of processes and distributions of patches, all interleavings of processes", "why_tests_cant": "A test compares two numbers of processes on one problem for some steps; the claim is for all distributions at all times, all interleavings and all histories of adaptation.", "anchors": ["src/fclaw2d_run.c:outstyle_1", "src/fclaw2d_regrid.c:fclaw2d_regrid", "src/fclaw2d_partition.c:fclaw2d_partition_domain", "src/fclaw2d_ghost_fill.c:fclaw2d_ghost_update", "src/fclaw2d_advance.c:fclaw2d_advance_all_levels", "src/patches/clawpatch/fort_4.6/fclaw2d_clawpatch46_tag4refinement.f:fclaw2d_clawpatch46_fort_tag4refinement"]}
{"id": "C77", "title": "VTK output shows the solution, whoever owns the patches", "statement": "A VTK file written in parallel is a well-formed file: the header gives the right numbers of points and cells and the right position, type and length of each array. Read by the rules of the format, the file contains every cell of every patch, in the global order of patches, with the coordinates of its corners in the order VTK prescribes, with the number of its process, block and patch and with the values of all equations (ghost cells excluded). The file does not depend on the number of processes or the distribution of patches, except for the array that names the owners, nor on the order in which the bytes of the processes reach the disk. If header or footer cannot be written, all processes learn about it. The same holds for builds without MPI I/O.", "quantifier": "every forest, distribution of patches over processes, patch size, number of equations, solution and mapping, order of the writes of all processes, and builds with and without MPI I/O and debugging", "why_tests_cant": "All processes write to one file at computed positions; an error in a position overwrites data of another process only for particular distributions, and switches from 32 to 64 bit numbers only for very large meshes.", "anchors": ["src/patches/clawpatch/fclaw2d_clawpatch_output_vtk.c: fclaw2d_vtk_write_file, fclaw2d_vtk_write_field, write_connectivity_cb, write_offsets_cb, fclaw2d_output_vtk_value_cb", "src/patches/clawpatch/fclaw3dx_clawpatch_output_vtk.c"]}
{"id": "C78", "title": "ASCII output shows the solution, whoever owns the patches", "statement": "When all processes have written an output frame, the two text files of that frame can be read: they give the time, the sizes and every patch of the forest exactly once, in global order, with its number, level, block and owner, its coordinates, and the values of all cells and components of its interior (values below 1e-99 as zero). This holds whatever the files contained before, in whatever order the processes proceed, and even if some of them are already writing later frames; no other file is touched. Apart from the owners, the contents do not depend on the number of processes or the distribution of patches. Output never deadlocks and always ends, and it does not change the solution.", "quantifier": "every sequence of output frames, forest, distribution of patches for each frame, number of processes, interleaving of the processes, former contents of the files, layout of the solution (Clawpack 4.6, Clawpack 5, 3D patches), patch size, number of components and prefix", "why_tests_cant": "All processes append to one file and rely on passing a token; a race or a patch in the wrong place shows up only for particular interleavings, and columns overflow only for large numbers.", "anchors": ["src/patches/clawpatch/fclaw2d_clawpatch_output_ascii.c: fclaw2d_clawpatch_output_ascii, fclaw2d_clawpatch_time_header_ascii, cb_clawpatch_output_ascii", "src/patches/clawpatch/fort_4.6/fclaw2d_clawpatch46_output_ascii.f", "src/patches/clawpatch/fort_5.0/fclaw2d_clawpatch5_output_ascii.f", "src/patches/clawpatch/fort3_4.6/fclaw3dx_clawpatch46_output_ascii.f90", "src/forestclaw2d.c: fclaw2d_domain_serialization_enter, fclaw2d_domain_serialization_leave"]}
{"id": "C79", "title": "TikZ output draws the mesh, whoever owns the patches", "statement": "When a frame has been written as a TikZ picture, the file consists of a preamble, a loop over the levels with all patches, and the end. Every patch of the forest stands in it exactly once, with its number, level and owner, and is drawn exactly once, as the rectangle that it covers in units of the finest level. This holds whatever the file contained before, on any number of processes and in whatever order the processes run; the output never blocks.", "quantifier": "every forest on one block or on a brick of blocks, levels, distribution of patches, number of processes, interleaving of the processes, former contents of the file, size of the buffers of the C library, and rounding of floating-point operations", "why_tests_cant": "All processes append to one file through buffered streams; text is torn apart only for large meshes and particular interleavings, and a rectangle is misplaced only for particular numbers of blocks.", "anchors": ["src/fclaw2d_output_tikz.c: fclaw2d_output_frame_tikz, cb_tikz_output, convert_brick", "src/fclaw2d_map_brick.c: fclaw2d_map_c2m_brick", "src/forestclaw2d.c: fclaw2d_domain_serialization_enter, fclaw2d_domain_serialization_leave"]}
{"id": "C80", "title": "The Clawpack 5 layout changes nothing but the order of the elements", "statement": "Clawpack 5 stores all components of a cell together, Clawpack 4.6 all cells of a component, and the library has two versions of every routine for patches. Both layouts put the elements into the same amount of memory without gaps or overlaps. Any history of filling ghost cells (by copying, averaging, interpolation and physical boundary conditions), refining, coarsening, interpolating in time and exchanging patches between processes gives the same solution in every cell in both layouts, or fails in both, and touches no memory outside of the arrays. Patches are tagged for refinement and coarsening in the same way, and masses and error norms agree.", "quantifier": "every patch size, number of ghost layers and equations, solution, geometry of neighbours and mapping, every finite sequence of operations on any number of patches, every criterion and threshold variable", "why_tests_cant": "The routines were written twice; tests run an application with one of the two versions, with two ghost layers and few equations, and do not compare them cell by cell.", "anchors": ["src/patches/clawpatch/fort_5.0/fclaw2d_clawpatch5_copy.f", "src/patches/clawpatch/fort_5.0/fclaw2d_clawpatch5_average.f", "src/patches/clawpatch/fort_5.0/fclaw2d_clawpatch5_interpolate.f", "src/patches/clawpatch/fort_5.0/fclaw2d_clawpatch5_timeinterp.f", "src/patches/clawpatch/fort_5.0/fclaw2d_clawpatch5_local_ghost_pack.f", "src/patches/clawpatch/fort_5.0/fclaw2d_clawpatch5_tag4refinement.f", "src/patches/clawpatch/fort_5.0/fclaw2d_clawpatch5_tag4coarsening.f", "src/patches/clawpatch/fort_5.0/fclaw2d_clawpatch5_diagnostics.f", "src/solvers/fc2d_clawpack5/fortran_source/clawpack5_bc2_default.f"]}
{"id": "C81", "title": "A time step with the Clawpack 5 solver is that of the method, and that of Clawpack 4.6", "statement": "A time step of a patch with the Clawpack 5 solver accesses no memory outside of its arrays and gives every cell the value of the wave propagation formula (first or second order, with or without transverse waves, waves or f-waves, limiters 0 to 5, with or without capacities), whatever the work arrays contained before; ghost cells are left alone and the Courant number returned is the largest in the patch. It is the same step as with the Clawpack 4.6 solver: same solution, same fluctuations at the edges for the corrections between levels, same Courant number. The sum over a patch changes by the fluxes through its faces only, constant states stay, and the new value depends on the 5 x 5 cells around.", "quantifier": "every patch size, number of ghost layers, equations and waves, Riemann solver, solution, capacities, options, number of blocks at the corners, contents of the work arrays", "why_tests_cant": "Tests run a few problems with one of the two solvers and look at the result; the formula holds for every Riemann solver, and differences at block corners or for varying capacity are small.", "anchors": ["src/solvers/fc2d_clawpack5/fortran_source/clawpack5_step2.f90", "src/solvers/fc2d_clawpack5/fortran_source/clawpack5_step2_wrap.f", "src/solvers/fc2d_clawpack5/fortran_source/clawpack5_flux2.f", "src/solvers/fc2d_clawpack5/fortran_source/clawpack5_inlinelimiter.f", "src/solvers/fc2d_clawpack5/fc2d_clawpack5_options.c"]}
{"id": "C82", "title": "GeoClaw: water at rest stays at rest when it moves between patches of different size", "statement": "GeoClaw moves depth and momentum of the water between patches of different size: into ghost cells at faces and corners, and on refining and coarsening. A lake at rest stays a lake at rest (flat surface, no momentum, whatever the ground and the shore), depths never get negative, velocities do not exceed those that were there, and where all is under water, water and momentum are conserved and coarsening undoes refinement. The values come from the cells that lie in the same place, everything else in the patch stays unchanged, no memory outside of the arrays is touched and nothing is divided by zero. The initial state is a lake at rest, and what is done to a patch before each step keeps it and makes every depth non-negative.", "quantifier": "every patch size, ground, capacity, state of the water, tolerance and sea level, geometry of neighbours (same block or across blocks, every half of a face, every corner), and children of a patch", "why_tests_cant": "Tests run a tsunami and compare with stored results; a spurious wave at a shore appears only for particular grounds, wet and dry patterns and levels.", "anchors": ["src/solvers/fc2d_geoclaw/fclaw2d_source/fc2d_geoclaw_average_fort.f", "src/solvers/fc2d_geoclaw/fclaw2d_source/fc2d_geoclaw_interpolate_fort.f", "src/solvers/fc2d_geoclaw/fc2d_geoclaw.cpp: geoclaw_average2coarse, geoclaw_interpolate2fine, geoclaw_average_face, geoclaw_interpolate_face", "src/solvers/fc2d_geoclaw/fortran_source/geoclaw_b4step2_fort.f90", "src/solvers/fc2d_geoclaw/fortran_source/geoclaw_qinit_fort.f90"]}
{"id": "C83", "title": "Ghost cells at the corners of the two blocks of a pillow sphere", "statement": "On a sphere made of two blocks glued along all four edges, the patch at a corner of a block has one corner neighbour: the patch at the same corner of the other block. The library finds it for every corner and relative size. Ghost cells at the corner get the values of the cells of that neighbour they are folded onto: copied between patches of the same size, with the same mass when averaged from a patch of half the size, and reconstructed in the quarter they lie on, within the range of the solution, when interpolated from one of twice the size. Everything else stays unchanged and no memory outside of the arrays is touched. The values come from the place on the sphere where the mapping puts the ghost cell.", "quantifier": "every patch size, number of ghost layers and equations, solution, cell areas, corner, level of the patch and of its neighbour, and distribution of patches over processes", "why_tests_cant": "The sphere looks right with errors in a few ghost cells at four points; tests do not look at them, and areas of cells near the corners differ only for particular mappings.", "anchors": ["src/patches/clawpatch/fort_4.6/fclaw2d_clawpatch46_pillowsphere.f", "src/patches/clawpatch/fort_5.0/fclaw2d_clawpatch5_pillowsphere.f", "src/fclaw2d_corner_neighbors.c: get_corner_neighbor", "src/mappings/pillowsphere/mapc2m_pillowsphere.f"]}
{"id": "C84", "title": "On an extruded mesh every layer is treated as a mesh of two dimensions", "statement": "In the 3D version of the library patches have several layers of cells, and the mesh is refined in the horizontal directions only. Any history of filling ghost cells (copying, averaging, interpolation, at faces, corners and the corners of a pillow sphere), refining, coarsening, interpolating in time and exchanging patches between processes gives in every layer what the 2D version makes of that layer alone, with the volumes of the cells for areas, and fails only if the 2D version fails for some layer. Layers do not influence one another; the ghost layers below and above are exchanged with other processes and otherwise left alone; no memory outside of the arrays is touched. Refining and coarsening keep the mass of the whole patch, and coarsening undoes refinement.", "quantifier": "every patch size, number of layers, ghost layers and equations, solution, volumes, geometry of neighbours, and every finite sequence of operations on any number of patches (at least 4 mbc cells wide where they are exchanged)", "why_tests_cant": "The routines are copies of the 2D ones with one more loop and one more index; tests run one application and do not compare layers.", "anchors": ["src/patches/clawpatch/fort3_4.6/fclaw3dx_clawpatch46_copy.f90", "src/patches/clawpatch/fort3_4.6/fclaw3dx_clawpatch46_average.f90", "src/patches/clawpatch/fort3_4.6/fclaw3dx_clawpatch46_interpolate.f90", "src/patches/clawpatch/fort3_4.6/fclaw3dx_clawpatch46_timeinterp.f90", "src/patches/clawpatch/fort3_4.6/fclaw3dx_clawpatch46_local_ghost_pack.f90", "src/patches/clawpatch/fort3_4.6/fclaw3dx_clawpatch46_pillowsphere.f90", "src/patches/clawpatch/fclaw2d_clawpatch.cpp (with PATCH_DIM 3)"]}
{"id": "C85", "title": "In the 3D version tagging follows the criterion and never refines and coarsens at once", "statement": "In the version with layers a patch is tagged for refinement exactly if one of its cells meets the chosen criterion (value, difference to the neighbours in all three directions, range of values, gradient, or a local user criterion), and always if the threshold is negative. Four siblings are tagged for coarsening exactly if no cell of them meets it, the coarsening threshold is positive and the mesh is not being initialised. With a coarsening threshold that does not exceed the refinement threshold no patch is tagged for both. For a solution that is the same in all layers the tags are those of the 2D version. No memory outside of the arrays is touched and no unset variable is used.", "quantifier": "every patch size, number of layers, ghost layers and equations, solution in all cells and ghost cells, criterion, threshold variable and thresholds", "why_tests_cant": "Whether a patch is tagged depends on single cells, possibly ghost cells in layers nobody looks at; a test shows it only for the solutions it runs.", "anchors": ["src/patches/clawpatch/fort3_4.6/fclaw3dx_clawpatch46_tag4refinement.f90", "src/patches/clawpatch/fort3_4.6/fclaw3dx_clawpatch46_tag4coarsening.f90", "src/patches/clawpatch/fort3_user/fclaw3dx_clawpatch_tag_criteria.c", "src/patches/clawpatch/fclaw2d_clawpatch.cpp: clawpatch_tag4refinement, clawpatch_tag4coarsening"]}
{"id": "C86", "title": "With the Clawpack 5 solver conservative corrections conserve mass too", "statement": "With patches advanced by Clawpack 5, and corrections switched on, total mass changes during any history of steps and synchronisations by exactly what entered through the physical boundary and what the registers at faces between patches still hold; after a synchronisation of all levels by exactly what entered through the boundary. A step, a correction and a synchronisation do to solutions and registers what those for Clawpack 4.6 do, in spite of the other order of the indices in memory; they fail for no mesh, and touch no memory outside of the arrays.", "quantifier": "every mesh with patches of even size and at least two ghost layers, number of equations and auxiliary variables, history of steps of any lengths and synchronisations of any levels, conservative Riemann solver, solution, ghost values, connection of blocks", "why_tests_cant": "A lost or doubled flux is far below the tolerance of a regression test, and depends on the history, the orientation of blocks and the distribution of patches.", "anchors": ["src/solvers/fc2d_clawpack5/fortran_source/clawpack5_time_sync.f", "src/solvers/fc2d_clawpack5/fortran_source/clawpack5_step2_wrap.f", "src/solvers/fc2d_clawpack5/fc2d_clawpack5.cpp: clawpack5_step2", "src/patches/clawpatch/fclaw2d_clawpatch_conservation.c"]}
{"id": "C87", "title": "The elliptic solver: operators, patch problems and boundary conditions", "statement": "For the elliptic solver the library provides three operators (Laplace, variable coefficient, heat equation with implicit step), each as functions on single patches. Applied to a patch, an operator gives every cell the sum over its four sides of coefficient times difference over cell size squared, plus lambda times the value, with the neighbours' values across sides with a neighbour and the boundary condition across the others; everything else stays unchanged, and no memory outside of the arrays is touched. The functions fit together: solving on a single patch with the modified right-hand side leaves the solution alone exactly if it already satisfies the equation there. The operator on a single patch is symmetric and negative definite, so that this equation has exactly one solution. Inhomogeneous Dirichlet and Neumann conditions are moved to the right-hand side so that the equation solved is the discrete equation with these conditions.", "quantifier": "every patch size, number of ghost layers and fields, cell size, set of sides with neighbours, values in cells and ghost cells, positive coefficient, non-positive lambda, types and values of boundary conditions", "why_tests_cant": "The multigrid iteration converges even if the functions do not fit together, to something slightly different; a boundary condition applied twice at corners looks like a discretisation error.", "anchors": ["src/solvers/fc2d_thunderegg/operators/fc2d_thunderegg_fivepoint.cpp: fivePoint", "src/solvers/fc2d_thunderegg/operators/fc2d_thunderegg_varpoisson.cpp: varpoisson", "src/solvers/fc2d_thunderegg/operators/fc2d_thunderegg_heat.cpp: heat", "src/solvers/fc2d_thunderegg/fort_4.6/thunderegg_apply_bc_default.f90", "src/solvers/fc2d_thunderegg/fc2d_thunderegg_physical_bc.c"]}
{"id": "C88", "title": "One step of a patch with the 3D solver follows the wave propagation method", "statement": "A step of Clawpack 4.6 in three dimensions gives every cell of a patch the value that the wave propagation method prescribes: fluctuations, limited second order corrections, transverse and double transverse propagation as the order asks for, in all three directions alike. The new value depends on the five by five by five cells around the cell only; ghost cells stay as they are, except at corners where three blocks meet. A constant state stays, the mass of the patch changes by the fluxes through its boundary only if the Riemann solver is conservative, the largest Courant number is returned, and naming the axes differently changes nothing. The work array is large enough.", "quantifier": "every patch size with at least two ghost layers, number of equations, waves and auxiliary variables, order, limiters, capacity function, step and cell sizes, solution in all cells and ghost cells, Riemann solvers", "why_tests_cant": "A wrong cell or weight in one of some fifty transverse terms changes results by less than a truncation error; symmetric test problems hide it.", "anchors": ["src/solvers/fc3d_clawpack46/fortran_source/fc3d_clawpack46_flux3.f", "src/solvers/fc3d_clawpack46/fortran_source/fc3d_clawpack46_step3.f90", "src/solvers/fc3d_clawpack46/fortran_source/fc3d_clawpack46_step3_wrap.f90", "src/solvers/fc3d_clawpack46/fortran_source/fc3d_clawpack46_inlinelimiter.f90", "src/solvers/fc3d_clawpack46/fc3d_clawpack46.cpp: clawpack46_step3"]}
{"id": "C89", "title": "Default boundary conditions in three dimensions", "statement": "In three dimensions the default physical boundary conditions give every ghost cell beyond a physical side, below and above the patch the value that the option asks for: that of the nearest cell, of the mirror image with the sign of the normal component changed, or, below and above, of the periodic image; at edges and corners they combine. Other ghost cells and the interior stay as they are, each layer is treated as a patch in two dimensions, no element outside of the arrays is used, and conditions that cannot be met are rejected.", "quantifier": "every patch size, number of ghost layers and components, combination of conditions on six sides, set of sides at the physical boundary, data, current and time-interpolated solution", "why_tests_cant": "Corners where three conditions meet and the order of the sides matter for few cells, which small tests do not look at.", "anchors": ["src/solvers/fc3d_clawpack46/fortran_source/fc3d_clawpack46_bc3_default.f90", "src/solvers/fc3d_clawpack46/fc3d_clawpack46.cpp: clawpack46_bc3"]}
{"id": "C90", "title": "GeoClaw gives each cell the average of the finest topographic data", "statement": "The height of the ground in a cell is the average, over the area of the cell (in the plane, or on the sphere for longitude and latitude), of one surface: at each point what the finest file with data there says, interpolated bilinearly between its four nearest values. It does not depend on how the files overlap, on the order in which they are listed (except for ties), on the patch or the process that holds the cell. Ghost cells outside of the domain get the height of the nearest cell inside. The height of a cell is the mean, weighted by area, of the heights of the four cells into which it is refined. No access is outside of the arrays; the program stops if a cell has no data at all, and at the start if more than one per cent of the domain has none.", "quantifier": "every number, extent, resolution and overlap of files with data, all heights, both systems of coordinates, every patch and cell size, number of ghost cells, regular and ghost patches", "why_tests_cant": "A file boundary may cut cells in any way; with several nested files the inclusion and exclusion of overlaps has exponentially many cases, and an error of a row changes heights by less than anyone looks at.", "anchors": ["src/solvers/fc2d_geoclaw/geolib_source/topo_module.f90: rectintegral, topoarea, intersection, mtopoorder", "src/solvers/fc2d_geoclaw/geolib_source/cellgridintegrate2.f", "src/solvers/fc2d_geoclaw/geolib_source/topointegral.f", "src/solvers/fc2d_geoclaw/geolib_source/bilinearintegral.f", "src/solvers/fc2d_geoclaw/fortran_source/geoclaw_setaux_fort.f90", "src/solvers/fc2d_geoclaw/fc2d_geoclaw.cpp: geoclaw_setaux"]}
{"id": "C91", "title": "The mappings that come with the library fit blocks together", "statement": "The mappings of the library take the blocks of a domain to points in space so that the blocks form the surface their name says, without gaps and overlaps: the cubed sphere covers the unit sphere with six blocks which meet exactly along the edges of a cube; the five blocks of the square and of the squared disk cover it and meet exactly where the mesh connects them, with the outer edges on the boundary; the pillow disk and the pillow sphere, on which ghost cells beyond an edge are cells of the other half; four quadrilaterals around a point; annulus, torus, twisted torus and longitude and latitude are periodic. Scaling, shifting and rotating do what their names say: rotations keep lengths, angles and orientation.", "quantifier": "every block and point of a block, parameters of the mappings (size of the inner square, radii, centre), angles, scales and shifts", "why_tests_cant": "A mapping that is wrong for one block or one edge still makes a plausible picture; that it is one-to-one and onto is a statement about all points.", "anchors": ["src/mappings/cubedsphere/mapc2m_cubedsphere.f", "src/mappings/fivepatch/mapc2m_fivepatch.f", "src/mappings/squareddisk/mapc2m_squareddisk.f", "src/mappings/pillowdisk/mapc2m_pillowdisk.f", "src/mappings/pillowdisk5/mapc2m_pillowdisk5.f", "src/mappings/pillowsphere/mapc2m_pillowsphere.f", "src/mappings/bilinear/mapc2m_bilinear.f", "src/mappings/torus/mapc2m_torus.f", "src/mappings/scale_rot_map.f: set_rotation_matrix", "src/fclaw2d_map.c: scale_map, shift_map, rotate_map"]}
{"id": "C92", "title": "GeoClaw leaves water at rest alone", "statement": "A lake, sea or flooded area with a level surface and no currents, over ground of any shape, with shores and islands, stays exactly as it is: a time step returns the solution it was given, whatever order, limiters, transverse waves, friction and Coriolis force are chosen, in the plane and on the sphere.", "quantifier": "every patch size, ground, level of each connected body of water, dry land at least as high as the water next to it, option, cell size and time step", "why_tests_cant": "A scheme that is not balanced makes small spurious waves that depend on the ground; tests see one bathymetry, and a tsunami in the open sea is smaller than such waves may be.", "anchors": ["src/solvers/fc2d_geoclaw/riemann_source/geoclaw_riemann_utils.f: riemann_aug_JCP, riemanntype", "src/solvers/fc2d_geoclaw/riemann_source/rpn2_geoclaw.f", "src/solvers/fc2d_geoclaw/riemann_source/rpt2_geoclaw.f", "src/solvers/fc2d_geoclaw/fortran_source/geoclaw_flux2fw_fort.f", "src/solvers/fc2d_geoclaw/fortran_source/geoclaw_step2_fort.f90", "src/solvers/fc2d_geoclaw/fortran_source/geoclaw_step2_wrap_fort.f", "src/solvers/fc2d_geoclaw/fortran_source/geoclaw_b4step2_fort.f90", "src/solvers/fc2d_geoclaw/fc2d_geoclaw.cpp: geoclaw_update"]}
{"id": "C93", "title": "GeoClaw neither makes nor loses water", "statement": "At each edge between two cells, wet or dry, over any ground, what leaves one cell enters the other; momentum changes by the difference of fluxes and the force of the ground. No water goes through a wall, which is ground that the water cannot run up. Hence a step changes the amount of water in a patch by what goes through its sides only, and not at all if it is closed or periodic. The Riemann solver does not divide by zero.", "quantifier": "every patch size, depths, momenta, ground, order, limiters, cell size and time step", "why_tests_cant": "Lost water is a small fraction per step, and happens at shores of particular shapes.", "anchors": ["src/solvers/fc2d_geoclaw/riemann_source/geoclaw_riemann_utils.f: riemann_aug_JCP, riemanntype", "src/solvers/fc2d_geoclaw/riemann_source/rpn2_geoclaw.f", "src/solvers/fc2d_geoclaw/fortran_source/geoclaw_flux2fw_fort.f", "src/solvers/fc2d_geoclaw/fortran_source/geoclaw_step2_fort.f90", "src/solvers/fc2d_geoclaw/fortran_source/geoclaw_step2_wrap_fort.f", "src/solvers/fc2d_geoclaw/fortran_source/geoclaw_setaux_fort.f90"]}
{"id": "C94", "title": "Friction and Coriolis force in GeoClaw", "statement": "The source terms never change depths or ghost cells. Friction reduces the momentum of a cell and keeps its direction, for every time step, with the coefficient that belongs to the height of the ground; it does nothing in deep water and stops what is left in dry cells. The Coriolis force turns the momentum and keeps its size, up to the accuracy of its series.", "quantifier": "every patch size, solution, ground, parameters of friction, latitude and time step", "why_tests_cant": "Both terms act slowly, over many steps; an error of their size looks like friction.", "anchors": ["src/solvers/fc2d_geoclaw/fortran_source/geoclaw_src2_fort.f90", "src/solvers/fc2d_geoclaw/geolib_source/geoclaw_module.f90: coriolis"]}
{"id": "C95", "title": "GeoClaw refines where there are waves, within the levels of the regions", "statement": "A patch whose level is below the minimum level of a region that it touches at the current time is refined; one whose level has reached the maximum of all regions that it touches is not. In between, a patch is refined exactly if one of its cells has water whose surface is away from the sea level by more than the tolerance, or whose speed is above a tolerance of its level or a finer one. Four siblings are coarsened only if, with half of the tolerances, there is no such cell in any of them and the regions allow it; not during initialisation. No patch is refined and coarsened in the same step, and a patch that was refined is not coarsened again as long as its states stay the same.", "quantifier": "every patch size, solution, ground, set of regions, tolerance, level, time, application-supplied rule where flagging is allowed", "why_tests_cant": "Regions overlap in many ways, and a wave that is refined and coarsened in turns gives plausible results with a mesh that is wrong every second step.", "anchors": ["src/solvers/fc2d_geoclaw/fc2d_geoclaw.cpp: geoclaw_patch_tag4refinement, geoclaw_patch_tag4coarsening", "src/solvers/fc2d_geoclaw/fclaw2d_source/fc2d_geoclaw_test_regions.f90", "src/solvers/fc2d_geoclaw/fclaw2d_source/fc2d_geoclaw_flag2refine_fort.f90", "src/solvers/fc2d_geoclaw/fclaw2d_source/fc2d_geoclaw_tag4refinement_fort.f90", "src/solvers/fc2d_geoclaw/fclaw2d_source/fc2d_geoclaw_tag4coarsening_fort.f90"]}
{"id": "C96", "title": "An option with several numbers gives the numbers that are written", "statement": "An option such as \"1 1 3 3\" or \"1 0.5 2e-3\" gives an array of the length asked for with the numbers in the order in which they are written, separated by any white space; elements that are not written are zero; a missing text gives zeros. Text that does not list numbers in range is reported.", "quantifier": "every text, sign, number of digits, fraction, exponent, white space, length", "why_tests_cant": "Tests try a few texts; a numeral that is read as another one, or a comma, changes boundary conditions or scales silently.", "anchors": ["src/fclaw_options.c: fclaw_options_convert_int_array, fclaw_options_convert_double_array"]}
{"id": "C97", "title": "Options come from the command line, then files, then defaults, and errors stop all processes", "statement": "Each option has the value that the command line gave it last; if the command line does not name it, that of the configuration file of its package; otherwise its default. Every package has its options processed and then checked exactly once, in the order of registration, and is destroyed once in reverse order. Parsing returns an error if the command line, a file or a package has one or the options cannot be saved, the same on all processes. A package without a file and a call without a file to save to are allowed.", "quantifier": "every number of packages and their callbacks, files with any contents, command lines, order of a hash table, root and other processes", "why_tests_cant": "The order of a hash table differs between builds; failures of files and disks do not happen in tests.", "anchors": ["src/fclaw_base.c: fclaw_app_options_parse, get_config_filenames, check_for_unused_options, fclaw_app_destroy, fclaw_app_exit_type_to_status", "src/fclaw_base.h: fclaw_app_options_register, fclaw_app_options_parse"]}
{"id": "C98", "title": "Edge neighbours in three dimensions are found and indexed correctly", "statement": "In three dimensions the query for the neighbour across one of the twelve edges of a patch reports the process, block, patch, edge and relative size of the neighbour that the mesh stores, and a boundary if there is none or if more than four blocks meet. The index transformations across an edge send a cell to the cell of the neighbour (or to the eight fine cells of it, in the order of the children) at the same physical place, within a block and across a block edge; ghost cells beyond the edge become interior cells at the same distance from it, and transforming back returns the index.", "quantifier": "every mesh, patch and edge, every pair of positions and levels, patch size, index and index base", "why_tests_cant": "Twelve edges with two transversal axes each, times all positions and block boundaries; a wrong sign on one axis shows only in ghost cells of few patches.", "anchors": ["src/forestclaw3d.c: fclaw3d_patch_edge_neighbors, fclaw2d_patch_edge_swap, fclaw3d_patch_transform_edge, fclaw3d_patch_transform_edge2, fclaw3d_domain_num_edges"]}
{"id": "C99", "title": "A GeoClaw run covers time without gaps, writes frames on time and resolves the motion of the ground", "statement": "The run of a GeoClaw program takes time steps that, those which are kept, cover the time from zero without gap or overlap. With output style 1 and variable steps frame i is written exactly at time i*tfinal/nout, there are nout frames after the initial one, and the run ends at tfinal. Every frame carries the time reached by the steps before it. No step crosses the beginning of a motion of the ground, steps within it are not longer than dt_max_dtopo, a step that touches it is divided into at least two, and the run does not fail. Steps that are kept have a CFL number of at most max_cfl if step reduction is requested. The time of the motion is the hull of the times of all files. With the output styles that count steps the frames are numbered in order, one for each nstep steps. The data are at any time those that result from the steps that were kept and the changes of the mesh; a step that was undone leaves no trace.", "quantifier": "every history of a run, of any length; every solver and its CFL numbers; every motion, output style and step control", "why_tests_cant": "Step sizes depend on the history of CFL numbers, on output times and on the times of the motion; a missed sub-step or a wrong time shows only for particular combinations.", "anchors": ["src/solvers/fc2d_geoclaw/fc2d_geoclaw_run.c: fc2d_geoclaw_run, outstyle_1, outstyle_3, outstyle_4, fc2d_geoclaw_step_dtopo", "src/solvers/fc2d_geoclaw/fortran_source/geoclaw_b4step2_fort.f90: fc2d_geoclaw_get_dtopo_interval"]}
{"id": "C100", "title": "The ground of a GeoClaw run at a time is the initial ground plus all displacements at this time", "statement": "When the ground moves (files with displacements, each given at nodes of a grid and at equidistant times), the heights which a GeoClaw program keeps for each file with topography are, whenever they are brought to a time, the initial heights plus the sum over all files of the displacement at this node and time: nothing outside the area of a file or before its motion begins, bilinear in space and linear in time in between, the last displacement after the end. The result does not depend on the times of earlier updates. A displacement lies between the smallest and largest value of its file, and no array is accessed outside its bounds. After the motion all patches have the final ground.", "quantifier": "all files with displacements and topography, all sizes, positions and times, all points, all histories of updates at nondecreasing times", "why_tests_cant": "The heights are computed incrementally, with flags that record what has been updated and whether the motion is over; errors show only for certain positions of files relative to each other, points on the lines of a grid, or step lengths.", "anchors": ["src/solvers/fc2d_geoclaw/geolib_source/topo_update.f90: topo_update", "src/solvers/fc2d_geoclaw/geolib_source/topo_module.f90: read_topo_settings, read_dtopo_settings", "src/solvers/fc2d_geoclaw/fortran_source/geoclaw_b4step2_fort.f90: fc2d_geoclaw_b4step2, fc2d_geoclaw_check_dtopotime"]}
{"id": "C101", "title": "Diagnostics are computed, gathered and reset in turn, and rays report the integrals of this time", "statement": "In a run every component that takes part in diagnostics (patches, gauges, rays, the solver, the user) is initialized once; each time diagnostics are gathered it computes, then gathers with the flag of this time, then resets, and it is finalized once at the end. Nobody gathers before all have computed, and nobody resets before all have gathered; functions that are not set and user diagnostics that are not asked for are not called. For rays, each time the report gives, in the order in which the user defined them, the number of each ray and the sum of the contributions of all patches of all processes at this time, with a warning exactly if the callback has marked the ray on some process this time. Earlier times do not matter, nor does the distribution of patches over processes if rays are marked on patches only. Without output_rays nothing is reported.", "quantifier": "all tables of functions, all numbers of gatherings and flags; all rays, callbacks, forests and numbers of processes, all histories of meshes", "why_tests_cant": "The marks and integrals live in arrays that are reused for each report, and are combined over processes; an error shows only in later reports or for particular distributions.", "anchors": ["src/fclaw2d_diagnostics.c: fclaw2d_diagnostics_initialize, fclaw2d_diagnostics_gather, fclaw2d_diagnostics_reset, fclaw2d_diagnostics_finalize", "src/fclaw2d_rays.c: ray_initialize, ray_integrate, ray_gather, ray_reset", "src/fclaw2d_convenience.c: fclaw2d_domain_integrate_rays"]}
{"id": "C102", "title": "A file with topography gives the heights that are written in it, at the places that are written in it", "statement": "If a file with topography for GeoClaw lists the nodes of a grid from north to south and west to east (a line x, y, z for each node; or a header followed by one height in each line; or a header followed by the rows, each on one or more lines), then the ground of the program has, at the position of each node, the height written there, negated for files of depths, with the chosen value in place of those marked as missing; the spacing and the area are those of the grid, whether the header gives the first node or the corner of its cell. Missing heights without a chosen value stop the run. A file that is not complete is refused.", "quantifier": "all grids with at least two rows and columns, all positions, spacings and heights, all ways to break rows into lines, all contents of memory before", "why_tests_cant": "The sizes and spacings are computed from the contents of a file (positions at which y changes, number of lines, last line), so a mistake in counting shifts or rescales the ground without any error.", "anchors": ["src/solvers/fc2d_geoclaw/geolib_source/topo_module.f90: read_topo_header, read_topo_file, read_topo_settings"]}
{"id": "C103", "title": "A file with displacements of the ground gives the displacements that are written in it", "statement": "If a file with displacements for GeoClaw lists the nodes of a grid for one or more equidistant times (a line t, x, y, dz for each node and time; or a header followed by one displacement in each line; or a header followed by the rows of each time, each on one or more lines), then the program takes over the area of the grid and the beginning and end of the motion, and the displacement it computes at the position of each node and at each of the times is the one written there. A file that is not complete is refused.", "quantifier": "all grids with at least two rows and columns, any number of times, all positions, spacings and displacements, all ways to break rows into lines, all contents of memory before", "why_tests_cant": "The numbers of rows, columns and times are found by comparing positions and times of successive lines and by dividing the number of lines, including the failing read at the end; a mistake by one gives a plausible but wrong motion.", "anchors": ["src/solvers/fc2d_geoclaw/geolib_source/topo_module.f90: read_dtopo_header, read_dtopo, read_dtopo_settings", "src/solvers/fc2d_geoclaw/geolib_source/topo_update.f90: topo_update"]}
{"id": "C104", "title": "Moving ground starts from the ground of the finest topography", "statement": "When a GeoClaw program starts with files of topography and files of displacements, each file with topography keeps exactly the heights that were read, whatever the number, order and sizes of the files; the additional grid that is made for each file with displacements has, at each node, the height of the finest file with topography there (interpolated between the nearest values); the heights kept as the initial state for the motion are these heights. No array is accessed outside its bounds, and no height is left without a value.", "quantifier": "all numbers, sizes, positions and resolutions of files, overlapping or not, nodes inside, on the lines and on the boundary of files", "why_tests_cant": "All files share one array with computed positions, and a second one with other positions because not all files are kept; an error shows only for certain combinations of files. Values that were never set look like numbers.", "anchors": ["src/solvers/fc2d_geoclaw/geolib_source/topo_module.f90: read_topo_settings, set_topo_for_dtopo"]}
{"id": "C105", "title": "The water starts at rest at sea level, plus the disturbance of a file", "statement": "The initial state of a GeoClaw patch is water at rest: in each cell, ghost cells included, the depth is the height of sea level over the ground, or zero on land, and the momentum is zero. If a file with a disturbance is given, it is read as written, and in each cell that meets its area the mean of the disturbance is added to the depth or to a component of the momentum (kinds 1-3, not on land), or is used as the height of the surface (kind 4); the volume that is added is that of the disturbance, and no depth is negative. All other cells are not changed, and no array is accessed outside its bounds.", "quantifier": "all files, patches, sizes of cells, positions of the area of the file (inside, outside, across cells), kinds of disturbance, grounds, and both systems of coordinates", "why_tests_cant": "Tests compare with stored results for one hump; a cell at the boundary of the file, a kind that is rarely used or a ghost cell can be wrong without a visible effect.", "anchors": ["src/solvers/fc2d_geoclaw/fortran_source/geoclaw_qinit_fort.f90: fc2d_geoclaw_qinit", "src/solvers/fc2d_geoclaw/geolib_source/qinit_module.f90: add_perturbation, read_qinit"]}
{"id": "C106", "title": "Friction coefficients follow the regions and the height of the ground", "statement": "With variable friction each cell of a GeoClaw patch gets the Manning coefficient of the last region that contains its centre and that has an interval with the height of its ground over sea level; where no region has one, the constant coefficient of the run applies. Regions may overlap, and intervals may be unbounded. Nothing else is changed, cells of a ghost patch that are not needed are left alone, and no array is accessed outside its bounds. Without variable friction nothing is set.", "quantifier": "all lists of regions, depths (also infinite) and coefficients, all patches and ghost patches, all grounds", "why_tests_cant": "Coefficients are seen only through their influence on the speed of the water; overlaps, boundaries of regions and boundaries of intervals are rarely tested.", "anchors": ["src/solvers/fc2d_geoclaw/geolib_source/friction_module.f90: set_friction_field", "src/solvers/fc2d_geoclaw/fortran_source/geoclaw_setaux_fort.f90: fc2d_geoclaw_setaux"]}
{"id": "C107", "title": "A gauge records the state of the water at its position", "statement": "A record of a GeoClaw gauge has the level of its patch, the time, and the depth, the momenta and the ground at the position of the gauge: the values of its cell if a cell that is used is dry, otherwise values interpolated between the centres of cells around it. Quantities that vary linearly are recorded exactly, no value is outside of the range of the values around the gauge, and over water at rest the recorded surface is that of the water, near shores too. Gauges anywhere in a patch, on its boundary too, are served without access outside of the arrays.", "quantifier": "all patches, positions in them, solutions, grounds and tolerances", "why_tests_cant": "Gauges are compared with stored records at a few positions. An error of the interpolation of half a cell is of the size of other errors, and depends on the position of the gauge within its cell, hence on the level of refinement.", "anchors": ["src/solvers/fc2d_geoclaw/fortran_source/geoclaw_gauges_fort.f90: fc2d_geoclaw_update_gauge", "src/solvers/fc2d_geoclaw/fc2d_geoclaw_gauges_default.c: geoclaw_gauge_update_default, geoclaw_print_gauges_default"]}
{"id": "C108", "title": "Gauges are those of gauges.data", "statement": "A GeoClaw program has exactly the gauges that the file gauges.data describes, in its order, each with its own number, position, times and smallest interval between records, whatever notation of numbers, white space and comments the file uses. A file that says there are none gives none, and a file without the expected comment at its beginning ends the program.", "quantifier": "all files in the documented format, with any number of gauges", "why_tests_cant": "Tests use a file with a few gauges, written by one program. The lines become longer with the number of gauges, and a gauge with a wrong interval looks like any other.", "anchors": ["src/solvers/fc2d_geoclaw/fc2d_geoclaw_gauges_default.c: geoclaw_read_gauges_data_default", "src/fclaw_gauges.c: fclaw_gauge_set_data"]}
{"id": "C109", "title": "The elliptic solver works on the data of the patches", "statement": "A vector that the elliptic solver is given shows the right-hand sides, or the solutions, of exactly the patches of this process, in the order of the mesh: each element is that cell of that patch, ghost cells included. Storing a vector gives each cell of each patch its value and changes nothing else, and a vector read afterwards has the same elements.", "quantifier": "all numbers of blocks, patches, cells, ghost cells and components, all data", "why_tests_cant": "A wrong stride or offset shows only for patches that are not square, several blocks or several components; tests of the solver use one block with square patches.", "anchors": ["src/solvers/fc2d_thunderegg/fc2d_thunderegg_vector.cpp: fc2d_thunderegg_get_vector, fc2d_thunderegg_store_vector, get_data", "src/patches/clawpatch/fclaw2d_clawpatch.cpp: fclaw2d_clawpatch_soln_data, fclaw2d_clawpatch_rhs_data"]}
{"id": "C110", "title": "Cells that a discontinuity cuts get a fraction between 0 and 1", "statement": "For initial data with two states on both sides of a curve, each cell gets the fraction of the left state: 1 if all its corners are on the left side, 0 if none is, and otherwise the area of the polygon between its corners and the points where the curve crosses its edges. The fraction is between 0 and 1, so that no initial value is outside of the two states, and the fractions for both sides add up to 1. The search for crossing points never divides by zero and ends only at a change of the sign.", "quantifier": "all curves, given by any function, all positions and sizes of cells, any number of steps of the search", "why_tests_cant": "Which branch of the search is taken depends on the values of the function at points that the search chooses itself; one branch is only taken if a zero is closer to a corner than the tolerance, which hardly happens in a test.", "anchors": ["src/fortran_source2d/cellave2.f: cellave2, fss, zeroin"]}
{"id": "C111", "title": "The header of a topography file is read as it is written", "statement": "In each line of the header of a file with topography the value may be written before or behind its name, with any blanks around them. GeoClaw takes the sizes, the corner, the size of the cells (one number, or one for each direction) and the value for missing data from these lines. Whether the corner is that of a cell or its centre depends on whether the line mentions xllcorner (yllcorner), in upper or lower case.", "quantifier": "all lines of text, all numbers, names and numbers of blanks", "why_tests_cant": "The words are found by moving strings of a fixed length; what happens depends on the lengths of words and blanks, on where the line ends, and on the number of words.", "anchors": ["src/solvers/fc2d_geoclaw/geolib_source/utility_module.f90: parse_values, to_lower", "src/solvers/fc2d_geoclaw/geolib_source/topo_module.f90: read_topo_header"]}
{"id": "C112", "title": "Boundary conditions of GeoClaw: water and ground fit together, and water at rest stays at rest", "statement": "At a physical boundary with extrapolation (1) or a solid wall (3), the cells beyond it get depth, momentum and height of the ground of the first cell or of their mirror image, with the momentum normal to a wall negated, also in corners. All other cells, other auxiliary data and the other copy of the solution keep their values. If the water is at rest inside, it is at rest in all cells afterwards. The code 0 stops the run; with all other codes the side is left alone.", "quantifier": "all sizes of patches with at least as many cells as layers of ghost cells, all data, all combinations of sides and codes, current and time-interpolated data", "why_tests_cant": "Corners depend on the order of the sides, and water at rest over uneven ground stays at rest only if ground and water are continued in the same way.", "anchors": ["src/solvers/fc2d_geoclaw/fortran_source/geoclaw_bc2_fort.f: fc2d_geoclaw_bc2", "src/solvers/fc2d_geoclaw/fc2d_geoclaw.cpp: geoclaw_bc2"]}
{"id": "C113", "title": "The ASCII files of GeoClaw hold solution and surface of all patches", "statement": "Each frame has a file with its sizes and a file with all patches. Behind its header a patch has one line for each cell, row by row, with all components of the solution and the height of the surface of the water (depth plus ground); what is too small to be written is zero. Whatever the two files held before is replaced, and no other file is touched. The solution keeps its values, except that what is too small to be written becomes zero in the cells of the patch. The run stops if there are more equations than fit into a line. Different frames have different files.", "quantifier": "all numbers of frames, all lists of patches with all sizes and data, all earlier contents of files", "why_tests_cant": "Readers rely on one line for each cell and on the order of cells; a test writes few frames with three equations.", "anchors": ["src/solvers/fc2d_geoclaw/fclaw2d_source/fc2d_geoclaw_output_ascii_fort.f: fc2d_geoclaw_fort_write_header, fc2d_geoclaw_fort_write_file", "src/solvers/fc2d_geoclaw/fc2d_geoclaw_output_ascii.c: fc2d_geoclaw_output_ascii"]}
{"id": "C114", "title": "GeoClaw: the ground of a patch reaches the processes that need it", "statement": "With the option to send auxiliary data along with ghost patches, the sender puts exactly its share of values into the message, behind the solution, and touches nothing else of message or patch. A process that gets the message has the auxiliary data of the sender in all ghost cells and in the outermost layers that averaging needs, and no other data change.", "quantifier": "all sizes of patches and numbers of ghost cells, all numbers of auxiliary fields, all data, all positions in a message, with and without areas", "why_tests_cant": "A value in a wrong place is the height of the ground somewhere else; tests with one process send no messages.", "anchors": ["src/solvers/fc2d_geoclaw/fclaw2d_source/fc2d_geoclaw_local_ghost_pack_aux_fort.f: fc2d_geoclaw_local_ghost_pack_aux", "src/solvers/fc2d_geoclaw/fc2d_geoclaw.cpp: geoclaw_local_ghost_pack_aux, fc2d_geoclaw_solver_initialize", "src/patches/clawpatch/fclaw2d_clawpatch.cpp: clawpatch_ghost_comm"]}
{"id": "C115", "title": "The conservation check of GeoClaw reports the amounts of water and momentum", "statement": "For each component, the check adds up value times area over all cells of all patches of a process, and over no ghost cells, with and without a mapping.", "quantifier": "all lists of patches, all sizes and data, with and without mappings", "why_tests_cant": "A sum over wrong cells or components looks plausible; tests of GeoClaw do not use mappings.", "anchors": ["src/solvers/fc2d_geoclaw/fclaw2d_source/fc2d_geoclaw_diagnostics_fort.f: fc2d_geoclaw_fort_conservation_check", "src/patches/clawpatch/fclaw2d_clawpatch_diagnostics_default.c: fclaw2d_clawpatch_diagnostics_cons_default"]}
{"id": "C116", "title": "Data files of GeoClaw are ready for reading behind their comments", "statement": "Opening a data file skips its leading comment lines, reports their number, and leaves all data to be read. The run stops if the file does not exist or has no data.", "quantifier": "all files: all numbers of comment lines, all data", "why_tests_cant": "Tests use files that were written by one tool, with the same header each time.", "anchors": ["src/solvers/fc2d_geoclaw/amrlib_source/opendatafile.f: opendatafile"]}
{"id": "C117", "title": "The refinement regions of a GeoClaw run are those of its regions file", "statement": "The regions that are in force are exactly those listed in regions.data, in this order, behind the comments and the number of regions.", "quantifier": "all regions files: all numbers of regions, all regions, blank lines anywhere between them", "why_tests_cant": "Tests use files with a few regions.", "anchors": ["src/solvers/fc2d_geoclaw/amrlib_source/regions_module.f90: set_regions", "src/solvers/fc2d_geoclaw/amrlib_source/opendatafile.f: opendatafile"]}
{"id": "C118", "title": "As many values are read from a line of a GeoClaw data file as are written in it", "statement": "The number of densities, speed tolerances, depths and friction coefficients that GeoClaw takes from a line of a data file is the number of values in front of the mark =: of the line.", "quantifier": "all lines: all numbers of values, all values, all numbers of blanks between them", "why_tests_cant": "Tests use a few lines, with one or two values, written by one tool.", "anchors": ["src/solvers/fc2d_geoclaw/geolib_source/utility_module.f90: get_value_count", "src/solvers/fc2d_geoclaw/geolib_source/geoclaw_module.f90: set_geo", "src/solvers/fc2d_geoclaw/geolib_source/refinement_module.f90: set_refinement", "src/solvers/fc2d_geoclaw/geolib_source/friction_module.f90: setup_variable_friction"]}
{"id": "C119", "title": "The physical parameters of a GeoClaw run are those of geoclaw.data", "statement": "Gravity, densities, pressure, radius, coordinates, sea level, Coriolis force, friction and dry tolerance have the values that are written in geoclaw.data; parameters that are not used have their defaults. If the coordinate system does not fit the capacity function, the run stops.", "quantifier": "all values of all parameters, all combinations of coordinate system, Coriolis force and friction, all numbers of densities and of friction coefficients, all descriptions behind the values", "why_tests_cant": "Which lines the file has depends on the values; tests use a few combinations.", "anchors": ["src/solvers/fc2d_geoclaw/geolib_source/geoclaw_module.f90: set_geo"]}
