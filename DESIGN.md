# Formal model of ForestClaw: design

The repository under study is `/repo` (ForestClaw). It is read as text only.
The model and the proofs are Lean 4 (4.33.0) with single Mathlib modules.

## Conventions

* One directory `lean/Verif/<Area>/` per part of the code:
  `Model.lean` (executable functions, each with a comment citing file and lines),
  `Spec.lean` (small independent specification, where one is needed),
  `Lemmas.lean` (helpers), `Props.lean` (the property theorems and, beside each,
  an `example` showing that its hypotheses are satisfiable).
* Property theorems are listed in `MANIFEST.json`; names carry the suffix
  `_partial` when they prove less than the English property, and `_counterexample`
  when the code violates the English property (or a natural strengthening of it) and the
  theorem exhibits that.
* C assertions, aborts, accesses outside of arrays and other undefined behaviour are explicit
  outcomes (`Option`/`Except`), never silently totalised.
* Experiments with wrong programs are in `seeded/LOG.jsonl`: each line is an edit of the model
  that a realistic bug would make, the claim it breaks, and the theorems that failed.

## Trusted base

1. Lean's kernel (4.33.0) and the definitions and theorems of Mathlib as installed.
2. The axioms `propext`, `Classical.choice`, `Quot.sound`, as listed per theorem at the end.
   `decide +kernel` is evaluated by the kernel; `native_decide` and `bv_decide` are not used.
3. That the model says what the code does. Each definition cites the lines it models. The
   general simplifications are listed next, those of single functions are at the functions.
4. What is assumed of the libraries below ForestClaw (p4est, libsc, MPI) and of user functions,
   listed below.

### Global simplifications

* C `int` is modelled by `Int`/`Nat` unless the property is about overflow (C05) or fixed size
  fields (C01, C48-C50).
* `double` is modelled by exact rationals, except in packing, where a double is its
  64-bit pattern. Statements about rounding, NaN, infinities and the sign of zero are out of
  scope; division by zero is a failure (Wave) or excluded by hypothesis. Coordinates in the
  forest are dyadic, so the index transformations (C13-C15) are exact in double precision for
  all p4est levels. Square roots (gradient criterion, 2-norms) are compared in squared form.
* Memory is modelled by values; a pointer whose target is not owned is an explicit
  dangling value where it matters (C03, C31, C43).
* MPI collectives are functions over the list of all ranks; point-to-point messages are
  arbitrary interleavings (C19, C20); collective file operations may arrive in any order (C48).
* Log output, statistics and timers are left out except in C44 and C64.
* The 3D variants made by `fclaw2d_to_3d.h` are covered where the model has the dimension or
  number of children as a parameter (C06, C07, C08, C12, C13-C15, C22, C51, C55, C58); the rest is 2D.
* Solvers and patches: `clawpatch` with the routines for clawpack 4.6, 2D.

### Assumed of p4est, libsc and MPI (not in the repository)

| what | where |
|------|-------|
| `sc_keyvalue`, `sc_hash`: finite maps iterated in an unspecified order | C02, C04 |
| mesh arrays encode neighbours as documented in p4est_mesh.h (`Agrees`) | C12, C55, C58, C16 |
| `p4est_expand_face_transform` in 3D | C13, C14 |
| window of unchanged quadrants after `p4est_wrap_partition` | C09 |
| `p4est_partition` moves the buffers attached to quadrants | C10 |
| ghost exchange delivers what was sent; ghosts and mirrors are in global order | C11, C16, C22 |
| `p4est_search_local`, `p4est_search_partition` visit as documented | C17, C18, C19 |
| `sc_notify` delivers the transposed pattern | C19 |
| adaptation changes each patch by at most one level; meshes are balanced and neighbourhood is symmetric (`Mesh.Ok`) | C08, C32-C35, C62, C63, C69 |
| trees of a brick connectivity have their lower left corners at the integer points | C54 |
| serialised connectivity and quadrants are given byte strings | C48-C50 |
| `sc_io_*` write and read counts as documented; a failed open leaves `MPI_FILE_NULL` | C48-C50, C56 |
| collectives complete in lockstep; MPI I/O build | C45, C56 |

### Assumed of user functions

* Riemann solvers are functions of the states and auxiliary values of the two cells at an edge
  (C70, C71); where stated they are conservative (`ConservativeSolver`, `Correction.Conservative`:
  C36, C63, the last parts of C70). On Cartesian grids C70 discharges the assumption of C36.
* Tagging functions answer arbitrarily (C23) or by a criterion local to a cell (C52).
* User callbacks do not touch the library's timers (C64).
* Interpolation callbacks of the overlap exchange and integrals of rays are functions of their arguments (C18, C19).

## Plan and status per property

| id | model (directory) | proof |
|----|-------|-------|
| C01 | `Packing`: bytes as `List UInt8`, little-endian fields, C strings as `Option (List UInt8)` | round trip by `List` lemmas |
| C02 | `Global`: time, dt, finite map of options; vtable registry as parameter with its law as hypothesis | induction over the iterated entries |
| C03 | `Options`: option struct with plain part, 8 packed strings, packed arrays, and the unpacked `regression_check` pointer | round trip `_partial`, plus counterexample for the dangling pointer |
| C04 | `PointerMap`: association list + log of destructor calls | refinement and multiset accounting by induction over ops |
| C05 | `PowInt`: `Int` with explicit 32-bit overflow outcome | loop invariant; exact overflow condition; counterexample |
| C06 | `Domain`: construction from per-tree quadrant lists, linked lists as `next` pointers | induction over patches |
| C07 | `Domain`: iterators over the constructed domain, linked list walk with fuel | induction |
| C08 | `Adapt`: the two-cursor loop with assertions as `none` | induction over an event list (kept / split / merged) |
| C09 | `Partition`: the interval arithmetic of the loop, per block | case analysis + induction over blocks against a global-index spec |
| C10 | `Partition`: C09 plus pack/transfer/unpack over all ranks | from C09 |
| C11 | `Exchange`: mirror/ghost index bookkeeping over all ranks | induction |
| C12, C58 | `FaceNbr`: decode functions with dimension parameter | arithmetic |
| C13-C15 | `Transform`: transformations over `Rat`/`Int` with C truncation | linear arithmetic over all valid transforms; geometric spec via block gluing maps |
| C16 | `Indirect`: encode on owner, decode on receiver, in-place rewriting | case analysis |
| C17 | `Search`: tree search, local minimum, allreduce | induction + lattice |
| C18 | `Search`: tree recursion with pruning | structural induction |
| C19 | `Overlap`: consumer/producer buffers, arrival order = arbitrary permutation | permutation invariance |
| C20 | `Serial`: small-step transition system | invariant, progress |
| C21 | `Lifecycle`: transition system over domain handles | invariant |
| C22 | `Smooth`: target level computation | list maximum characterisation, permutation invariance |
| C23 | `Regrid`: tagging callbacks over families and patches | invariant over scan |
| C24-C27, C59, C60 | `Advance`: the recursive scheduler with state per level, log of events | invariant on `last_step` = multiples of step increments; comparison of two processes |
| C28-C30, C61 | `Run`: run loops with an oracle for CFL numbers | invariants over fuel-indexed loops; measure for termination |
| C31 | `Ledger`: patch data allocations | invariant over histories |
| C32, C33, C62 | `GhostFill`: trace of ghost-fill operations on all processes, provenance of every region | order proofs on traces |
| C34 | `CopyGhost`: copy loops on grids with transformation, whole update on values | uses C13, C15, C32 |
| C35 | `TimeSync`: register reset rules over a face-typed forest | case analysis, induction over levels |
| C36 | `Correction`: wave-propagation update and correction over the rationals | algebra, finite sums |
| C37-C40 | `Transfer` (on `Fort`: Fortran loops with bounds checks) | finite sums |
| C41 | `GhostPack`: pack loops as index lists | coverage, length, round trip; counterexample for small grids |
| C42 | `TimeInterp`: loops | coverage and formula |
| C43 | `ArrayBox`: heap of containers | refinement to values |
| C44, C64 | `Timer`: state machine; timer calls of the library functions as nondeterministic programs | fold invariant; typing of programs |
| C45-C47 | `Gauge`: gauge state per rank, printed log | invariant over histories; counterexample for C47 |
| C48-C50, C56 | `ParFile`: file as byte map written by ranks; error codes | position arithmetic; parser inverse; exact failure patterns |
| C51 | `NbrType`: neighbour type state | case analysis over all assignments, invariant over histories |
| C52 | `Tag`: scan loops with early exit | scan = exists |
| C53, C65 | `Diag`: Kahan loop; error norms over ranks | invariant `c = 0` in exact arithmetic; sums and maxima |
| C54 | `Brick`: brick map | arithmetic |
| C55 | `BlockFace`: boundary flags | arithmetic |
| C57 | `PatchInfo`: numbers kept in patches over histories | exact set of right numbers; counterexample |
| C63 | `Conserve`: C35 and C36 on the whole mesh | telescoping sums over a step of all levels |
| C66 | `Bc`: the four loops in order | formula for every cell; frame |
| C67, C68 | `CoarseFine`: averaging and interpolation with half-size transformation | geometric spec, uses C14, C15 |
| C69 | `GhostAll`: values of the whole update on all processes | composes C32, C34, C41, C66-C68; inductive specification of expected values |
| C70, C71 | `Wave`: step of clawpack 4.6 on named memory locations with bounds | every loop as simultaneous assignment, then equality with the formula of the method |
| C72 | `Parallel`: every process goes through its schedule (C24), advances its patches (C70), interpolates (C42) and takes part in ghost updates (C69), interleaved in any way | every execution is one through a schedule that does not depend on the distribution; that one determines all values, since what an event reads has been made since the last step |
| C73 | `Metric`: loops computing and averaging areas, for any map and area element; the affine shortcut over the reals | areas as sums over blocks of smallest cells; induction on the history and on the refinement tree; counterexamples |
| C74 | `Repopulate`: the callback of regridding with building, refining and merging patches, on every process; uses `Adapt`, `Transfer`, `Metric` | what each event does (C37, C38, C73), by induction over events, blocks and processes; sums over the mesh; induction on the history |
| C75 | `Lifetime`: repartitioning with clawpatches (solution packed, patch rebuilt at the destination), and runs made of `Conserve`, `Repopulate` and `Partition` | invariant: every register is balanced, holds the areas of its patch and has nothing pending on any face after synchronisation; mass by induction over the run |
| C76 | `Invariance` puts together `Parallel` (time steps), `Repopulate` (new patches), `Lifetime` (repartitioning), `GhostAll` (ghost cells) and `Tag`: turns of the main loop on `np` processes as a relation with arbitrary owners, interleavings, distributions and contents of memory. | Simulation between two runs: the solution agrees in all cells that are filled, areas and registers follow from the place of a patch; each kind of turn preserves this (C72, C74, C75, uniqueness of the expected values of C69). Tags: the routines read through `rd` only, and every cell of the array is filled unless three blocks meet at a corner; a counterexample with three blocks. |
| C77 | `Vtk`: the whole of `fclaw2d_clawpatch_output_vtk.c` for 2D patches and for 3D patches on a 2D forest: sizes computed with `int`, header, eight callbacks, positions of each process, MPI and stdio variants; a file is a map from positions to bytes, and the single bytes of all processes are written in an arbitrary order. Specification: a reader of the format (header as data, appended arrays, cells). | The writes of all processes for one array are a permutation of the writes of the whole array (by induction over processes and blocks), arrays follow each other without gaps, so the file is header, arrays, footer; then each entry is found by position in a list of equal pieces. Counterexamples by evaluation. |
| C78 | `Output`: processes with their calls of enter and leave (model of C20), shared files and pending operations; any interleaving of single operations over any number of frames. `Ascii`: the driver in C and the three Fortran writers, with formats as lists of characters (asterisks when a number does not fit), arrays in memory, file names with their fixed lengths, `stop` as abort and buffer overflow as undefined behaviour. Specification: a reader of the two files that skips blank lines and reads columns, and the solution as a function. | Invariant over reachable states: the operations of each frame so far are those of the processes in order of rank, each a prefix of what it has to do (uses the invariant of C20); files of other frames have other names; then the text is read back line by line. Termination by a measure. |
| C79 | `Tikz`: the driver and the callback with the text they print, file names, `int` arithmetic with overflow as undefined behaviour (`pow_int` from C05), each floating-point operation followed by an arbitrary rounding function, and a C library that hands parts of the text to the operating system while the buffer is full and the rest at `fclose`. Runs: `Output` with operations after leave, then the barrier and the end of the file. Specification: a reader of the text, what TeX draws (loop over levels), and the rectangles of the patches in integers. | Invariant over reachable states: the operations of process 0 inside come first, each process performs its own in order (`complete_hist`). If each process has at most one piece, the pieces are a permutation of the processes; printing is read back; coordinates are exact since all numbers are dyadic. Counterexamples: two explicit runs of two processes; the nearest doubles of 3/5, 1/5 and their quotient. |
| C80 | `Layout`: the Clawpack 5 versions of copy, average, interpolate (faces, corners, new patches), time interpolation, packing, default boundary conditions, tagging and diagnostics, on flat memory: every access goes through the position that the declaration gives to the element. Specification: histories of operations on numbered patches for both layouts, and the relation between them. The 4.6 versions are those of the other areas. | Positions are bijections (mixed radix). Simulation: reads agree, writes preserve the relation, loops preserve it; where the order of loops differs, the writes commute. Counterexamples by evaluation. |
| C81 | `Wave5`: the Clawpack 5 versions of limiter, fluxes of a slice, sweeps, step and update, on the memory of `Wave` (elements named by indices, bounds checked). Specification: the formula of C70 (`newValue`), without the delayed capacity of f-waves. | The loops that differ are shown to act as those of 4.6 (same final values), slices and sweeps through the invariants of C70. Comparison with 4.6 through the common formula; counterexamples by evaluation of the formula. |
| C82 | `Geo`: GeoClaw's averaging and interpolation (faces, corners, children), initial state and the clean-up before a step, on the arrays of `Fort`, with the transformations of `CoarseFine`; division by zero is an outcome. Specification: `merged` (water of four cells), `refinedDepth`, `AtRest`. | The loops write the specified values (`Writes`), geometry from C67/C68; rest, sign, velocity bounds and conservation are algebra over the four cells. Counterexamples by evaluation. |
| C83 | `Pillow`: the routines for block corners of a pillow sphere on the arrays of `Fort`, the search for the corner neighbour on top of `FaceNbr`, and the mapping up to the part that depends on folding. Specification: `Folded`, `FoldedPart`, `foldedHalf`, `Behind`, `centre`. | The loops write the specified values (`Writes`, and `Writes2` for two patches); the neighbour from C12; the place by algebra on the coordinate. Counterexamples by evaluation, the one on the place for all inputs. |
| C84 | `Extrude`: the 3D patch routines on arrays with a third index, and patches with solution and volumes. Specification: operations on numbered patches with layers (`step3`) and without (`step2`, made of the 2D models), `seen`, `slice`. | A lens for a layer: every access in layer `k` is the 2D access in that layer (`On`), so every loop over layers acts on the layers separately (`Sep`); counters are dropped by simulation, loops exchanged where the 2D order differs; the message as a list of locations as in C41; histories by induction. Mass from C37, C38, C40 layer by layer. |
| C85 | `Tag3`: the 3D tagging routines and criteria. Specification: `Found` in a set of layers, `Same`, `flat` for the comparison with C52. | The same invariant of the scan as in C52 (running minimum and maximum, flag), for an arbitrary set of layers; three and four nested loops flattened. Layer-independent solutions by comparing the two specifications of found cells. |
| C86 | `Sync5`: storing of fluxes and fluctuations, update of the solution, corrections and synchronisation with Clawpack 5, loop by loop on flat memory with checked bounds; the two storing loops also for Clawpack 4.6. Specification: `SameRegs`, `Holds`, `History5`, total mass. | Loops that add are described by what they add to which element (`Adds`), which composes; corrections by a simulation as in C80; histories by simulation of C63's. |
| C87 | `Elliptic`: the three functions of each ThunderEgg operator and the routine for inhomogeneous boundary conditions, loop by loop with checked bounds, division by zero and unset variables as failures. Specification: `discrete` (sum over four sides), `outer`/`alone` (what is across a side), `Meets`. | Loops that fill ghost cells / write / add; summation by parts over rows and columns gives a symmetric positive form; a linear map that is injective on finitely many cells is onto; invariant of the loop over faces in the boundary routine. |
| C88 | `Wave3`: `flux3`, `step3`, `step3_wrap`, the limiter and the repair of corners for Clawpack 4.6 in 3D, with all transverse and double transverse terms, as loops that add to arrays of fluxes; sizes of the work array. Arrays the routine sets once are functions; indices are not checked one by one (with two ghost layers those used exist). Specification: `newValue`, a formula that treats the three directions alike and knows nothing about slices. | A program that adds: the value of an element is the sum of what the iterations add to it, of which all but a few terms are zero; locality of the formula relates the fixed arrays to what sweeps see at corners; renaming of axes, constants, conservation from the formula. |
| C89 | `Bc3`: the loops of the six sides, written once with the axis as a parameter, and the caller | a lemma about loops of assignments that do not read what they write; the two sides of an axis, then the axes, are composed |
| C90 | `Topo`: order of the files, intersection, bilinear integrals in the plane and on the sphere, integration over one file and over several, check at the start, `setaux`; real numbers | the specification is a Lebesgue integral over the cell (Mathlib); a rectangle is cut into the cells of the grid of a file, on which the integral is found with antiderivatives; inclusion and exclusion by induction over the list of files; the order of files by counting |
| C91 | `Mapping`: the twelve mappings of `src/mappings`, rotation matrix, scale and shift; real numbers | cubed sphere: every block is one function of the point on the cube, whose inverse is explicit; five blocks: one argument about sectors (slope and distance) for square and disk, for the disk with convexity of the tangent and the intermediate value theorem; pillow mappings: sectors by absolute values and signs |
| C92 | `GeoStep`: Riemann solver of GeoClaw (`riemanntype`, `riemann_aug_JCP`, `rpn2`, `rpt2`), `flux2`, `step2`, its wrapper, `b4step2`, `src2`; real numbers | the steady wave cancels the jump exactly for water at rest, so all waves are zero; at shores the mirrored problem is at rest too; zero waves make zero fluxes in every loop |
| C93 | same | the three waves solve a linear system by Cramer's rule, whose determinant is nonzero as the outer speeds differ; sums of waves are jumps of fluxes; walls by symmetry of the mirrored problem; sums over the patch telescope, also second order and transverse fluxes |
| C94 | same | direct; the matrix of the Coriolis step is computed exactly |
| C95 | `GeoTag`: the criteria of GeoClaw, regions, flags of cells, tags of patches and families | exact characterisation of both tags by folds over regions and cells, counterexamples evaluated through it |
| C96 | `OptArray`: both conversions, strtol and strtod after the C standard | grammar of numerals as inductive predicates; induction over the list |
| C97 | `App`: parsing of options, calls of packages, end of the application | folds over files, arguments and packages |
| C98 | `Edge`: query for edge neighbours, index transformations across edges (3D) | case analysis over the twelve edges, exact rational arithmetic of `Transform` |
| C99 | `GeoRun`: the three output styles of GeoClaw's run and the division of steps over the motion of the ground | induction over passes with an invariant on the log; exact rational arithmetic |
| C100 | `Dtopo`: update of the heights of all files by all files with displacements; the times when patches take them | array indices, floor and ceiling by cases on integers; invariant over the history of updates |
| C101 | `Rays`: cycle of diagnostics; accumulation, reduction and report of rays on all processes | event lists by component; induction over the history with the search lemmas of C17/C18 |
| C102 | `TopoRead`: header and heights of files with topography | loop invariants over the position in the file; quotient and remainder of positions; the surface of C90 at the nodes |
| C103 | `DtopoRead`: header and values of files with displacements | loop invariants over the position in the file; displacement at the nodes from C100 |
| C104 | `TopoStart`: the shared arrays `topowork` and `topo0work`, the grids for files with displacements | positions as sums of sizes; loops as writes to disjoint sets of elements; elements without value are a distinct outcome |
| C105 | `Perturb`: `fc2d_geoclaw_qinit`, `add_perturbation`, `read_qinit` | loops as writes to disjoint sets (`Acts`); `topointegral` is the integral (C90); the reading loops are those of C102 |
| C106 | `Friction`: `set_friction_field`, and its use in `fc2d_geoclaw_setaux` | loop over levels and loop over regions by an invariant (last match so far), loops over cells as writes to disjoint sets; depths are extended real numbers |
| C107 | `GeoGauge`: `fc2d_geoclaw_update_gauge`, `geoclaw_gauge_update_default`, the numbers of a printed line | floor of the position gives the cell; polynomial identities for the weights |
| C108 | `GaugeRead`: `geoclaw_read_gauges_data_default` with `fgets`; `strtod` from `OptArray` | each line is read as a whole, by induction over its characters; then induction over the gauges |
| C109 | `TeVector`: `fc2d_thunderegg_get_vector`, `fc2d_thunderegg_store_vector`, `get_data` | numbers of patches are injective and onto; the pointer that moves through a patch writes position after position (loop invariant), positions are those of cells by division with remainder |
| C110 | `CellAve`: `cellave2`, `fss`, `zeroin` | invariant of the search (the values belong to the points, signs at both ends are opposite); area of the polygon in each of the 16 cases of signs at the corners; for straight lines the fraction is the integral of the left side over the cell |
| C111 | `HeaderText`: `parse_values`, `to_lower`, header of `read_topo_header` | the loop takes one word after the other: induction over the number of words that are left; parts of lines are parts of words |
| C112 | `GeoBc`: `fc2d_geoclaw_bc2`, `geoclaw_bc2` | each loop copies from cells that it does not write; images and signs of two sides compose as for C66 |
| C113 | `GeoAscii`: `fc2d_geoclaw_fort_write_header`, `fc2d_geoclaw_fort_write_file`, `fc2d_geoclaw_output_ascii` | loops carry the lines written and the set of cells flushed; files as folds over operations |
| C114 | `AuxPack`: `fc2d_geoclaw_local_ghost_pack_aux`, the part of `clawpatch_ghost_comm` for extra fields | the loops visit a list of locations without gaps in the buffer; lemmas of C41 |
| C115 | `GeoDiag`: `fc2d_geoclaw_fort_conservation_check` | the loops add one cell after the other, as for C53 |
| C116 | `DataFile`: `opendatafile` | induction over the lines of the file |
| C117 | `RegionRead`: `set_regions`, with `DataFile` | induction over the number of regions that are read |
| C118 | `ValueCount`: `get_value_count` on lines of 128 characters | induction over the values of the line |
| C119 | `GeoParam`: `set_geo`, list-directed input on lines of tokens | the file is written by a specification; one lemma per kind of input |

## Where the code and the properties disagree

Proved as theorems (suffix `_counterexample` or as the text of the claim says):

* C02: keys longer than 981 characters overrun a stack buffer in `check_vt`.
* C03: `regression_check` is packed as a raw pointer.
* C05: `pow_int` squares once too often: overflow from 2^16 on.
* C20: two consecutive serialised sections without a barrier may overlap.
* C30: `nstep = 0` passes the options check and divides by zero.
* C36, C38: with one ghost layer, writes outside of arrays.
* C37: `average2coarse` offsets the upper children by `mx/2` rows: wrong for `my != mx`.
* C41: patches with fewer than `4*mbc` cells lose interior cells in the exchange; mixed sizes fail an assertion.
* C43: the copy constructor leaves the data pointer unset; self-assignment in debug builds loses the data.
* C45: buffer length 0 overflows. C47: gauges on shared block edges are counted twice and overrun an array;
  gauges outside are looked up at index -1.
* C49: a user string of 47 characters loses its last one when read. C50: lengths 15 modulo 16 need 17 padding bytes.
* C52: coarsening and refining at once unless the coarsening threshold is at most the other; unchecked
  `threshold-variable`. C53: a mapping in use without metric terms reads a null pointer.
* C54: BRICK2C asserts on a pointer comparison. C56: different error codes on different processes, processes left
  waiting, NULL with success, unset communicator.
* C57: surviving patches keep stale patch numbers. C61: `desired_cfl > max_cfl` can repeat the first step for ever.
* C62: face copies before the exchange read ghost patches. C64: unaccounted time is off by up to 2 s.
* C66: unknown boundary codes are skipped silently; walls with too few components write out of bounds.
* C68: more rows than columns, or an odd number of ghost layers, leave ghost cells unset.
* C70: the default `mcapa = -1` is used as an array index; `flux2fw` uses `dtdx1d(i-1)` for the right cell.
* C73: `average_area` offsets the upper children by `mx/2` rows: for `my > mx` rows of areas are never set. Volumes on
  extruded meshes are summed over subcells in all three directions though only two are refined.
* C76: the default tagging routines loop over all ghost cells. At a corner where three blocks meet nothing fills the corner ghost cells, so that
  tags there depend on old contents of memory (`C76_tags_counterexample`: criterion `value`).
* C77: without MPI I/O only process 0 opens the file, but all processes write through `s->file`, which is uninitialised on the others
  (`C77_noMpiio_counterexample`). The size of the connectivity of a patch is computed with type `int` and overflows for eight patches of
  8192 by 8192 cells (`C77_large_counterexample`); byte counts above 2 GB per patch do not fit the count of `MPI_File_write`. Without MPI I/O
  `fwrite` of zero bytes is taken for a failure (`C77_empty_counterexample`: no equations). `fclaw2d_clawpatch_output_vtk` ignores the result.
* C78: the formats of the ASCII files hold five digits, so a frame with 100000 patches or more cannot be read
  (`C78_manyPatches_counterexample`). From frame 10000 on the name overflows a buffer (`C78_frameNumber_counterexample`). Process 0 clears
  "fort.qXXXX", but the patches are appended to the file with the option `prefix` (marked as deprecated), so with another prefix old contents
  stay (`C78_prefix_counterexample`), and a prefix of more than five characters cuts off the number of the frame
  (`C78_longPrefix_counterexample`). More than 20 components (5 in 3D) stop the program (`C78_components_counterexample`). Output sets values
  below 1e-99 to zero in the solution itself (`C78_solution_counterexample`).
* C79: the serialized section does not protect the TikZ file, since the text is written when the buffer is full or at
  `fclose`, after the section: processes may come in any order (`C79_order_counterexample`), and if a process prints more
  than fits in its buffer (about 32 patches with 4096 characters), another process may write into the middle of a line
  (`C79_torn_counterexample`). The edges of patches are computed by truncating a rounded quotient: with five blocks in a
  row the fourth is drawn on top of the third (`C79_brick_counterexample`). With a maximal level from 16 on, `pow_int` has
  undefined behaviour (`C79_level_counterexample`). The barrier uses MPI_COMM_WORLD instead of the communicator of the domain.
* C80: the Clawpack 5 routines have the number of ghost layers built in. With four layers, the outer two are not filled
  from larger neighbours (`C80_interpolate_counterexample`); with one, filling a corner writes outside of the array
  (`C80_corner_counterexample`); with three, packing a patch for another process ends the program
  (`C80_exchange_counterexample`), and time interpolation leaves out a layer (`C80_time_counterexample`). Tagging for
  refinement passes scalars where the criteria expect arrays over all variables, so criteria other than the value need
  the threshold variable 1 (`C80_tag_counterexample`).
* C81: where three blocks meet at a corner, the Clawpack 5 step turns the corner for the sweep in x but not for the
  sweep in y, so that the result is not that of the method nor that of Clawpack 4.6 (`C81_corner_counterexample`). The
  default `mcapa` of -1 is used as an index (`C81_default_counterexample`). Limiter 6 is minmod here, the generalized
  minmod in Clawpack 4.6 (`C81_limiter_six`; the help text has 0 to 4 only).
* C82: refinement makes depths negative where the ground is above the surface (`C82_negative_counterexample`; clean-up
  comes before the next step only); averaging such cells before that divides by zero if the depths add up to zero
  (`C82_division_counterexample`) or gives negative depths (`C82_coarse_negative_counterexample`). A dry valley below
  the sea level is flooded on refining (`C82_valley_counterexample`); the shore of a lake at another height than the sea
  level stays dry (`C82_lake_counterexample`). Averaging creates water where only some of the four cells are wet
  (`C82_mass_counterexample`) and, with capacities that differ, moves the surface (`C82_capacity_counterexample`).
  Interpolation gives momentum to ghost cells without water (`C82_momentum_counterexample`), sets two ghost layers only
  (`C82_layers_counterexample`) and takes the number of columns for that of rows (`C82_tall_counterexample`).
* C83: at the lower left corner averaging divides by the area of another ghost cell (`C83_area_counterexample`);
  interpolation takes the wrong quarter of the large cell at the other corners (`C83_half_counterexample`) and leaves the
  range of the solution beyond two layers (`C83_layers_counterexample`). The mapping puts a ghost cell at a corner on the
  cell of its own block that it is folded onto, not on the one of the other block whose value it gets
  (`C83_place_counterexample`; at faces they agree, `C83_place_face`).
* C84: coarsening divides by the volume of the four fine cells, not by the one of the coarse cell (the line is commented
  out), while refining uses the latter: if volumes do not add up exactly, coarsening does not undo refinement
  (`C84_roundtrip_counterexample`), other than in 2D (C40).
* C85: refinement scans all layers including the ghost layers above and below (`tag4refinement.f90` 31), coarsening only
  layers `1` to `mz` (`tag4coarsening.f90` 74). With the criteria value and minmax and equal thresholds a family can be
  tagged for coarsening while each member is tagged for refinement (`C85_exclusive_counterexample`). The 3D gradient
  criterion ignores the mapping.
* C87: in `thunderegg_apply_bc_default.f90` the Laplacian is subtracted inside of the loop over the faces (96-102) and `q` is
  not cleared: boundary values of one side are subtracted again for every boundary side that follows, that is on every patch
  at a corner of the domain (`C87_corner_counterexample`). `fivePoint` and `varpoisson` fill ghost cells with `-u` whatever the
  option `boundary_conditions` says (`C87_neumann_counterexample`), and the routine leaves out the coefficient of `varpoisson`
  (`C87_beta_counterexample`). `C87_bc` says exactly what is done.
* C88: in `fc3d_clawpack46_flux3.f` the G part splits `cpapdq`, `cmapdq` and so on in place of `cpapdq2`, …, so that with
  `method(3) = 22`, the default order "2 2 2", correction waves are not propagated twice in one of the two directions, unlike
  in the H part (`C88_default_order_counterexample`). `gadd(m,i,2,0)` uses `dtdx1d(i-1)` for a wave that enters cell `i`, and
  left going waves use `dtdz1d(i)`, `dtdy1d(i)` though they enter cell `i-1`: with a capacity function the result is not that
  of the method and depends on the names of the axes (`C88_capacity_counterexample`, `C88_exchange_counterexample`). The default
  `mcapa = -1` makes the program use unset ratios and an index out of bounds (`C88_default_capacity_counterexample`).
  `method(3) < 0` is documented as dimensional splitting but is the donor cell method; orders such as "1 2" use unset parts of
  the work array (`unset`). `C88_step` says exactly what is done.
* C89: the code 2 (periodic) at a side without a neighbour prints a line and goes on, with ghost cells that hold whatever they held
  (`C89_periodic_counterexample`; in 2D the program stops); unknown codes are skipped and walls with too few components write out
  of bounds, as in 2D.
* C90: the check at the start lets up to one per cent of the domain be without data (a warning is printed); cells that are cut by a
  hole count the part without data as height zero (`C90_hole_counterexample`: height 2/3 where all data say 1). Cells without any
  data stop the program (`C90_stop`).
* C91: the pillow disk and pillow sphere clamp the larger coordinate at 1e-10, so places closer to the middle of a block than this
  are mapped to the same point (`C91_pillowdisk_counterexample`); near the equator the height is set to zero, so that points of the
  pillow sphere may be off the sphere by 5e-11. `mappings/cylinder/mapc2m_cylinder.f`, which no makefile compiles, defines
  `mapc2m_torus` once more.
- C92: with the default of the option `mcapa`, -1, for a problem in the plane, the update of a patch reads `aux(-1,...)`
  (`C92_default_counterexample`; `geoclaw_step2_wrap_fort.f` tests `mcapa .eq. 0` only). A layer of water that is thinner than the dry tolerance is treated
  as dry next to deeper water, though its depth is not removed: a level surface with such a layer moves (`C92_thin_counterexample`).
  Where three blocks meet, `q` is replaced in the corner and `aux` is not, so that these patches are excluded.
- C93: on the sphere the speeds and waves are scaled by the length of an edge, but the flow in the cell is not: a closed ocean
  gains or loses volume (`C93_sphere_counterexample`, `C93_sphere_partial` gives the exact amount). `b4step2` sets negative depths
  to zero, which makes water; second order corrections without limiter may push water through a wall.
- C94: the second component of the Coriolis step uses the first one after it was updated
  (`geoclaw_src2_fort.f90`): the momentum is damped at second order (`C94_coriolis_counterexample`).
- C95: of overlapping regions the smallest minimum level counts, contrary to the comment in `fc2d_geoclaw.cpp`
  (`C95_overlap_counterexample`). During initialisation `fc2d_geoclaw_flag2refine` returns 0 for coarsening with the
  comment "Don't coarsen", but 0 lets the family be coarsened: initial refinement is undone where no region
  forbids it (`C95_initial_counterexample`). Speed tolerances are compared with the level of the children when
  coarsening (`C95_speed_counterexample`), and cells where `allowflag` is false do not prevent coarsening, contrary to the
  comment (`C95_allow_counterexample`): such patches alternate. A region which touches only a sibling may coarsen a family of which
  a patch is refined (`C95_exclusive_counterexample`).
- C96: text after a number that is not white space, for example a comma, stops the conversion: the other elements become zero
  without notice (`C96_comma_counterexample`); numbers outside of the range of int wrap
  (`C96_range_counterexample`).
- C97: `fclaw_app_options_parse` tests `retval > 0` after `sc_options_load`, which reports failure by -1
  (`C97_file_counterexample`); the order in which configuration files are read is that of a hash table
  (`C97_order_counterexample`); failure to save the options is seen by the first process only
  (`C97_save_counterexample`); a package registered without file (as the dummy application does) and a parse without file to save
  to pass NULL to functions which do not allow it (`C97_null_counterexample`).
- C98: the function that changes the perspective is defined as `fclaw2d_patch_edge_swap` in `forestclaw3d.c`, but declared
  as `fclaw3d_patch_edge_swap` in `forestclaw3d.h`, and `fclaw2d_to_3d.h` does not rename it: programs that call the declared function do
  not link. Likewise `fclaw3d_patch_get_edge_type` is declared with the prefix `fclaw2d`. The behaviour of the function bodies is
  proved.
- C99: (1) in `fc2d_geoclaw_run.c` a step that touches the motion of the ground is accepted whatever its CFL number, and the next step is
  computed as `dt_minlevel*desired_cfl/maxcfl` with the CFL number of the small steps inside, though `dt_minlevel` is the large step. The step
  after the motion may so exceed `max_cfl` by any factor (`C99_cfl_counterexample`: by 9) and is kept. (2) A motion with begin equal to end, for
  which `fc2d_geoclaw_check_dtopotime` has a branch, makes `step_dtopo` convert 0/0 to an integer (`C99_instant_counterexample`).
  (3) Output style 4 ignores the motion (`C99_style4_counterexample`).
- C100: (1) the loop in `topo_module.f90:206-216` that decides whether a file with topography meets a file with displacements overwrites its
  result for each of them, so only the last one counts; a file that meets the first but not the last is never moved
  (`C100_saved_counterexample`). (2) `step_dtopo` stretches the motion to the end of a step which ends less than 1% of a step after it; then no step
  begins at the end of the motion, and `b4step2`, which takes the heights only at times of the motion, leaves all patches with the ground of a time
  before its end (`C100_stale_counterexample`: three quarters of the motion).
- C102: for files with positions `read_topo_header` takes `xhi` and `yll` from the last line and divides the number of lines by the length of the first
  row, without a check that there is no remainder. If the end of a file is missing, the file is accepted and the heights of all nodes move to other places
  (`C102_truncated_counterexample`).
- C103: as in C102, `read_dtopo_header` divides the number of lines without a check. If the last line of a file is missing, the last time is not counted, and
  the ground keeps the displacements of the time before (`C103_truncated_counterexample`: with two times, no motion at all).
- C104: `set_topo_for_dtopo` leaves a node without value if no file with topography contains it, and the following check that the files cover the domain
  (`topoarea`) counts the grids of the files with displacements as data, so the program goes on and uses these values
  (`C104_uncovered_counterexample`: topography for one half of the domain, displacements for all of it).
- C105: `add_perturbation` divides the integral over the part of a cell inside of the area of the file by the area of this part, and adds the result to the whole
  cell. A hump of volume 1 inside of one cell with the area 4 adds the volume 4 (`C105_volume_counterexample`), so the initial volume changes with the
  level of refinement. The sum is not checked: the depth can become negative (`C105_negative_counterexample`).
- C106: friction_module.f90 (lines 10-14) lists the constant coefficient as the last choice, but `fc2d_geoclaw_setaux` starts from zero and `fc2d_geoclaw_src2` uses
  the field only: a cell outside of all regions has no friction (`C106_default_counterexample`).
- C107: geoclaw_gauges_fort.f90 takes the cell that contains the gauge as the lower left one of the four cells of the interpolation; for a gauge left of or below the
  centre the weights are negative. Depth 1 on the left and 10 on the right gives a negative depth (`C107_range_counterexample`). A solution with more than three components
  would overflow arrays with three numbers in `geoclaw_gauge_update_default` (the model gives no result then).
- C108: `geoclaw_read_gauges_data_default` reads lines with a buffer of 200 characters; the smallest intervals of all gauges are in one line, so with many gauges (100 with a notation of one
  digit, fewer with longer ones) the last ones get zero (`C108_cut`, `C108_long_counterexample`). The program ends with `exit(0)`, the status of success, if the header is wrong.
- C110: zeroin in cellave2.f, which replaces the function `sign` of Fortran, has `b = b - xm` where `b = b - tol1` is meant. With `xm < 0` this moves away from the interval, by half of its length
  (`C110_range_counterexample`: a fraction of 9/8). The polygon of a cell with opposite corners on the same side is ambiguous: `C110_both` leaves it out.
- C111: `parse_values` takes only blanks as separators. If a header has a tab between name and value, no number is found, there is no message, and `values(1)` is
  used without having been set (`C111_tab_counterexample`). With ten words the run stops (`C111_ten_counterexample`), behind column 80 nothing is read (`C111_long_counterexample`).
* **C113**: GeoClaw's ASCII writer adds the height of the surface to the components, but its check still admits five equations; with format `5E26.16` the sixth value moves to a line of its own (`C113_five_counterexample`). File names hold four digits of the number of the frame, so that frame 10000 replaces frame 0 (`C113_names_counterexample`).* **C114**: `fc2d_geoclaw_local_ghost_pack_aux` sets `nghost = 2` instead of using `mbc`. With one layer of ghost cells it reads and writes outside of the auxiliary data, with three or more the sizes differ and the program ends.* **C115**: with a mapping, `fc2d_geoclaw_fort_conservation_check` uses the local variable `c_kahan` without a value (its caller passes an argument of this name that the routine does not declare), and takes `q(i,j,m)` of an array `q(meqn,…,…)`: the sums are wrong and memory outside of the array is read.* **C116**: `opendatafile` reads the first line behind the comments and does not go back (the `rewind` is commented out although the description of the routine promises it). Data files without a blank line behind the comments lose their first line of data.* **C117**: `set_regions` reads the number of regions with the format `(i2)`. With 100 regions or more only the first two digits count, and the other regions are ignored without an error. (The variable `module_setup` that decides if the file is read has no initial value either.)* **C118**: `get_value_count` uses the variable `found` before it is set if the line begins with a blank: with the value `.false.` one value too many is counted. A line whose mark `=:` lies behind column 128 counts as one value.* **C119**: `set_geo` with friction and no coefficient writes `manning_break(0)`, outside of the array; the theorem is about files with at least one coefficient.
Seen but not modelled: `transform_face2` with `based = 0` is documented differently; the error code of time
interpolation is ignored; the parameter `maxlevel` of the register reset is ignored; `write_p4est_v1` asserts the
wrong way on errors and destroys an array it did not make; `corner_neighbors` uses a patch number as block number
in one log; `clawpack46_limiter` (not used) does not skip unlimited waves; `fc2d_clawpack46_src2` passes the block
number as patch number; order other than 1, 2 with transverse waves uses unset values; limiters with one ghost layer
read outside of `wave`; geoclaw's gauge printer has room for three values; without files of moving ground GeoClaw computes the topography again in every step
(`tmin = 1e99` and `tmax = 0`); its option `use_fwaves` is not used; counts beyond 2 GiB in files.

## Not modelled

Output (ascii for GeoClaw), applications, GeoClaw's moving ground, storms, cudaclaw, Clawpack 5 in 3D,
the ThunderEgg library (its operators in ForestClaw are modelled), metric terms other than areas, logging, performance statistics, user data of clawpatch beyond
solution, areas and flux registers.

## Axioms of every claimed theorem

From `#print axioms`, run on the build of this commit. Names are relative to `Fclaw`.
No theorem depends on anything else; in particular none on `sorryAx`, `Lean.ofReduceBool` or `Lean.trustCompiler`.

**No axioms** (5): `Bc.C66_code_counterexample`, `Bc3.C89_code_counterexample`, `ParFile.C49_user_string`, `PatchInfo.C57_blockno_partial`, `Serial.C20_consecutive_sections_counterexample`

**propext** (7): `Adapt.C08_tree`, `App.C97_destroy`, `App.C97_file_counterexample`, `App.C97_status`, `ArrayBox.C43_self_assignment_counterexample`, `PatchInfo.C57_patchno_partial`, `Rays.C101_phases`

**propext, Quot.sound** (55): `Adapt.C08_covered_once`, `Adapt.C08_right_patches`, `App.C97_agree_partial`, `App.C97_null_counterexample`, `App.C97_order_counterexample`, `App.C97_save_counterexample`, `ArrayBox.C43_copy_constructor_counterexample`, `Bc.C66_wall_counterexample`, `Bc3.C89_wall_counterexample`, `DataFile.C116_lost_counterexample`, `DataFile.C116_ready_partial`, `DataFile.C116_stop`, `Domain.C07_families_disjoint`, `Edge.C98_edge_boundary`, `Edge.C98_edge_swap`, `Exchange.C11_setup_ready`, `Exchange.C11_slots`, `FaceNbr.C12_face_swap`, `FaceNbr.C12_face_swap_all`, `FaceNbr.C58_corner_boundary`, `GeoAscii.C113_names_counterexample`, `GeoAscii.C113_names_partial`, `GhostFill.C62_counterexample`, `Global.C02_global_roundtrip`, `Global.C02_long_key_counterexample`, `Global.C02_unregistered_aborts`, `NbrType.C51`, `NbrType.C51_run`, `Options.C03_options_roundtrip_partial`, `Options.C03_regression_check_counterexample`, `Packing.C01_double`, `Packing.C01_int`, `Packing.C01_size_t`, `Packing.C01_string`, `ParFile.Fault.C56_count_counterexample`, `ParFile.Fault.C56_create_counterexample`, `ParFile.Fault.C56_data_counterexample`, `ParFile.Fault.C56_short_counterexample`, `ParFile.Fault.C56_write_all_counterexample`, `PointerMap.C04_destroy_once`, `PointerMap.C04_get_last`, `PointerMap.C04_iterate`, `PointerMap.C04_overwrite_destroys_now`, `PowInt.C05_powInt_zero`, `RegionRead.C117_empty`, `RegionRead.C117_hundred_counterexample`, `RegionRead.C117_regions_partial`, `Serial.C20_exclusive`, `Serial.C20_no_deadlock`, `Serial.C20_one_at_a_time`, `Smooth.C22_independent`, `Smooth.C22_smooth`, `ValueCount.C118_blank_counterexample`, `ValueCount.C118_count_partial`, `ValueCount.C118_long_counterexample`

**propext, Classical.choice, Quot.sound** (490): `Adapt.C08_callbacks`, `Adapt.C08_forest`, `Advance.C24_subcycle`, `Advance.C25_exchange`, `Advance.C26_coarse_first`, `Advance.C27_lockstep`, `Advance.C59_cfl`, `Advance.C60_collective`, `App.C97_calls`, `App.C97_exit_partial`, `App.C97_values_partial`, `ArrayBox.C43`, `ArrayBox.C43_partition`, `ArrayBox.C43_restore`, `Ascii.C78_completes_partial`, `Ascii.C78_components_counterexample`, `Ascii.C78_frameNumber_counterexample`, `Ascii.C78_frame_partial`, `Ascii.C78_longPrefix_counterexample`, `Ascii.C78_manyPatches_counterexample`, `Ascii.C78_others_partial`, `Ascii.C78_prefix_counterexample`, `Ascii.C78_same_partial`, `Ascii.C78_solution_counterexample`, `Ascii.C78_solution_partial`, `AuxPack.C114_more_counterexample`, `AuxPack.C114_one_counterexample`, `AuxPack.C114_roundtrip_partial`, `Bc.C66_frame`, `Bc.C66_partial`, `Bc.C66_stop`, `Bc3.C89_frame`, `Bc3.C89_layers`, `Bc3.C89_partial`, `Bc3.C89_periodic`, `Bc3.C89_periodic_counterexample`, `Bc3.C89_stop`, `BlockFace.C55_flags`, `BlockFace.C55_physical`, `Brick.C54`, `Brick.C54_brick2c`, `Brick.C54_no_brick_counterexample`, `CellAve.C110_both`, `CellAve.C110_line`, `CellAve.C110_range_counterexample`, `CellAve.C110_range_partial`, `CellAve.C110_whole`, `CellAve.C110_zeroin`, `CoarseFine.C67_both`, `CoarseFine.C67_corner`, `CoarseFine.C67_face`, `CoarseFine.C68_bounds`, `CoarseFine.C68_corner_partial`, `CoarseFine.C68_face_partial`, `CoarseFine.C68_linear`, `CoarseFine.C68_mean`, `CoarseFine.C68_odd_counterexample`, `CoarseFine.C68_single_counterexample`, `CoarseFine.C68_tall_counterexample`, `Conserve.C63`, `Conserve.C63_conserved`, `Conserve.C63_progress`, `CopyGhost.C34_copy_corner`, `CopyGhost.C34_copy_face`, `CopyGhost.C34_update`, `Correction.C36`, `Correction.C36_f2c`, `Correction.C36_mbc1_counterexample`, `Correction.C36_samesize`, `Correction.C36_steps`, `DataFile.C116_many_counterexample`, `Diag.C53`, `Diag.C53_conserved`, `Diag.C53_distribution`, `Diag.C53_mapped_counterexample`, `Diag.C65`, `Domain.C06_blocks`, `Domain.C06_exchange`, `Domain.C06_global`, `Domain.C06_local`, `Domain.C07_families_complete`, `Domain.C07_iterate_families`, `Domain.C07_iterate_level`, `Domain.C07_iterate_patches`, `Dtopo.C100_all_partial`, `Dtopo.C100_bounds`, `Dtopo.C100_determined`, `Dtopo.C100_displacement`, `Dtopo.C100_final_partial`, `Dtopo.C100_ground`, `Dtopo.C100_saved_counterexample`, `Dtopo.C100_saved_partial`, `Dtopo.C100_stale_counterexample`, `DtopoRead.C103_read`, `DtopoRead.C103_short_partial`, `DtopoRead.C103_truncated_counterexample`, `Edge.C98_edge2_children`, `Edge.C98_edge_found`, `Edge.C98_edge_inverse`, `Edge.C98_edge_point`, `Edge.C98_ghost_interior`, `Elliptic.C87_apply`, `Elliptic.C87_bc`, `Elliptic.C87_bc_partial`, `Elliptic.C87_beta_counterexample`, `Elliptic.C87_contract`, `Elliptic.C87_corner_counterexample`, `Elliptic.C87_definite`, `Elliptic.C87_fixpoint`, `Elliptic.C87_internal`, `Elliptic.C87_neumann_counterexample`, `Elliptic.C87_solve`, `Elliptic.C87_symmetric`, `Exchange.C11_exchange`, `Extrude.C84_coarsen_mass`, `Extrude.C84_independent`, `Extrude.C84_layers`, `Extrude.C84_refine_mass`, `Extrude.C84_roundtrip_counterexample`, `Extrude.C84_roundtrip_partial`, `FaceNbr.C12_boundary_type`, `FaceNbr.C12_face_neighbors`, `FaceNbr.C12_normal_match`, `FaceNbr.C58_corner_found`, `Friction.C106_default_counterexample`, `Friction.C106_off`, `Friction.C106_partial`, `Friction.C106_unique`, `Gauge.C45`, `Gauge.C45_independent`, `Gauge.C45_zero_buffer_counterexample`, `Gauge.C46`, `Gauge.C47_found`, `Gauge.C47_middle_counterexample`, `Gauge.C47_not_brick_counterexample`, `Gauge.C47_outside_counterexample`, `Gauge.C47_overrun`, `Gauge.C47_partial`, `Gauge.C47_shared_edge_counterexample`, `Gauge.C47_single_block_partial`, `GaugeRead.C108_cut`, `GaugeRead.C108_header`, `GaugeRead.C108_long_counterexample`, `GaugeRead.C108_none`, `GaugeRead.C108_partial`, `Geo.C82_average_corner`, `Geo.C82_average_face`, `Geo.C82_before_step`, `Geo.C82_capacity_counterexample`, `Geo.C82_coarse_negative_counterexample`, `Geo.C82_coarsen`, `Geo.C82_division_counterexample`, `Geo.C82_interpolate_corner_partial`, `Geo.C82_interpolate_face_partial`, `Geo.C82_lake_counterexample`, `Geo.C82_layers_counterexample`, `Geo.C82_mass_counterexample`, `Geo.C82_merged_bound`, `Geo.C82_merged_conserves_partial`, `Geo.C82_merged_nonneg`, `Geo.C82_merged_rest_partial`, `Geo.C82_merged_velocity`, `Geo.C82_momentum_counterexample`, `Geo.C82_negative_counterexample`, `Geo.C82_refine`, `Geo.C82_refine_conserves`, `Geo.C82_rest_average_corner`, `Geo.C82_rest_average_face`, `Geo.C82_rest_coarsen`, `Geo.C82_rest_interpolate_corner_partial`, `Geo.C82_rest_interpolate_face_partial`, `Geo.C82_rest_refine`, `Geo.C82_round_trip`, `Geo.C82_start`, `Geo.C82_tall_counterexample`, `Geo.C82_valley_counterexample`, `GeoAscii.C113_after`, `GeoAscii.C113_files_partial`, `GeoAscii.C113_five_counterexample`, `GeoAscii.C113_patch_partial`, `GeoAscii.C113_stop`, `GeoBc.C112_fill`, `GeoBc.C112_frame`, `GeoBc.C112_rest`, `GeoBc.C112_stop`, `GeoDiag.C115_index_counterexample`, `GeoDiag.C115_total_partial`, `GeoDiag.C115_value_counterexample`, `GeoGauge.C107_dry`, `GeoGauge.C107_linear`, `GeoGauge.C107_range_counterexample`, `GeoGauge.C107_range_partial`, `GeoGauge.C107_surface`, `GeoGauge.C107_total`, `GeoParam.C119_parameters`, `GeoRun.C99_cfl_counterexample`, `GeoRun.C99_cfl_partial`, `GeoRun.C99_dtopo_step`, `GeoRun.C99_frame_numbers`, `GeoRun.C99_instant_counterexample`, `GeoRun.C99_interval`, `GeoRun.C99_replay`, `GeoRun.C99_style1_steps`, `GeoRun.C99_style1_times`, `GeoRun.C99_style3_steps`, `GeoRun.C99_style4_counterexample`, `GeoRun.C99_style4_steps`, `GeoStep.C92_default_counterexample`, `GeoStep.C92_rest_partial`, `GeoStep.C92_thin_counterexample`, `GeoStep.C93_closed_partial`, `GeoStep.C93_interface`, `GeoStep.C93_momentum`, `GeoStep.C93_periodic`, `GeoStep.C93_speeds`, `GeoStep.C93_sphere_counterexample`, `GeoStep.C93_sphere_partial`, `GeoStep.C93_wall`, `GeoStep.C94_angle`, `GeoStep.C94_coriolis_counterexample`, `GeoStep.C94_coriolis_partial`, `GeoStep.C94_depth`, `GeoStep.C94_friction`, `GeoStep.C94_manning`, `GeoTag.C95_allow_counterexample`, `GeoTag.C95_coarsen_partial`, `GeoTag.C95_exclusive_counterexample`, `GeoTag.C95_exclusive_partial`, `GeoTag.C95_initial_counterexample`, `GeoTag.C95_overlap_counterexample`, `GeoTag.C95_refine_partial`, `GeoTag.C95_speed_counterexample`, `GeoTag.C95_stable_partial`, `GeoTag.C95_touch`, `GhostAll.C69_distribution`, `GhostAll.C69_received`, `GhostAll.C69_unique`, `GhostAll.C69_values`, `GhostFill.C32_after_exchange`, `GhostFill.C32_filled`, `GhostFill.C32_reads`, `GhostFill.C33_before_sending`, `GhostFill.C33_local`, `GhostFill.C33_once`, `GhostFill.C62_partial`, `GhostPack.C41_assertion_counterexample`, `GhostPack.C41_partial`, `GhostPack.C41_received`, `GhostPack.C41_small_counterexample`, `HeaderText.C111_head_partial`, `HeaderText.C111_long_counterexample`, `HeaderText.C111_order`, `HeaderText.C111_tab_counterexample`, `HeaderText.C111_ten_counterexample`, `HeaderText.C111_values_partial`, `Indirect.C16_indirect_corner`, `Indirect.C16_indirect_face`, `Invariance.C76_coarsen_partial`, `Invariance.C76_progress_partial`, `Invariance.C76_refine_partial`, `Invariance.C76_same_partial`, `Invariance.C76_tags_counterexample`, `Layout.C80_coarsen_tags`, `Layout.C80_corner_counterexample`, `Layout.C80_counterpart`, `Layout.C80_diagnostics`, `Layout.C80_exchange_counterexample`, `Layout.C80_history_partial`, `Layout.C80_interpolate_counterexample`, `Layout.C80_layout`, `Layout.C80_refine_tags_partial`, `Layout.C80_tag_counterexample`, `Layout.C80_time_counterexample`, `Layout.C80_two_layers`, `Ledger.C31_finalized`, `Ledger.C31_running`, `Lifecycle.C21_all_destroyed`, `Lifecycle.C21_one_owner`, `Lifecycle.C21_protocol`, `Lifetime.C75_partial`, `Lifetime.C75_partition_partial`, `Lifetime.C75_progress_partial`, `Mapping.C91_bilinear`, `Mapping.C91_cubedsphere`, `Mapping.C91_fivepatch`, `Mapping.C91_periodic`, `Mapping.C91_pillowdisk5_partial`, `Mapping.C91_pillowdisk_counterexample`, `Mapping.C91_pillowdisk_partial`, `Mapping.C91_pillowsphere_partial`, `Mapping.C91_rotate`, `Mapping.C91_scale_shift`, `Mapping.C91_squareddisk`, `Metric.C73_any_element_partial`, `Metric.C73_counterexample`, `Metric.C73_extruded_counterexample`, `Metric.C73_progress`, `Metric.C73_same_partial`, `Metric.C73_sum`, `Metric.C73_total_partial`, `OptArray.C96_comma_counterexample`, `OptArray.C96_doubles`, `OptArray.C96_ints`, `OptArray.C96_null`, `OptArray.C96_range_counterexample`, `Overlap.C19_overlap`, `ParFile.C48`, `ParFile.C48_layout`, `ParFile.C48_open_write`, `ParFile.C49_header_counterexample`, `ParFile.C49_header_partial`, `ParFile.C49_partial`, `ParFile.C50_counterexample`, `ParFile.C50_partial`, `ParFile.C50_write_counterexample`, `ParFile.Fault.C56_block_partial`, `ParFile.Fault.C56_block_serial_partial`, `ParFile.Fault.C56_create_partial`, `ParFile.Fault.C56_field_partial`, `ParFile.Fault.C56_field_serial_partial`, `Parallel.C72_exists`, `Parallel.C72_progress`, `Parallel.C72_run`, `Parallel.C72_same`, `Partition.C09_callbacks`, `Partition.C09_each_new_once`, `Partition.C09_each_retained_once`, `Partition.C09_same_patch`, `Partition.C10_all`, `Partition.C10_process`, `PatchInfo.C57_partition_counterexample`, `PatchInfo.C57_regrid_counterexample`, `Perturb.C105_file`, `Perturb.C105_negative_counterexample`, `Perturb.C105_partial`, `Perturb.C105_rest`, `Perturb.C105_volume_counterexample`, `Pillow.C83_area_counterexample`, `Pillow.C83_average_partial`, `Pillow.C83_copy`, `Pillow.C83_half_counterexample`, `Pillow.C83_interpolate`, `Pillow.C83_interpolate_bounds`, `Pillow.C83_interpolate_partial`, `Pillow.C83_layers_counterexample`, `Pillow.C83_neighbor`, `Pillow.C83_place_counterexample`, `Pillow.C83_place_face`, `PowInt.C05_powInt_counterexample`, `PowInt.C05_powInt_iff`, `PowInt.C05_powInt_partial`, `PowInt.C05_powInt_two`, `Rays.C101_component`, `Rays.C101_distribution`, `Rays.C101_off`, `Rays.C101_rays`, `RegionRead.C117_short`, `Regrid.C23_families`, `Regrid.C23_levels`, `Repopulate.C74_events_partial`, `Repopulate.C74_history_partial`, `Repopulate.C74_init_partial`, `Repopulate.C74_mass_partial`, `Repopulate.C74_progress_partial`, `Repopulate.C74_same_partial`, `Repopulate.C74_valid_partial`, `Run.C28_fixed_dt`, `Run.C28_output_times`, `Run.C29_rejected`, `Run.C29_rejected_style3`, `Run.C30_nstep_zero`, `Run.C30_style1_regrid`, `Run.C30_style3`, `Run.C30_style4`, `Run.C61_counterexample`, `Run.C61_style1`, `Run.C61_style3`, `Search.C17_found_once`, `Search.C17_search_points`, `Search.C18_distribution`, `Search.C18_integrate_rays`, `Serial.C20_bounded`, `Sync5.C86`, `Sync5.C86_conserved`, `Sync5.C86_f2c`, `Sync5.C86_loops46`, `Sync5.C86_progress`, `Sync5.C86_samesize`, `Sync5.C86_step`, `Tag.C52_coarsen`, `Tag.C52_exclusive`, `Tag.C52_refine`, `Tag.C52_thresholds_counterexample`, `Tag.C52_variable_counterexample`, `Tag3.C85_coarsen`, `Tag3.C85_exclusive_counterexample`, `Tag3.C85_exclusive_partial`, `Tag3.C85_flat`, `Tag3.C85_refine`, `TeVector.C109_again`, `TeVector.C109_get`, `TeVector.C109_same`, `TeVector.C109_store`, `Tikz.C79_brick_counterexample`, `Tikz.C79_completes_partial`, `Tikz.C79_level_counterexample`, `Tikz.C79_mesh_partial`, `Tikz.C79_order_counterexample`, `Tikz.C79_pieces_partial`, `Tikz.C79_serial_partial`, `Tikz.C79_torn_counterexample`, `TimeInterp.C42`, `TimeSync.C35`, `Timer.C44`, `Timer.C64`, `Timer.C64_unaccounted`, `Timer.C64_unaccounted_counterexample`, `Topo.C90_area`, `Topo.C90_hole_counterexample`, `Topo.C90_partial`, `Topo.C90_refine`, `Topo.C90_same`, `Topo.C90_start`, `Topo.C90_stop`, `Topo.C90_volume`, `TopoRead.C102_grid`, `TopoRead.C102_missing`, `TopoRead.C102_short_partial`, `TopoRead.C102_truncated_counterexample`, `TopoRead.C102_xyz`, `TopoStart.C104_ground_partial`, `TopoStart.C104_read`, `TopoStart.C104_saved_partial`, `TopoStart.C104_uncovered_counterexample`, `Transfer.C37_counterexample`, `Transfer.C37_partial`, `Transfer.C38`, `Transfer.C38_one_layer_counterexample`, `Transfer.C39_linear`, `Transfer.C39_no_new_extrema`, `Transfer.C40`, `Transform.C13_face_inverse`, `Transform.C13_face_point`, `Transform.C13_ghost_interior`, `Transform.C13_gluing_2d`, `Transform.C13_same_block`, `Transform.C14_face2_children`, `Transform.C14_face2_same_block`, `Transform.C15_corner2_children`, `Transform.C15_corner_point`, `Vtk.C77_empty_counterexample`, `Vtk.C77_failure`, `Vtk.C77_large_counterexample`, `Vtk.C77_noMpiio_counterexample`, `Vtk.C77_parallel_partial`, `Vtk.C77_same_partial`, `Vtk.C77_serial_partial`, `Wave.C70_bad_capacity`, `Wave.C70_conservation`, `Wave.C70_constant`, `Wave.C70_default_counterexample`, `Wave.C70_feeds_corrections`, `Wave.C70_fwave_counterexample`, `Wave.C70_fwave_partial`, `Wave.C70_local`, `Wave.C70_step`, `Wave.C71_beam_warming_counterexample`, `Wave.C71_limiters`, `Wave.C71_no_new_extrema`, `Wave3.C88_capacity_counterexample`, `Wave3.C88_conservation`, `Wave3.C88_constant`, `Wave3.C88_default_capacity_counterexample`, `Wave3.C88_default_order_counterexample`, `Wave3.C88_exchange_counterexample`, `Wave3.C88_exchange_partial`, `Wave3.C88_local`, `Wave3.C88_method_partial`, `Wave3.C88_rotation`, `Wave3.C88_step`, `Wave5.C81_any_corner`, `Wave5.C81_as_46`, `Wave5.C81_bad_capacity`, `Wave5.C81_conservation`, `Wave5.C81_constant`, `Wave5.C81_corner_counterexample`, `Wave5.C81_default_counterexample`, `Wave5.C81_limiter_six`, `Wave5.C81_local`, `Wave5.C81_step_partial`
