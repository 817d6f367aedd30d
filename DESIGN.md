# Formal model of fidibench in Lean 4

`properties.jsonl` states the properties, `MANIFEST.json` names the theorems of each, `lean/` is the Lake project
(Lean 4.33.0, Mathlib), `seeded/LOG.jsonl` records the wrong programs that the theorems were tested against.

## Layout

* `Verif/Model/*`: the model. Total functions (and, for concurrency, transition relations), one per function of the
  code, each with a comment that cites the file and the lines.
* `Verif/Spec/*` (namespace `Fidi.Spec`): the small independent specification (boxes, periodic arithmetic, reference
  stencil, reference upwind step, reader of the legacy VTK format, rules of the command line, matrix product). It never
  mentions the model.
* `Verif/Lemmas/*`: helper lemmas. They may be as specific to the model as the proofs need.
* `Verif/Props/*`: the property theorems and, beside each, an `example` that shows a concrete non-trivial case in which the
  hypotheses hold.

Names: `Fidi.Cnn_...` proves the property (or one part of it) as stated; `..._partial` proves it under conditions the
English statement does not have; `..._fails` proves that the English statement is false of the code, with a witness.

## Trusted base

* Lean's kernel.
* Axioms: every theorem named in `MANIFEST.json` depends on at most `propext`, `Classical.choice` and `Quot.sound`
  (checked with `#print axioms` for each of them). No axiom is added, there is no `sorry`, `admit`, `native_decide`,
  `bv_decide`, `implemented_by` or `unsafe`. Concrete witnesses are evaluated by the kernel (`decide`, `decide +kernel`).
* That `Verif/Model` says what the code does. The rest of this file lists the points where this needs a decision.
* That `Verif/Spec` and the theorem statements say what the English properties say.

## How the code is modelled

**Undefined behaviour.** Every modelled function returns in `M = Except UB`. The errors are: out-of-bounds access,
division by zero, signed overflow, read of an indeterminate value, null or `end()` dereference, erroneous MPI call,
argument outside the domain of a library function. A theorem that concludes `= .ok ..` proves the absence of all of them.
No theorem assumes it, unless by a hypothesis that is read off the inputs.

**Integers.** `size_t` is a natural number and every operation wraps modulo 2^64. `int` is an integer; overflow is
undefined; conversions between the two are those of an LP64 platform (modulo 2^64, modulo 2^32). Fortran `integer` is
treated like `int` (overflow is an error), the do variable included, which is incremented past its bound. Python integers
are unbounded; NumPy `int32`/Julia `Int64` values outside the range are an error. The index arithmetic of `upwind3.jl`, which
is done in `Float64`, is modelled as exact within 2^53.

**Doubles.** `double` is an arbitrary type `R` with the operations used, written with the usual notation classes and **no
laws**. A theorem about such an `R` is a bit-for-bit statement: it only uses that the same operations are applied to the
same operands in the same order. What needs algebra (conservation, maximum principle, ...) is stated for (ordered) fields
or for the reals, i.e. for exact arithmetic, and the note in the manifest says so. `Spec/Advection.lean` states the advection
equation and derivatives independently of the model (C70, C74); `Model/ExactSin.lean` is the real sine for C73. C58 and C68 bound the rounding errors, for any `R`
with the standard model of floating-point arithmetic (`Spec/Rounding.lean`: relative error of an operation, absolute error
under gradual underflow). `Model/Dbl.lean` is binary64 without overflow: rationals rounded to 53 bits and to multiples of
2^-1074, ties to even; it is proved to satisfy the standard model and serves for counterexamples. `Model/Ieee.lean` adds
overflow, infinities and NaN (`F64`, round to nearest); it leaves out the sign of zero, the payload of a NaN and exception
flags. C69 shows when the computation in `F64` is the one in `Dbl`; `C11_double` that the decomposition chosen with `F64` is the one
of exact arithmetic. `numpy.sum` and the `sum` of Fortran and Julia are a parameter; where the result matters in `F64` they are trusted
to add the values in some order and bracketing, with a bounded number of zeros (`SumsUp`, `Spec/AnyOrder.lean`).
Contraction to fused multiply-add and extended precision are not modelled (they would be another `R`-expression).
What is printed of a double is a function `DoubleText.showDouble` without laws, or of which only is used that it is a word; for C80
it is `%g` with six digits, correctly rounded (`Model/FormatG.lean`; glibc rounds correctly, other libraries need not), and the
texts of NaN and of negative zero carry no sign.
Literals such as `0.1` are parameters; `0.5` is `1/2`.

**Containers.** `std::vector` is a list with checked access, `std::map` a sorted association list (`Model/StdMap.lean`),
memory is unlimited. Callbacks are functions (no side effects).

**MPI.** A world is the list of the filters of the ranks. A window is a buffer of the target; `MPI_Get` is an error for a
bad rank, a negative count, or more elements than the window has. `World.applyFilter` runs the ranks in lock step.
`Model/FilterRun.lean` is the transition system of the ranks as concurrent processes: entering and leaving fences, the
single elements of a get moved in any order between the fence that the target has entered and the one that the origin
leaves. C26 proves that every interleaving ends and ends with the lock-step result. Memory is sequentially consistent
between fences. `MPI_Reduce` may add in any order and bracketing (`MpiSum`). `MPI_Gather` concatenates. Resource calls
are recorded in a trace (C27). MPI is assumed to succeed on correct calls.

**Threads.** `Model/Schedule.lean`: a parallel region is a sequence of work-sharing loops with barriers; the iterations
are handed out in any order to any number of threads that the schedule allows; single loads and stores interleave
arbitrarily. This is the model of OpenMP `parallel for`, OpenACC loops, OpenMP target loops and Fortran
`do concurrent`. The
theorems show that the programs have no races and all executions end with one result. Host/device transfers are the
identity. The innermost `parallel for` of `upwindOMP5.cxx` is executed in order within a team; the teams interleave.
Variables of `do concurrent` are private to an iteration.

**mpinum**, the Python library used by upwindMPI.py, is not in the repository. What is assumed of it is in
`Model/UpwindMpiPy.lean` (`MpiNum.Good`, `getNeighborProc`, `getData`, `checksum`): a uniform decomposition with rank 0 in the low corner,
periodic neighbours, collective `getData` that returns the layer of the other process, `reduce` adding in rank order.

**Files and terminal.** Text is a list of characters. Doubles are formatted by an arbitrary function to a non-empty word
without blanks. Opening and writing files succeeds. Timings are parameters of the programs. `atoi` is modelled (a result
outside `int` is undefined), `atof` is an arbitrary function; the list-directed `read` of matmult is a parameter.

**Evaluation order** within an expression is left to right for Fortran. In C++ no modelled expression depends on it.

Registered tests. CTest passes a test if no FAIL_REGULAR_EXPRESSION is found in its output and, if there is a
PASS_REGULAR_EXPRESSION, that one is found, otherwise if the status is 0. The output is any interleaving of the texts of the
streams of all processes. The regular expressions of CMake are modelled as far as they occur: characters, sets, a starred set;
a backslash in a set stands for itself. That the command can be started and ends in time is assumed.

## What is modelled

| code | model | properties |
|---|---|---|
| `cxx/MultiArrayIter.{h,cpp}` (all) | `Model/MultiArrayIter.lean` | C01-C06 |
| `cxx/CubeDecomp.{h,cpp}` (all) | `Model/CubeDecomp.lean` | C07-C15 |
| `cxx/Filter.{h,cpp}` (all but the text of error messages; the product `n` of `getWindowIter`, which is never used) | `Model/Filter.lean`, `FilterCalls.lean`, `FilterRun.lean`, `FilterTraffic.lean`, `FilterPrint.lean` | C16-C28, C64, C68, C69, C77, C84 |
| `cxx/CmdLineArgParser.{h,cpp}` (all) | `Model/CmdLine.lean` | C45-C52 |
| `cxx/writeVTK.{h,cpp}` | `Model/Vtk.lean` | C44 |
| `laplacian/cxx/laplacian.cxx` | `Model/Drivers.lean`, `Model/Mains.lean` | C24, C29, C53, C56, C73, C74 |
| `laplacian/cxx/testStencil2d.cxx` (all but the function of positions, which is not used) | `Model/Stencil2d.lean` | C65 |
| `laplacian/cxx/testCubeDecomp.cxx`, `testMultiArrayIter.cxx` (all) | `Model/TestDrivers.lean` | C67 |
| `upwind/cxx/upwind.cxx`, `upwindOMPTasks.cxx` | `Model/Upwind.lean`, `UpwindPar.lean`, `UpwindMain.lean`, `Mains.lean` | C32-C36, C39-C42, C53, C56, C58, C69-C72, C75, C76 |
| `upwind/cxx/upwindAcc.cxx`, `upwindAcc2.cxx`, `upwindOMP5.cxx`, `compute_*.h` | `Model/UpwindAcc.lean`, `Mains.lean` | C37, C38, C53, C56, C58, C69 |
| `upwind/cxx/upwindMpi.cxx` | `Model/Drivers.lean`, `Mains.lean` | C24, C30, C31, C53, C56, C68, C69, C80 |
| `upwind/cxx/saveVTK.h` | `Model/Vtk.lean` | C43 |
| `upwind/fortran/upwind*.F90` (constructor, `advect`, time step) | `Model/UpwindFortran.lean` | C54, C58, C69 |
| `upwind_saveVTK` of these, `upwind/python/saveVTK.py`, `upwind/julia/saveVTK.jl` | `Model/VtkOther.lean` | C59 |
| `upwind/python/upwind.py`, `upwind/julia/upwind.jl`, `upwind3.jl` (same) | `Model/UpwindPython.lean`, `UpwindJulia.lean` | C54, C58, C69 |
| the main programs of these Fortran, Python and Julia versions | `Model/MainsOther.lean` | C60, C61 |
| `upwind/cython/upwind5.pyx` (all) | `Model/UpwindCython.lean`, `UpwindPrint.lean` | C63, C66 |
| `print`, `printOut` and `upwind_print` of the upwind versions | `Model/UpwindPrint.lean` | C66 |
| `upwind/python/upwindMPI.py` (all but `printOut` and `free`; the time measured is a parameter) | `Model/UpwindMpiPy.lean` | C58, C62, C79 |
| `matmult/fortran/matmult.F90` (all; the texts of numbers in `print *` are parameters) | `Model/Matmult.lean`, `Model/MatmultMain.lean` | C55, C57, C78, C79 |
| the tests registered in the `CMakeLists.txt` (`add_test`, `set_tests_properties`: arguments, regular expressions, verdict) | `Model/CTest.lean` | C78, C79 |
| `operator<<(std::ostream&, double)` with the default precision, as all C++ programs use it | `Model/FormatG.lean` | C80, C79 |

Not modelled: `printOut` of upwindMPI.py (which prints slabs of an array of three axes), `laplacian/cxx/laplacian.ll`, the batch scripts, the build files except for the tests they register, timings.

## How the properties are proved

| id | proof |
|----|-------|
| C01-C06 | mixed-radix digit lemmas by induction on the list of extents; column major by reversal |
| C07-C15 | characterisation of the enumeration through C01; neighbour arithmetic by case analysis; histories by induction |
| C16-C24, C27, C28 | loop invariants per rank, then induction on the stencil, the number of iterations, the history |
| C25 | ordered field algebra |
| C26 | invariant of the transition system, a measure for termination |
| C29-C31, C42 | stencils of the drivers by loop invariants; finite sums over shifted grids |
| C32-C34, C36, C39-C41 | loop invariants; sums over a permuted range; convexity |
| C35, C37, C38, C54 (parallel) | race freedom makes independent accesses commute; every execution refines the sequential phases |
| C43, C44, C59 | what the independent reader makes of the text, by induction on its parts |
| C45-C52 | list inductions |
| C53, C56, C60 | the mains as functions from `argv` to text, files and status; with MPI in any arithmetic, a check sum as any order of adding the sums of the pieces (`Spec/GridSum.lean`) |
| C58 | perturbation of a contraction in the maximum norm and in the sum norm; for upwindMPI.py the same with the step split into boxes, whose values together are a permutation of the field |
| C55, C57 | loop invariants; the concurrent loop as a region |
| C62 | invariant: the arrays of the processes hold the global field; bijection between (process, local cell) and cells |
| C63 | closed form of the object as loop invariant; the first step that fails for the characterisation of failure |
| C64 | loop invariants: the lines are the cells of the box in column-major order; what `applyFilter` leaves in the windows |
| C66 | the list of a field is the list of its values over the cells in row-major order; loops that write |
| C78, C79 | the mains on the arguments of the tests (C56, C60, C65); where the label can stand in their output; all interleavings of the texts of the processes |
| C80 | the digits are those of the rounded quotient by a power of ten; what the independent reader makes of them |
| C81 | a step is the product with a polynomial in the displacements by one cell; its power is expanded by the multinomial theorem |
| C82 | the step commutes with reordering the axes (the sum over the axes is reindexed) and with mirrors (the neighbour of the mirrored cell is the mirrored other neighbour), by induction on the steps |
| C83 | differences of displaced fields are fields advected by the same steps (C40), which neither increase the sum of absolute values (C71) nor leave bounds (C34) |
| C84 | a record of the calls of `MPI_Get` kept beside the transition system of C26; the record of a rank is that of its position in the program |
| C85 | a step makes every value a mean, with the Courant numbers as weights, of values of the step before: Jensen and conservation (C33); conversely the distance from the initial bounds is a convex function (C34) |
| C86 | C56 for the outcomes in any arithmetic; the field as in C68 and C69 with the weights 1 and -2n, which are exact; every order of the additions by C68; the exact sum is 0 by C77. Of sine and pi only that they are finite and at most 1 and 4 in size |
| C87 | C86 for the outcomes and the rounding errors of the filter; the rounding errors of the initial field, at most 41n / 2^52, by the relative errors of the operations (C58) and the Lipschitz constant 1 of the sine; the Laplacian multiplies errors by at most 4n; the closed form by C73; C80 for the decimal numbers. The real sine and pi are Mathlib's |
| C88 | C58 for the distance from the exact scheme with the rounded time step and C69 against overflow; the exact scheme with the rounded and with the exact time step differ by at most steps times the change of the coefficients; C81 and C82 for the closed form and the symmetry of the exact field; C80 for the file |
| C89 | `cubeField` is the exact scheme with Courant number 1/10. C88 for upwind.cxx and upwindOMPTasks.cxx, C35 for their threads; C68 and C69 for upwindMpi; for the others the rounding errors of C58 with the change along an axis as each program brackets it, the runs of C56, C60 and C62, and steps times the error of the time step as in C88; C80 for the file. C81, C34 and C82 then give the closed form, the range and the symmetry of all these fields. upwindOMP5 only with one step or one team, since otherwise it has a race (C38) |
| C77 | a run holds exactly the iterated stencil; stencils as sums of displacements, which commute |
| C76 | every cell is upstream of every cell, so in `N.sum` steps the largest value lifts all others by a fixed fraction; geometric decay of the spread |
| C75 | induction on the steps; case distinction on finite coefficients |
| C74 | Taylor's formula to fourth order by integrating bounds of derivatives from 0; neighbours as translations by a cell width |
| C73 | summation by parts over a periodic grid; product of sines by the addition theorem, axis by axis |
| C72 | induction on the steps: a step reads the cell and its upstream neighbours |
| C71 | a step is a convex combination; linearity of the scheme applied to differences |
| C70 | truncation error by Taylor's formula along the velocity, summed over the steps by the maximum principle; uniqueness along characteristics |
| C69 | the partial results of a step are bounded by those of C58 or C68, far below the largest number; induction on the steps |
| C68 | the same for a stencil, by the sum of the absolute weights; a tree of additions for `MPI_Reduce` |
| C67 | loop invariants: the object after each query is that after `build` with the iterator moved |
| C65 | the filter world by world (C16, C21, C64); the wrapped index modulo 2^64 and the extent by divisibility |
| C61 | executions of any number of threads built from uninterrupted pieces; an invariant over all executions for the number printed; one thread by the theorem about sequential regions |

## Disagreements between the code and the properties

Each is proved (`..._fails` or as noted).

* C07, C08: the product of the decomposition is narrowed to `int`; beyond 2^32 cells invalid decompositions are accepted,
  exactly those whose product equals the number of processes modulo 2^32 (`C08_found_mod_iff`). C24 inherits the limit.
* C11: the loop that selects the cheapest decomposition never costs the first candidate; it is optimal exactly if another
  candidate is as cheap (`C11_minimizes_iff`).
* C12: one correction by the extent only: directions longer than the process grid give a rank outside 0..nprocs-1
  (`C12_any_direction` says which, `C12_axis_iff` when it is right).
* C16, C17, C18, C23: a negative index is reduced modulo the extent after conversion to `size_t`, which is wrong unless
  the extent divides 2^64; so the low side wraps correctly only for extents that are powers of two. C29, C30, C31
  (laplacian and upwindMpi) inherit this: wrong check sums, or a read outside a window. On one process the condition is
  proved to be necessary for every grid (`C16_one_offset_iff`, `C29_zero_sum_iff`, `C29_operator_iff`, `C30_sum_iff`).
  On any number of processes, for axis stencils: the wrapped index either falls into the first sub-domain, and the run
  ends with the displacement modulo 2^64, or the first process reads outside an array (`C18_every_process_count`); the
  condition is necessary here as well (`C16_axis_stencil_iff`). The drivers do the same (`C29_every_process_count`,
  `C30_every_process_count`), so they are right exactly for powers of two (`C29_operator_procs_iff`,
  `C30_sum_procs_iff`, `C31_same_field_iff`).
* C21: `saveVTK` takes `front()` of an empty vector on the ranks other than 0; `rank * nLocal` overflows on large grids.
* C22: an offset of two cells or more along an axis is never supported, on no grid (up to 2^31 cells) and no number of
  processes, one included (`C22_wide_axis_never`). Offsets of components 0 and ±1 are computed exactly if none that leaves
  a sub-domain through one face needs cells that are interior along another axis (`C22_unit_offsets_iff`, extents along
  which offsets are negative being powers of two). On one process the
  rank of the neighbour is the sum of the components, each one step closer to zero: offsets of any shape work if it is 0,
  such as (-2, 2), and ask for a process that does not exist otherwise (`C22_one_process_iff`, `C22_one_offset_iff`).
  On several processes a diagonal offset is computed exactly if the components, each one step closer to zero, cancel in
  the number of the process, no decomposed axis is crossed by more than one cell, the sub-domains have no more cells
  along the other axes than the window, and negative indices wrap (`C22_offset_iff`, and `C22_offsets_iff`
  for several offsets, where the layers are as wide as the first offset with the same signs).
  An offset of two cells or more along one axis is never computed, however wide (`C22_wide_offset_never`,
  `C22_axis_offset_iff`). Open: diagonal offsets wider than the sub-domains.
* C27: memory is freed while its window still exposes it, for every stencil (`C27_always_freed_while_exposed`); one window
  is created per non-zero offset and one freed per side, so offsets that share a side leak (`C27_leak_count`,
  `C27_released_iff`).
* C32, C36: `int` counters; grids of 2^31 cells or more are not advanced, axes of more than 2^30 cells overflow. `advect`
  computes the scheme for all velocities and fields exactly if the grid has fewer than 2^31 cells and every axis has at most
  2^30 cells or a length dividing 2^64 - 2^32 (`C36_right_iff`).
* C38: `target teams distribute` is on the time loop of upwindOMP5: two teams may execute two time steps at once, on every grid
  and from any field, which gives a wrong field for all numbers of cells along an axis, steps and teams from two on.
* C43: `saveVTK.h` writes three axes only; the file can be read exactly if the others have one cell (`C43_file_iff`). The laplacian driver with more than three axes and `-vtk` writes no file.
* C59: the Fortran versions write the dimensions in reversed order but not the coordinates: for fewer than three axes, or
  different first and last extents, the file cannot be read; with different lengths the coordinates are exchanged. The
  Python version writes nothing between the values, so no file with two or more cells can be read.
* C50: `-.5` is taken for an option. C51: `-numCells -vtk` reads `-vtk` as the number 0, and so
  does every accepted command line in which an option follows a value option (`C51_always_swallowed`).
* C53: upwind, upwindOMPTasks, upwindMpi and laplacian exit with status 0 after a command line error.
* C54: bit for bit, Fortran and Python evaluate in another order than C++. `advect!` of upwind.jl uses the global `up`
  instead of the field of its argument, so that a second instance disturbs the first.
* C60: the Fortran programs take an argument that is no number for an undefined number of cells (the status of `read` is
  not looked at), end with status 0 when the number of cells is missing, ignore everything
  after a blank argument, and overflow from 1291 cells per axis on. The Julia programs end with an exception when `vtk` is asked
  for: `save2VTK` calls `saveVTK.rectilinear`, though saveVTK.jl is no module, and `linspace`, which Julia 1 does not have.
* C61: the Fortran programs share the variables of the parallel region that prints the number of threads: with two or more
  threads it may be printed never, by all of them, or as 1; with one thread only it is always right.
* C62: upwindMPI.py subtracts the value of the lower neighbour whatever the sign of the velocity: negative velocities give a
  wrong field and check sum unless the boxes are one cell wide along these axes (`C62_right_iff`; its `main` has velocity 1). The bits depend on the decomposition. Its file has the defect of C59.
* C63: upwind5.pyx stores the results of `/=` and of the addition of a floating-point number in arrays of integers. Python 3 and
  numpy since 1.10 refuse that: there the constructor or the first step raises an exception, on every grid (`C63_runs_iff`).
  The first line of its VTK file is not that of a VTK file; the rest of the file is right.
* C64: `printDstDataWindow` writes the indices of the own cells with the values of the cells of the neighbour. Printing a
  window before it is written to, or any data without a decomposition, is undefined.
* C65: testStencil2d reads an array out of bounds or takes the wrong cell for most numbers of cells that do not divide 2^64 (the
  default 8 is right). Its field is 1 in the first row and column, not in the first cell. After an invalid decomposition it
  prints the data nevertheless, which is undefined.
* C67: testCubeDecomp queries the object also if no decomposition was found, which is undefined (not for the inputs of its `main`).
* C78: the tests of the C++ upwind programs pass NUM_CELLS and NUM_TIME_STEPS as bare words, which these programs ignore: they
  always run 10 steps on 128 x 128 x 128 cells.
* C79: `[1|0\\.999]` is a set of characters, not a choice: the upwind tests pass for every check sum that begins with 0, 1, 9 or a
  point, such as 0 or 0.5. The Laplacian tests look for a label only and pass exactly if there is a decomposition, also for the
  sizes at which C29 fails. testStencil2d passes with wrong values.
* C80: no program sets a precision, so check sums, deviations and the values in VTK files have six significant digits: different
  fields give the same file, a check sum that is wrong in the seventh digit is printed as 1.
* C79: with two or more processes all of them write to the output that CTest reads, and the model lets their characters interleave in any
  way: the test upwindPythonMpiN can then pass and fail whatever the check sum (`C79_python_mpi_interleaved_fails`). With one process, or
  without a decomposition, its verdict is determined (`C79_python_mpi_verdict`, `C79_python_mpi_no_decomposition`). With IEEE numbers it
  passes on one process, and on several if the line of the check sum arrives in one piece (`C79_python_mpi_passes_double`).
* C79: the test of matmult compares two products that add the same numbers in the same order, so with IEEE numbers it cannot fail
  (`C79_matmult_passes_double`); its arguments are the default sizes, so it cannot see that `ier` is unassigned (`C78_matmult_size`).
* C57: matmult tests `ier`, which nothing assigns.
* Not separate properties: upwindMpi with 0 steps prints check sum 0 whatever the field.

## Testing against wrong programs

Each fault is put into a scratch copy of the model, the project is rebuilt, every declaration that no longer compiles is
replaced by `sorry`, and the manifest theorems that then depend on `sorryAx` are listed as failed. A fault that leaves the
theorem of its claim standing would mean the theorem is too weak; the log says what was tightened.
