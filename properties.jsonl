{"id": "C01", "title": "Iterator visits every cell of the box exactly once", "statement": "For a non-empty box lo <= index < hi, starting at begin() and calling next() repeatedly, the tuples returned by getIndices() during the first getNumberOfTerms() positions are exactly the integer points of the box, each exactly once, in both row-major and column-major mode.", "quantifier": "every number of axes >= 1, every lo and hi with lo[i] < hi[i] and number of cells below 2^64, both orderings", "why_tests_cant": "the number of axes and the extents are unbounded; tests sample three literals", "anchors": ["cxx/MultiArrayIter.cpp:MultiArrayIter::build", "cxx/MultiArrayIter.h:getIndices", "cxx/MultiArrayIter.cpp:begin", "cxx/MultiArrayIter.cpp:next"]}
{"id": "C02", "title": "Number of terms is the volume of the box", "statement": "getNumberOfTerms() is the product of hi[i]-lo[i] modulo the word size 2^64, hence the exact volume whenever the volume is below 2^64; it is 0 as soon as one extent is 0.", "quantifier": "every lo, hi", "why_tests_cant": "unbounded sizes; wrap-around only shows up for products beyond 2^64", "anchors": ["cxx/MultiArrayIter.cpp:MultiArrayIter::build", "cxx/MultiArrayIter.cpp:getNumberOfTerms"]}
{"id": "C03", "title": "Flat index and index tuple are mutually inverse", "statement": "move(k); getIndices() followed by computeBigIndex gives k back for every k < getNumberOfTerms(); and for every tuple of the box computeBigIndex returns a position below getNumberOfTerms() at which getIndices() returns that tuple.", "quantifier": "every box, both orderings, every k and every tuple in the box", "why_tests_cant": "the domain is every position of every box", "anchors": ["cxx/MultiArrayIter.h:getIndices", "cxx/MultiArrayIter.h:computeBigIndex", "cxx/MultiArrayIter.cpp:move"]}
{"id": "C04", "title": "Traversal order is lexicographic (row major) or colexicographic (column major)", "statement": "In row-major mode successive positions are strictly increasing in lexicographic order of the tuple (last index fastest); in column-major mode they are strictly increasing in lexicographic order of the reversed tuple (first index fastest).", "quantifier": "every box, every pair of positions k < l", "why_tests_cant": "ordering has to hold for every pair of positions in every box", "anchors": ["cxx/MultiArrayIter.cpp:MultiArrayIter::build", "cxx/MultiArrayIter.h:getIndices"]}
{"id": "C05", "title": "Iterator position is determined by the history of begin/next/move and wraps around past the end", "statement": "After any sequence of begin(), next() and move() the tuple returned is the one at the position computed by a plain counter taken modulo getNumberOfTerms(); the box (lo, hi, number of terms) never changes.", "quantifier": "every operation sequence that does not overflow the 64-bit counter", "why_tests_cant": "unbounded histories", "anchors": ["cxx/MultiArrayIter.cpp:begin", "cxx/MultiArrayIter.cpp:next", "cxx/MultiArrayIter.cpp:move", "cxx/MultiArrayIter.h:getIndices"]}
{"id": "C06", "title": "Exactly which constructor inputs are undefined", "statement": "build() has undefined behaviour exactly when there is no axis or hi is shorter than lo; getIndices() on a built iterator is defined exactly when every divisor (stride and extent) is non-zero, so in particular it is undefined on an empty box.", "quantifier": "every lo, hi, ordering", "why_tests_cant": "undefined behaviour cannot be observed reliably by a test", "anchors": ["cxx/MultiArrayIter.cpp:MultiArrayIter::build", "cxx/MultiArrayIter.h:getIndices"]}
{"id": "C07", "title": "A decomposition that is found is a valid one", "statement": "When build(nprocs, dims) returns true, getDecomp() has one entry per axis, each entry divides the corresponding dimension, and the product of the entries is nprocs.", "quantifier": "every nprocs >= 1 and every list of positive dimensions", "why_tests_cant": "the grid and the process count are unbounded, and the truncating 32-bit product only misbehaves on grids beyond 2^32 cells", "anchors": ["cxx/CubeDecomp.cpp:CubeDecomp::computeOptimalDecomp", "cxx/CubeDecomp.cpp:CubeDecomp::build", "cxx/CubeDecomp.cpp:getDecomp"]}
{"id": "C08", "title": "A decomposition is found whenever one exists", "statement": "build(nprocs, dims) returns true if and only if nprocs can be written as a product of divisors of the dimensions; otherwise it returns false and getDecomp() is empty.", "quantifier": "every nprocs >= 1 and dims", "why_tests_cant": "both directions quantify over all factorizations", "anchors": ["cxx/CubeDecomp.cpp:CubeDecomp::build", "cxx/CubeDecomp.cpp:getPrimeFactors"]}
{"id": "C09", "title": "Sub-domains partition the grid", "statement": "After a build that found a valid decomposition, every global cell lies in [getBegIndices(r), getEndIndices(r)) for exactly one rank r in 0..nprocs-1, and every cell of every sub-domain is a global cell.", "quantifier": "every grid, every process count below 2^31 whose build yields a valid decomposition, every cell", "why_tests_cant": "holds for each cell of each decomposition", "anchors": ["cxx/CubeDecomp.cpp:getBegIndices", "cxx/CubeDecomp.cpp:getEndIndices"]}
{"id": "C10", "title": "All ranks own the same number of cells", "statement": "Along each axis i every rank owns exactly dims[i]/decomp[i] >= 1 consecutive cells, so every rank owns (product of dims)/nprocs cells.", "quantifier": "every grid, every process count below 2^31 whose build yields a valid decomposition, every rank", "why_tests_cant": "unbounded inputs", "anchors": ["cxx/CubeDecomp.cpp:getBegIndices", "cxx/CubeDecomp.cpp:getEndIndices", "cxx/CubeDecomp.cpp:CubeDecomp::build"]}
{"id": "C11", "title": "The decomposition minimizes surface over volume", "statement": "The decomposition returned has the smallest ratio of sub-domain surface to volume among all valid decompositions.", "quantifier": "every grid and nprocs", "why_tests_cant": "optimality is a statement about every competing decomposition", "anchors": ["cxx/CubeDecomp.cpp:computeOptimalDecomp", "cxx/CubeDecomp.cpp:computeCost", "cxx/CubeDecomp.h:computeOptimalDecomp"]}
{"id": "C12", "title": "Neighbour ranks are valid and periodic", "statement": "getNeighborRank(rk, dir) returns a rank in 0..nprocs-1 whose coordinates in the process grid are those of rk shifted by dir modulo the decomposition, for every direction vector dir.", "quantifier": "every decomposition, every rank, every direction vector", "why_tests_cant": "direction vectors are unbounded", "anchors": ["cxx/CubeDecomp.cpp:getNeighborRank", "cxx/CubeDecomp.h:getNeighborRank"]}
{"id": "C13", "title": "Neighbour relation is symmetric", "statement": "Going to the neighbour in direction dir and back in direction -dir returns to the starting rank, and for fixed dir distinct ranks have distinct neighbours.", "quantifier": "every valid decomposition with at most 2^30 processes, every rank, every direction with |dir[i]| <= decomp[i]", "why_tests_cant": "all ranks of all decompositions", "anchors": ["cxx/CubeDecomp.cpp:getNeighborRank"]}
{"id": "C14", "title": "The neighbour owns the adjacent cells", "statement": "If a cell of rank rk lies on the faces of its sub-domain selected by a direction vector with entries in {-1,0,1}, then the periodic image of the cell one step further in that direction is owned by getNeighborRank(rk, dir).", "quantifier": "every valid decomposition with at most 2^30 processes, every rank, every direction in {-1,0,1}^n (faces, edges and corners), every boundary cell", "why_tests_cant": "all geometries", "anchors": ["cxx/CubeDecomp.cpp:getNeighborRank", "cxx/CubeDecomp.cpp:getBegIndices", "cxx/CubeDecomp.cpp:getEndIndices"]}
{"id": "C15", "title": "Queries do not disturb each other and a rebuild forgets the past", "statement": "When the last build succeeded, the answers of getBegIndices, getEndIndices, getNeighborRank and getDecomp depend only on the arguments of that build and on their own arguments, never on earlier queries or earlier builds.", "quantifier": "every sequence of build and query calls", "why_tests_cant": "unbounded histories over a shared mutable iterator", "anchors": ["cxx/CubeDecomp.cpp:CubeDecomp::build", "cxx/CubeDecomp.cpp:getBegIndices", "cxx/CubeDecomp.cpp:getEndIndices", "cxx/CubeDecomp.cpp:getNeighborRank"]}
{"id": "C16", "title": "applyFilter computes the periodic stencil", "statement": "After setInDataByIndices(u) on all ranks, applyFilter leaves on the rank owning global cell g the value sum over the stencil entries (off, w), in map order and starting from 0, of w * u((g + off) mod dims), for each grid size and each stencil whose offsets are 0 or +-1 along one axis.", "quantifier": "every grid, every process count with valid decomposition, every such stencil, every input function, every cell", "why_tests_cant": "all sizes, decompositions and stencils; the wrap-around of negative indices fails only for extents that are not powers of two", "anchors": ["cxx/Filter.cpp:applyFilter", "cxx/Filter.cpp:fetch", "cxx/Filter.cpp:getWindowIter", "cxx/Filter.cpp:Filter::Filter"]}
{"id": "C17", "title": "The distributed result does not depend on the number of processes", "statement": "For a fixed grid, stencil and input function, the value of every global cell after any number of filter iterations is bit-for-bit the same for any two process counts that admit a decomposition.", "quantifier": "every pair of process counts, every number of iterations, every arithmetic (including floating point)", "why_tests_cant": "all pairs of decompositions", "anchors": ["cxx/Filter.cpp:applyFilter", "cxx/Filter.cpp:copyOutToIn"]}
{"id": "C18", "title": "Iterating applyFilter and copyOutToIn iterates the stencil", "statement": "After setInDataByIndices followed by n rounds of applyFilter and copyOutToIn the input data of every cell is the n-fold application of the periodic stencil to the initial function.", "quantifier": "every n, grid, decomposition, stencil", "why_tests_cant": "unbounded number of steps", "anchors": ["cxx/Filter.cpp:applyFilter", "cxx/Filter.cpp:copyOutToIn", "cxx/Filter.cpp:setInDataByIndices"]}
{"id": "C19", "title": "Exposed halo windows always mirror the input data", "statement": "After setInData, setInDataByIndices or copyOutToIn, and after any further sequence of calls, every exposed source window holds exactly the input data of the cells it covers.", "quantifier": "every grid, process count, stencil with offsets no wider than the sub-domains, and every history of calls on every rank that ends normally", "why_tests_cant": "unbounded histories", "anchors": ["cxx/Filter.cpp:setInData", "cxx/Filter.cpp:setInDataByIndices", "cxx/Filter.cpp:copyOutToIn", "cxx/Filter.cpp:newWindow"]}
{"id": "C20", "title": "Check sum is the global sum on rank 0 and zero elsewhere", "statement": "computeCheckSum(\"input\") returns on rank 0 the sum of the input data over all global cells (any other string: the output data), and 0 on all other ranks, and the value does not depend on the decomposition.", "quantifier": "every grid, decomposition, data", "why_tests_cant": "all decompositions", "anchors": ["cxx/Filter.cpp:computeCheckSum"]}
{"id": "C21", "title": "saveVTK reassembles the global field", "statement": "The field handed to writeVTK on rank 0 contains, at the column-major position of every global cell, the output value held by the rank that owns that cell, every position being written exactly once.", "quantifier": "every grid, decomposition, data", "why_tests_cant": "all decompositions", "anchors": ["cxx/Filter.cpp:saveVTK", "cxx/writeVTK.cpp:writeVTK"]}
{"id": "C22", "title": "Stencils of any shape are supported", "statement": "applyFilter computes the periodic stencil also for offsets that are wider than one cell or not aligned with an axis.", "quantifier": "every stencil", "why_tests_cant": "arbitrary stencils; violations depend on decomposition and stencil order", "anchors": ["cxx/Filter.cpp:applyFilter", "cxx/Filter.cpp:getNumberOfGhostsFromOffset", "cxx/Filter.cpp:getWindowIter"]}
{"id": "C23", "title": "Periodic wrap-around is correct for every grid size", "statement": "The index arithmetic used by applyFilter maps index -1 to the last cell along each axis, for every grid size.", "quantifier": "every grid size", "why_tests_cant": "fails exactly for extents that do not divide 2^64, tests use powers of two", "anchors": ["cxx/Filter.cpp:applyFilter"]}
{"id": "C24", "title": "An invalid decomposition is reported and leaves the filter inert", "statement": "If no decomposition exists isDecompValid() is false on every rank, no window is created and the destructor frees nothing; otherwise it is true.", "quantifier": "every grid and process count", "why_tests_cant": "unbounded inputs", "anchors": ["cxx/Filter.cpp:Filter::Filter", "cxx/Filter.cpp:isDecompValid", "cxx/Filter.cpp:~Filter"]}
{"id": "C25", "title": "Cell positions are the cell centres", "statement": "getPosition(g) is strictly inside the domain along every axis, consecutive cells are exactly one cell width apart, and the first and last cell are half a cell from the boundary.", "quantifier": "every domain, grid, cell (exact arithmetic)", "why_tests_cant": "continuous family of domains", "anchors": ["cxx/Filter.cpp:getPosition"]}
{"id": "C26", "title": "Every schedule of the ranks gives the same halo data and none deadlocks", "statement": "Under MPI fence semantics, in every interleaving of the ranks each one-sided fetch of filter iteration t returns the window contents of iteration t, the final data equal those of the lock-step execution, and no reachable state is stuck before all ranks have finished.", "quantifier": "every interleaving, any number of ranks, iterations and stencil entries, for grids, stencils and inputs for which the lock-step execution is free of undefined behaviour", "why_tests_cant": "interleavings cannot be enumerated by tests", "anchors": ["cxx/Filter.cpp:fetch", "cxx/Filter.cpp:applyFilter", "cxx/Filter.cpp:copyOutToIn"]}
{"id": "C27", "title": "Window resources are released exactly once and never while in use", "statement": "Every MPI window and every window buffer created by the constructor is freed exactly once by the destructor, and a buffer is not freed before the window exposing it.", "quantifier": "every stencil", "why_tests_cant": "resource traces for all stencils; leaks are not observable in the output", "anchors": ["cxx/Filter.cpp:newWindow", "cxx/Filter.cpp:deleteWindow", "cxx/Filter.cpp:~Filter"]}
{"id": "C28", "title": "Side of an offset points back to the source", "statement": "getSideFromOffset returns a vector of the same length whose i-th entry is the opposite sign of offset[i] (0 for 0); getNumberOfGhostsFromOffset returns the largest absolute component.", "quantifier": "every offset vector in int range", "why_tests_cant": "unbounded vectors", "anchors": ["cxx/Filter.cpp:getSideFromOffset", "cxx/Filter.cpp:getNumberOfGhostsFromOffset"]}
{"id": "C29", "title": "Laplacian stencil annihilates constants and has zero global sum", "statement": "With the stencil assembled by the laplacian driver the output is 0 for a constant input, its global sum is 0 for every input, and the operator is symmetric.", "quantifier": "every number of dimensions, grid, input (exact arithmetic)", "why_tests_cant": "all inputs", "anchors": ["laplacian/cxx/laplacian.cxx:main", "cxx/Filter.cpp:applyFilter"]}
{"id": "C30", "title": "upwindMpi conserves the check sum and keeps the field in range", "statement": "With the stencil assembled by the upwindMpi driver every step keeps the global sum equal to 1 and all values within [0, 1].", "quantifier": "every number of steps, grid, decomposition (exact arithmetic)", "why_tests_cant": "unbounded steps and grids", "anchors": ["upwind/cxx/upwindMpi.cxx:main"]}
{"id": "C31", "title": "upwindMpi and upwind compute the same field", "statement": "For the same grid and number of steps the distributed filter driver and the shared-memory driver produce the same field.", "quantifier": "every grid, decomposition, number of steps (exact arithmetic)", "why_tests_cant": "two programs compared over all inputs", "anchors": ["upwind/cxx/upwindMpi.cxx:main", "upwind/cxx/upwind.cxx:advect"]}
{"id": "C32", "title": "advect computes the first-order upwind scheme", "statement": "Each time step of advect replaces f(i) by f(i) - sum_j c_j (f(up_j i) - f(i)) evaluated left to right, where up_j i is the periodic upwind neighbour along axis j and c_j = dt v_j s_j / delta_j.", "quantifier": "every number of axes, grid with fewer than 2^31 cells and fewer than 2^30 along each axis, velocity, time step, field, in any arithmetic", "why_tests_cant": "all grids and fields", "anchors": ["upwind/cxx/upwind.cxx:Upwind", "upwind/cxx/upwind.cxx:advect", "upwind/cxx/upwind.cxx:getIndexSet", "upwind/cxx/upwind.cxx:getFlatIndex"]}
{"id": "C33", "title": "advect conserves the check sum", "statement": "checksum() is unchanged by any number of time steps; since the constructor puts 1 in the low corner it is always 1.", "quantifier": "every grid, velocity, time step, number of steps (exact arithmetic)", "why_tests_cant": "unbounded steps", "anchors": ["upwind/cxx/upwind.cxx:advect", "upwind/cxx/upwind.cxx:checksum", "upwind/cxx/upwind.cxx:Upwind"]}
{"id": "C34", "title": "Maximum principle under the Courant condition", "statement": "If sum_j dt |v_j| / delta_j <= 1 and dt >= 0 then all values after any number of steps stay between the minimum and maximum of the initial field; in particular they stay in [0, 1].", "quantifier": "every grid, velocity, dt satisfying the condition, number of steps (exact arithmetic)", "why_tests_cant": "continuous parameters", "anchors": ["upwind/cxx/upwind.cxx:advect"]}
{"id": "C35", "title": "Any OpenMP schedule gives the sequential result", "statement": "For every assignment of loop iterations to threads, every number of threads and every interleaving allowed by the barriers, the field after advect equals bit-for-bit the sequential result.", "quantifier": "every schedule, thread count, number of steps", "why_tests_cant": "interleavings cannot be enumerated", "anchors": ["upwind/cxx/upwind.cxx:advect", "upwind/cxx/upwindOMPTasks.cxx:advect"]}
{"id": "C36", "title": "advect works for every grid that fits in memory", "statement": "advect advances the field also on grids with 2^31 cells or more.", "quantifier": "every grid", "why_tests_cant": "needs grids of more than 2^31 cells", "anchors": ["upwind/cxx/upwind.cxx:advect", "upwind/cxx/upwind.cxx:getFlatIndex"]}
{"id": "C37", "title": "OpenACC variants compute the same field as the OpenMP version", "statement": "upwindAcc and upwindAcc2 produce after any number of steps the same field as upwind.", "quantifier": "every 3-d grid with fewer than 2^31 cells and fewer than 2^30 along each axis, velocity, dt, number of steps, schedule (exact arithmetic; bit-exact against the scheme with coefficient dt (v s / delta))", "why_tests_cant": "program equivalence over all inputs", "anchors": ["upwind/cxx/upwindAcc.cxx:advect", "upwind/cxx/upwindAcc2.cxx:advect", "upwind/cxx/compute_index_set.h", "upwind/cxx/compute_flat_index_offset_x.h"]}
{"id": "C38", "title": "Offloaded time loop executes the steps in order", "statement": "upwindOMP5 produces the sequential result for every execution allowed by its directives.", "quantifier": "every schedule", "why_tests_cant": "depends on the schedule chosen by the device runtime", "anchors": ["upwind/cxx/upwindOMP5.cxx:advect"]}
{"id": "C39", "title": "Time stepping composes", "statement": "advect(m+n, dt) equals advect(m, dt) followed by advect(n, dt); advect with a number of steps <= 0 leaves the field unchanged.", "quantifier": "every m, n, grid, in any arithmetic", "why_tests_cant": "unbounded m, n", "anchors": ["upwind/cxx/upwind.cxx:advect"]}
{"id": "C40", "title": "advect is linear and commutes with translations", "statement": "One step maps a linear combination of fields to the linear combination of the results, and shifting the initial field periodically shifts the result.", "quantifier": "every grid, fields, shift (exact arithmetic)", "why_tests_cant": "all fields and shifts", "anchors": ["upwind/cxx/upwind.cxx:advect"]}
{"id": "C41", "title": "Spread of the solution never grows", "statement": "std() is the population standard deviation: it is 0 exactly for uniform fields, and under the Courant condition it never increases with time steps.", "quantifier": "every grid, field, dt satisfying the condition (exact arithmetic)", "why_tests_cant": "continuous family", "anchors": ["upwind/cxx/upwind.cxx:std", "upwind/cxx/upwind.cxx:advect"]}
{"id": "C42", "title": "The driver's time step satisfies the Courant condition", "statement": "For each numCells >= 1 the dt computed by main gives a total Courant number of 3/10, so conservation and the maximum principle apply to the program as run.", "quantifier": "every numCells >= 1 (exact arithmetic)", "why_tests_cant": "every grid size", "anchors": ["upwind/cxx/upwind.cxx:main", "upwind/cxx/upwindMpi.cxx:main"]}
{"id": "C43", "title": "saveVTK writes a well-formed rectilinear grid file", "statement": "The file written by saveVTK declares dimensions, coordinate counts and cell count that match the number of values that follow, the axes are reversed so that the last axis varies fastest, and cell values appear in storage order.", "quantifier": "every grid of 1 to 3 (or more) axes, every field", "why_tests_cant": "all sizes", "anchors": ["upwind/cxx/saveVTK.h:saveVTK"]}
{"id": "C44", "title": "writeVTK writes a well-formed structured grid file", "statement": "writeVTK declares as many points and cells as it writes, its points are the uniformly spaced nodes of the domain in column-major order including both corners, the values follow in storage order, and for more than three axes nothing is written.", "quantifier": "every grid of at most 3 axes, every domain and field of sufficient length", "why_tests_cant": "all sizes", "anchors": ["cxx/writeVTK.cpp:writeVTK"]}
{"id": "C45", "title": "Unknown options are rejected without side effects", "statement": "parse returns false exactly when some argument that looks like an option (starts with '-', at least two characters, second not a digit) was not registered, and then all option values are unchanged.", "quantifier": "every registration and argument vector", "why_tests_cant": "all argument vectors", "anchors": ["cxx/CmdLineArgParser.h:parse"]}
{"id": "C46", "title": "The last value of an option wins, otherwise the default stays", "statement": "After a successful parse a numeric or string option has the (converted) argument following its last occurrence that has a following argument, and its previous value if there is no such occurrence.", "quantifier": "every registration, argument vector", "why_tests_cant": "all argument vectors, including repeated options", "anchors": ["cxx/CmdLineArgParser.h:parse", "cxx/CmdLineArgParser.cpp:get"]}
{"id": "C47", "title": "Flags toggle once per occurrence", "statement": "After a successful parse a boolean option is its previous value flipped as many times as its name occurs among the arguments.", "quantifier": "every registration, argument vector", "why_tests_cant": "all argument vectors", "anchors": ["cxx/CmdLineArgParser.h:parse"]}
{"id": "C48", "title": "get never invents values and keeps types apart", "statement": "get returns the registered value of that type, and the documented sentinel (-max, empty string, false) for names not registered with that type; it changes nothing.", "quantifier": "every parser state and name", "why_tests_cant": "all states", "anchors": ["cxx/CmdLineArgParser.cpp:get", "cxx/CmdLineArgParser.h:set"]}
{"id": "C49", "title": "Positional arguments are ignored", "statement": "Arguments that are not option names, and do not follow one, do not change any option value nor the success of parse.", "quantifier": "every argument vector", "why_tests_cant": "all argument vectors", "anchors": ["cxx/CmdLineArgParser.h:parse"]}
{"id": "C50", "title": "Every numeric literal is accepted as an option value", "statement": "Any well-formed negative number following a numeric option is accepted as its value.", "quantifier": "every numeric literal", "why_tests_cant": "literals such as -.5 or -inf are rejected as unknown options", "anchors": ["cxx/CmdLineArgParser.h:parse"]}
{"id": "C51", "title": "An option is never used as the value of another option", "statement": "If an option name directly follows a value option, it is not swallowed as that option's value.", "quantifier": "every argument vector", "why_tests_cant": "depends on argument order", "anchors": ["cxx/CmdLineArgParser.h:parse"]}
{"id": "C52", "title": "help lists every registered option exactly once with its current value", "statement": "help() prints one line per registered option of each type, in key order, with the help text given at registration and the current value.", "quantifier": "every registration history", "why_tests_cant": "unbounded registrations", "anchors": ["cxx/CmdLineArgParser.h:help", "cxx/CmdLineArgParser.h:set"]}
{"id": "C53", "title": "Driver exit status reports command line errors", "statement": "A driver invoked with an invalid option exits with a non-zero status and runs no computation; -h prints help, runs no computation and exits 0.", "quantifier": "every argument vector", "why_tests_cant": "all argument vectors", "anchors": ["upwind/cxx/upwind.cxx:main", "upwind/cxx/upwindAcc.cxx:main", "upwind/cxx/upwindAcc2.cxx:main"]}
{"id": "C54", "title": "Fortran, Python and Julia versions compute the same field as C++", "statement": "For the same grid, velocity, time step and number of steps the Fortran, Python and Julia implementations produce the same field as upwind.cxx (Julia: with the storage order reversed).", "quantifier": "every grid, velocity, dt, number of steps", "why_tests_cant": "program equivalence over all inputs", "anchors": ["upwind/fortran/upwind.F90:upwind_advect", "upwind/python/upwind.py:Upwind.advect", "upwind/julia/upwind.jl:advect!"]}
{"id": "C55", "title": "Matrix multiplication variants agree with the matrix product", "statement": "matmult0 and matmult1 compute the matrix product for all conforming sizes, whatever order the concurrent columns are processed in; both add the products of an element in the same order and so agree bit for bit; initmat numbers the elements; the main program writes the sizes and SUCCESS and nothing else, in exact arithmetic and with IEEE numbers (rounding and overflow included).", "quantifier": "every size the integers allow, all matrices, every former content of the result, every number of threads and every interleaving of the concurrent columns", "why_tests_cant": "all sizes and orders", "anchors": ["matmult/fortran/matmult.F90:matmult0", "matmult/fortran/matmult.F90:matmult1", "matmult/fortran/matmult.F90:78-135"]}
{"id": "C56", "title": "Drivers do what the command line asks and report it", "statement": "A driver called with valid options runs without undefined behaviour, performs exactly the requested number of steps on a grid of the requested size, prints the sizes, the check sum and (with -std) the spread of the resulting field, writes with -vtk readable files holding the initial and final fields, and exits 0; with exact arithmetic the upwind check sum printed is 1.", "quantifier": "every argument vector with known options, every grid size the types allow, every number of steps, every number of threads and schedule", "why_tests_cant": "all argument vectors, sizes and schedules; output must be exactly that of the mathematical scheme", "anchors": ["upwind/cxx/upwind.cxx:main", "upwind/cxx/upwindAcc.cxx:main", "upwind/cxx/upwindAcc2.cxx:main", "upwind/cxx/upwindOMP5.cxx:main", "upwind/cxx/upwindMpi.cxx:main", "laplacian/cxx/laplacian.cxx:main"]}
{"id": "C57", "title": "matmult multiplies matrices of the sizes given on the command line", "statement": "The first three arguments of the matmult program are the sizes n, m and el; without them the sizes are 3, 4 and 5.", "quantifier": "every list of arguments", "why_tests_cant": "all argument lists; whether the program reads a variable that was never assigned cannot be seen from its output", "anchors": ["matmult/fortran/matmult.F90:test"]}
{"id": "C58", "title": "Rounding errors of the upwind solvers stay small", "statement": "In floating-point arithmetic the field after k time steps differs from the exact scheme's by at most a bound that grows by a relative (d+18)r per step (d axes, r the relative error of one operation), if the total Courant number is at most 1 and the coefficients do not underflow; hence the values leave the range of the initial field, the check sum leaves that of the initial field, and the versions of the solver in C++, Fortran, Python, Julia and OpenACC differ from each other, by no more than such a bound. With IEEE doubles the check sum that upwind.cxx prints is within (cells + 22 steps + 1)/2^52 of 1 and all values are in [0, 1] up to 22 steps/2^52. The same holds, up to the zeros a library may add, for the check sums the Fortran, Python and Julia programs print, whatever the order in which their libraries add. All values of upwindMPI.py are within 22 steps/2^52 of the exact scheme's and its check sum within (cells + 22 steps + 1)/2^52 of 1, on any number of processes with a decomposition.", "quantifier": "every arithmetic with bounded relative error and gradual underflow, every grid, field, velocity, domain, time step within the Courant limit and number of steps; for the program, every number of cells it supports and every int number of steps", "why_tests_cant": "worst-case error over all inputs and all roundings; running the program shows the error of one input against no exact reference", "anchors": ["upwind/cxx/upwind.cxx:Upwind.advect", "upwind/cxx/upwind.cxx:Upwind.checksum", "upwind/cxx/upwind.cxx:main", "upwind/cxx/upwindAcc2.cxx:Upwind.advect", "upwind/fortran/upwind.F90:upwind_advect", "upwind/python/upwind.py:Upwind.advect", "upwind/julia/upwind.jl:advect!", "upwind/fortran/upwind.F90:main", "upwind/python/upwind.py:main", "upwind/julia/upwind.jl:main", "upwind/python/upwindMPI.py:Upwind.advect", "upwind/python/upwindMPI.py:main"]}
{"id": "C59", "title": "The VTK files of the Fortran, Python and Julia versions hold the field", "statement": "The file that the Fortran, Python or Julia version of the upwind solver writes is a readable legacy VTK rectilinear grid: the counts it declares match what follows, the coordinates are the nodes of the grid, and each cell of the file holds the value of the corresponding cell of the grid.", "quantifier": "every grid of 1 to 3 axes, domain, velocity, time step, number of steps, thread schedule and formatting of numbers as words", "why_tests_cant": "the repository has no reader of the files; the result depends on the shape of the grid and on every count and separator of a text of any length", "anchors": ["upwind/fortran/upwind.F90:upwind_saveVTK", "upwind/python/saveVTK.py:rectilinear", "upwind/python/upwind.py:Upwind.saveVTK", "upwind/julia/saveVTK.jl:rectilinear"]}
{"id": "C60", "title": "The Fortran, Python and Julia programs do what their command line asks", "statement": "The first argument is the number of cells along each axis, the second one the number of time steps (default 100, upwind3.jl: 128 cells and 2 steps), and `vtk` as third one asks for a file. The program advances the initial field by the asked number of steps on the asked grid, prints these sizes and the sum of the resulting field, which is 1 in exact arithmetic, writes the file if and only if it is asked for, and ends with status 0; a command line that gives no number of cells is refused with another status.", "quantifier": "every command line, every number type with the operations used, every order of summation, every thread schedule", "why_tests_cant": "the space of command lines and sizes is unbounded and the outcome of the threaded programs depends on the schedule", "anchors": ["upwind/fortran/upwind.F90:main", "upwind/fortran/upwindF03.F90:main", "upwind/fortran/upwindF08.F90:main", "upwind/fortran/upwindF08Gpu.F90:main", "upwind/python/upwind.py:main", "upwind/julia/upwind.jl", "upwind/julia/upwind3.jl"]}
{"id": "C61", "title": "The Fortran programs report the number of threads", "statement": "Before anything else the Fortran programs print, exactly once, the number of threads they run with.", "quantifier": "every number of threads and every interleaving of their accesses to the shared variables", "why_tests_cant": "the wrong outputs need interleavings that a test run hardly ever shows", "anchors": ["upwind/fortran/upwind.F90:main", "upwind/fortran/upwindF03.F90:main"]}
{"id": "C62", "title": "upwindMPI.py computes the upwind scheme on any number of processes", "statement": "Whatever the number of processes and the velocity, the field that upwindMPI.py gathers is that of the upwind scheme, the same as with one process and with the other versions, its check sum stays 1, and the program does what its arguments ask.", "quantifier": "all uniform decompositions, grids, velocities, domain sizes, time steps, numbers of steps; all command lines", "why_tests_cant": "there is no bound on grids and numbers of processes; a run shows one grid, one decomposition and velocity 1", "anchors": ["upwind/python/upwindMPI.py:__init__", "upwind/python/upwindMPI.py:advect", "upwind/python/upwindMPI.py:checksum", "upwind/python/upwindMPI.py:gatherRoot", "upwind/python/upwindMPI.py:main"]}
{"id": "C63", "title": "The Cython class computes the scheme and keeps its index sets", "statement": "For every grid, velocity, lengths and sequence of time steps, constructing Upwind of upwind5.pyx and calling advect succeeds and gives bit for bit the field of upwind.py; the index arrays kept in the object between calls are restored by every call, and the check sum stays 1 in exact arithmetic and close to 1 with IEEE doubles; saveVTK writes a VTK file that holds the field.", "quantifier": "every number of axes, grid, velocity, lengths, sequence of time steps, and the rules of the Python and numpy versions", "why_tests_cant": "state kept between calls over unbounded sequences of calls; depends on the versions of Python and numpy", "anchors": ["upwind/cython/upwind5.pyx:Upwind.__init__", "upwind/cython/upwind5.pyx:Upwind.advect", "upwind/cython/upwind5.pyx:Upwind.checksum", "upwind/cython/upwind5.pyx:Upwind.saveVTK"]}
{"id": "C64", "title": "The print methods list each cell with its value", "statement": "printInData and printOutData of every rank list each cell of the rank once, in column-major order, with its indices in the whole grid and its value, whatever calls were made before; the ranks together list every cell of the grid once. printSrcDataWindow and printDstDataWindow list the cells of the layer that is sent to, or received from, a neighbour, each with the indices of the cell the value belongs to. Printing leaves the data unchanged, and is possible on every filter.", "quantifier": "every grid, process count, stencil, side, field, and history of calls of the ranks", "why_tests_cant": "unbounded grids, process counts and histories; what is read before anything is written to a window is undefined", "anchors": ["cxx/Filter.cpp:printInData", "cxx/Filter.cpp:printOutData", "cxx/Filter.cpp:printSrcDataWindow", "cxx/Filter.cpp:printDstDataWindow"]}
{"id": "C65", "title": "testStencil2d lists the difference of neighbours", "statement": "For every number of cells and of processes, testStencil2d applies the stencil 'value of the next cell along x minus value of the previous cell along y' on the periodic grid to a field that is 1 in the first cell and 0 elsewhere; the ranks together list each cell once with its value, -vtk writes the same values to stencil2d.vtk; a grid that cannot be decomposed is reported and nothing else is done; an unknown option and -h give the help.", "quantifier": "every command line, number of cells and number of processes", "why_tests_cant": "unbounded grids and process counts; whether the wrapped index is right depends on the divisors of 2^64 and of 2^64-1", "anchors": ["laplacian/cxx/testStencil2d.cxx:main", "laplacian/cxx/testStencil2d.cxx:func"]}
{"id": "C66", "title": "The print methods list every cell with its value", "statement": "After any number of steps, the print methods of the upwind solvers in C++, Python, Cython and Fortran write exactly one line for each cell, in row-major order, with the number of the cell (from 0 on, in Fortran from 1 on) and the value of the field there.", "quantifier": "every grid, velocity, lengths, time step, number of steps and, for the parallel versions, number of threads, schedule and interleaving", "why_tests_cant": "unbounded grids and numbers of steps, all interleavings; the methods are called by no test and no program", "anchors": ["upwind/cxx/upwind.cxx:Upwind::print", "upwind/cxx/upwindAcc.cxx:Upwind::print", "upwind/python/upwind.py:Upwind.printOut", "upwind/cython/upwind5.pyx:Upwind.printOut", "upwind/fortran/upwind.F90:upwind_print"]}
{"id": "C67", "title": "The test drivers of the decomposition and of the iterator list what they claim", "statement": "For every number of processes and every grid that can be decomposed, `test` of testCubeDecomp writes the decomposition found and then, for every process in the order of the ranks, its rank, the first cell and the end of its sub-domain, and its two neighbours along every axis of the periodic process grid; if the grid cannot be decomposed, it reads an iterator that was never built. For every box, `test` of testMultiArrayIter writes one numbered line for each cell, with the last index fastest in row-major and the first index fastest in column-major order. The outputs of the two main programs are the corresponding texts.", "quantifier": "every number of processes up to 2^30, every grid of at most 2^32 cells and fewer than 32 axes, every non-empty box with fewer than 2^64 cells, both orders", "why_tests_cant": "the drivers write text that nobody compares, for three grids and one box; the property covers all grids and boxes", "anchors": ["laplacian/cxx/testCubeDecomp.cxx:test", "laplacian/cxx/testCubeDecomp.cxx:main", "laplacian/cxx/testMultiArrayIter.cxx:test", "laplacian/cxx/testMultiArrayIter.cxx:main"]}
{"id": "C68", "title": "Rounding errors of the distributed filter and of its check sums stay small", "statement": "In floating-point arithmetic, after any number n of applications of a filter with m weights to a field bounded by B, every value differs from that of the exact stencil by at most what n applications of growth (1+r)^(m+1) times the sum A of the absolute weights, plus underflow, exceed A^n B. The check sum differs from the exact sum of the field by at most the excess of (1+r)^(cells/processes + processes) over 1 times the sum of the absolute values, plus underflow, in whatever order and grouping MPI_Reduce adds. For upwindMpi with up to 2048 cells per axis, a power of two, the fields of every step are those of the exact upwind scheme with Courant number 1/10 and both check sums are 1 up to such errors; in double precision below an explicit bound.", "quantifier": "every decomposable grid (extents dividing 2^64 where an offset wraps; any extents on one process with the displacement of the code), number of processes, stencil with axis offsets, field, number of applications, order of additions, number type with the standard model of rounding", "why_tests_cant": "tests see a few fields and one order of reduction on one machine; the property bounds the error for all of them", "anchors": ["cxx/Filter.cpp:Filter::applyFilter", "cxx/Filter.cpp:Filter::computeCheckSum", "upwind/cxx/upwindMpi.cxx:main"]}
{"id": "C69", "title": "The upwind solvers and the filter do not overflow while their error bounds are moderate", "statement": "With IEEE doubles, infinities and NaN included, no operation of advect overflows if the total Courant number is at most 1, the coefficients are normal numbers, the domain is not larger than 2^400 and the bound of C58 on the field is at most 2^500: the C++, Fortran, Python, Julia and OpenACC solvers then compute bit for bit what arithmetic without overflow computes, all values being finite, for any number of steps; so does the check sum. upwind.cxx never overflows, whatever number of cells (up to 1290) and int number of steps it is given. The distributed filter does not overflow, nor its check sum in any order of addition, while the bound of C68 is at most 2^900; upwindMpi never does for the processes, cells and steps of C68. Beyond the Courant limit the field becomes infinite and then NaN. Large weights make the filter overflow too.", "quantifier": "every grid, stencil, number of processes, finite field, velocity, domain and time step within these limits, number of steps, schedule of the parallel versions; for the program every number of cells it supports and every int number of steps", "why_tests_cant": "absence of overflow in every intermediate result, for all inputs and all numbers of steps", "anchors": ["upwind/cxx/upwind.cxx:Upwind.advect", "upwind/cxx/upwind.cxx:Upwind.checksum", "upwind/cxx/upwind.cxx:main", "upwind/cxx/upwindAcc2.cxx:Upwind.advect", "upwind/fortran/upwind.F90:upwind_advect", "upwind/python/upwind.py:Upwind.advect", "upwind/julia/upwind.jl:advect!", "cxx/Filter.cpp:Filter::applyFilter", "cxx/Filter.cpp:Filter::computeCheckSum", "upwind/cxx/upwindMpi.cxx:main"]}
{"id": "C70", "title": "The upwind solver converges to the advection equation at first order", "statement": "If the total Courant number is at most 1 and the initial field is a smooth periodic function taken at the cell centres, the field after k steps is, in every cell, within k dt M (sum over the axes of |v_j| width_j) of the solution of the advection equation at time k dt, M being the Lipschitz constant of the gradient. The advection equation with a smooth periodic initial field has exactly one solution. In floating-point arithmetic the bounds of the initial rounding and of C58 are added.", "quantifier": "every grid of any dimension, velocity, positive domain, time step within the Courant condition, number of steps, smooth periodic initial field; exact arithmetic and every number type with the standard model of rounding", "why_tests_cant": "convergence is a statement about all resolutions and all smooth fields, and about a partial differential equation which the code never mentions", "anchors": ["upwind/cxx/upwind.cxx:Upwind.Upwind", "upwind/cxx/upwind.cxx:Upwind.advect"]}
{"id": "C71", "title": "Two runs of the upwind solver never move apart", "statement": "If the total Courant number is at most 1: if one initial field is nowhere above another, it stays so after any number of steps; and the largest difference of two fields, the sum of their absolute differences and the sum of the squares of their differences do not grow.", "quantifier": "every grid, velocity, positive domain, time step within the Courant condition, pair of initial fields, number of steps (exact arithmetic)", "why_tests_cant": "the property compares every pair of initial fields over all numbers of steps", "anchors": ["upwind/cxx/upwind.cxx:Upwind.advect"]}
{"id": "C72", "title": "A cell depends only on the cells upstream of it", "statement": "After k steps the value of a cell depends only on the initial values of the cells that lie upstream of it by at most k cells in total, along the axes, periodically: two initial fields that agree on these cells give the same value in that cell, bit for bit.", "quantifier": "every grid, velocity, domain, time step, number of steps, pair of initial fields, cell, number type", "why_tests_cant": "non-interference of all other cells, over all fields and numbers of steps", "anchors": ["upwind/cxx/upwind.cxx:Upwind.advect"]}
{"id": "C73", "title": "The laplacian operator is negative semidefinite and the result of the driver has a closed form", "statement": "For the stencil of laplacian on every periodic grid of n axes, the sum of u times Lu is minus the sum of the squared differences of neighbouring cells, the eigenvalues of L are in [-4n, 0], and Lu vanishes exactly for uniform u. With exact arithmetic and exact sine, for N cells per axis, a power of two, on every number of processes that allows a decomposition, laplacian ends with (2 n (cos(2 pi/N) - 1))^10 times the product of sin(2 pi x) over the coordinates of the cell centres.", "quantifier": "every number of axes, grid, field, number of processes; for the driver every N dividing 2^64", "why_tests_cant": "algebra over all fields, and a closed form with pi that a run only approximates", "anchors": ["laplacian/cxx/laplacian.cxx:main", "cxx/Filter.cpp:Filter::applyFilter"]}
{"id": "C74", "title": "The laplacian filter approximates the Laplace operator at second order", "statement": "For N cells per axis of the unit cube, a power of two, and any number of processes that allows a decomposition: applied to the values of a periodic function at the cell centres, the filter of laplacian gives 1/N^2 times the sum of the second derivatives there, up to n M / (12 N^4), M being a Lipschitz constant of the third derivatives along the axes.", "quantifier": "every number of axes n, N dividing 2^64, number of processes, periodic function four times differentiable along the axes (exact arithmetic)", "why_tests_cant": "the order of accuracy is a statement about all resolutions and all smooth functions", "anchors": ["laplacian/cxx/laplacian.cxx:main", "cxx/Filter.cpp:Filter::applyFilter"]}
{"id": "C75", "title": "Flows that the upwind solver computes exactly", "statement": "If the fluid moves along one axis only, by exactly one cell per time step, k steps move the field by exactly k cells downstream, periodically (exact arithmetic). In IEEE doubles a uniform field of a finite number stays exactly as it is (apart from the sign of a zero), for any number of steps and whatever the Courant number, if and only if every coefficient dt v / width is finite; otherwise it becomes NaN.", "quantifier": "every grid, initial field, number of steps; for the uniform field every double value, velocity, domain and time step", "why_tests_cant": "a statement about every field and every number of steps, and about all doubles", "anchors": ["upwind/cxx/upwind.cxx:Upwind.advect"]}
{"id": "C76", "title": "In the long run the field tends to its mean value", "statement": "While the total Courant number, not counting axes of one cell, is less than 1, the field tends to the mean of the initial field in every cell as the number of steps grows, whatever the initial field, if and only if the fluid moves along every axis of more than one cell. After n times N_1+...+N_d steps the distance from the mean is at most (1 - w^(N_1+...+N_d))^n times the initial spread, w being the smallest of the fractions that stay or move along an axis.", "quantifier": "every grid, velocity, positive domain, time step within the Courant condition, initial field (exact arithmetic)", "why_tests_cant": "a limit over the number of steps", "anchors": ["upwind/cxx/upwind.cxx:Upwind.advect"]}
{"id": "C77", "title": "The distributed filter is a linear operator that commutes with displacements and with other filters", "statement": "For any number of rounds of applyFilter and copyOutToIn: the result of a linear combination of inputs is the combination of the results; displacing the input periodically displaces the result; two filters on the same grid can be exchanged whatever their process counts; the check sum is multiplied by the sum of the weights in every round; the values grow at most like the powers of the sum of the absolute weights, and with non-negative weights of sum 1 they are monotone in the input and stay in its range.", "quantifier": "every process count with a decomposition, grid, stencil of offsets along one axis (extents along which they are negative being powers of two), number of rounds, input (exact arithmetic)", "why_tests_cant": "laws over all inputs, displacements, pairs of stencils and process counts", "anchors": ["cxx/Filter.cpp:applyFilter", "cxx/Filter.cpp:copyOutToIn", "cxx/Filter.cpp:computeCheckSum"]}
{"id": "C78", "title": "The registered tests run the sizes that NUM_CELLS and NUM_TIME_STEPS ask for", "statement": "The programs started by the tests that the build files register compute on the number of cells (and axes) and for the number of steps that the build was configured with.", "quantifier": "every value of NUM_CELLS, NUM_TIME_STEPS and NUM_PROCS, thread count and schedule", "why_tests_cant": "a test cannot see that it runs another problem than it was registered with: the defaults give a valid result too", "anchors": ["upwind/cxx/CMakeLists.txt:54-107", "upwind/cxx/upwind.cxx:main", "upwind/cxx/upwindAcc.cxx:main", "upwind/python/CMakeLists.txt:5-9", "upwind/julia/CMakeLists.txt:2-10", "upwind/fortran/CMakeLists.txt:18-60", "laplacian/cxx/CMakeLists.txt:11-22", "CMakeLists.txt:NUM_CELLS"]}
{"id": "C79", "title": "A registered test passes exactly if the program computed the right result", "statement": "The verdict of CTest (regular expressions of the build files on the output, exit status) is 'passed' if and only if the check sum printed is 1 up to the last digits (upwind programs) or the values computed are those of the operator (laplacian, testStencil2d).", "quantifier": "every output text and exit status; every size, thread and process count, schedule and interleaving of the output of the processes", "why_tests_cant": "the statement is about the tests themselves: a passing test says nothing about whether it could have failed", "anchors": ["upwind/cxx/CMakeLists.txt:60", "upwind/fortran/CMakeLists.txt:24", "upwind/python/CMakeLists.txt:26-28", "upwind/julia/CMakeLists.txt:11-13", "laplacian/cxx/CMakeLists.txt:11-25", "matmult/fortran/CMakeLists.txt:11-16"]}
{"id": "C80", "title": "What is written of a double determines it", "statement": "The text that a C++ program writes for a double (check sum, standard deviation, values and coordinates of the VTK files) denotes that double exactly, so that results can be read back and compared; in particular check sum 1 is printed if and only if it is 1, and the coordinates in a VTK file increase strictly.", "quantifier": "every finite double; every command line, number of cells and number of steps of the upwind programs", "why_tests_cant": "2^64 doubles and all command lines; the tests only see one check sum, through a regular expression", "anchors": ["upwind/cxx/upwind.cxx:107,199-201", "upwind/cxx/saveVTK.h:1-60", "cxx/writeVTK.cpp:1-95", "upwind/cxx/CMakeLists.txt:60"]}
{"id": "C81", "title": "The field after any number of steps has a closed form", "statement": "After k steps of upwind the value of a cell is the sum, over all ways to move m_j cells upstream along each axis j in k steps, of the multinomial coefficient times (1 - total Courant number)^(steps without a move) times the product of the Courant numbers of the axes to the powers m_j, times the initial value of the cell reached, periodically. From the initial field of the programs, with fewer steps than cells, the field is therefore the multinomial distribution; with the time step of upwind and upwindMpi the probabilities are 1/10 per axis and 7/10.", "quantifier": "every number of axes, grid, velocity, domain, time step (stable or not), initial field and number of steps (exact arithmetic); for upwindMpi every number of processes with a decomposition", "why_tests_cant": "a test compares with numbers computed by another program; the formula determines all values for all inputs", "anchors": ["upwind/cxx/upwind.cxx:advect", "upwind/cxx/upwind.cxx:main", "upwind/cxx/upwindMpi.cxx:main"]}
{"id": "C82", "title": "The upwind solver has no preferred axis or direction and depends on the physical parameters only through Courant numbers", "statement": "In exact arithmetic: giving the axes (cells, velocities, lengths, initial field) in another order gives the same final field with the axes in that order; mirroring the initial field and the velocity along any set of axes mirrors the final field; two problems in which the fraction of a cell travelled in a step and the side the flow comes from agree along each axis have the same final field. The field computed by upwind is symmetric in its three axes.", "quantifier": "every number of axes, grid, velocity, domain, time step (stable or not), initial field, number of steps, permutation of the axes and set of mirrored axes (exact arithmetic)", "why_tests_cant": "the tests run one velocity with equal positive components on cubes, for which exchanging axes or mixing up the index of an axis is invisible", "anchors": ["upwind/cxx/upwind.cxx:Upwind", "upwind/cxx/upwind.cxx:advect", "upwind/cxx/upwind.cxx:main"]}
{"id": "C83", "title": "The upwind solver creates no oscillations", "statement": "If the total Courant number is at most 1, then for every displacement the sum over the cells of the absolute differences between the values at the displaced cell and at the cell does not grow (for unit displacements: the total variation along each axis), and these differences stay within their initial bounds.", "quantifier": "every number of axes, grid, velocity, positive domain, time step within the Courant condition, initial field, displacement and number of steps (exact arithmetic)", "why_tests_cant": "a statement on all initial fields, grids and numbers of steps; the tests run one initial field", "anchors": ["upwind/cxx/upwind.cxx:advect"]}
{"id": "C84", "title": "The filter fetches one face per offset and nothing else", "statement": "In every application of a stencil of offsets of at most one cell along an axis, each rank calls MPI_Get once for every offset other than zero, in the order of the stencil, on the rank displaced by the offset, for as many elements as the face of a sub-domain has cells. It makes no other call, whatever the data are. So one application of laplacian moves twice the surface of a sub-domain per rank, and one step of upwindMpi the surface, where the surface (one face per axis) is the quantity the decomposition is chosen by.", "quantifier": "every grid, process count with a valid decomposition, stencil of such offsets, input, number of rounds for which the execution is defined, and every interleaving of the ranks", "why_tests_cant": "the amount of communication appears in no output, and the order of the calls depends on the schedule of the ranks", "anchors": ["cxx/Filter.cpp:fetch", "cxx/Filter.cpp:applyFilter", "cxx/Filter.cpp:getWindowIter", "cxx/CubeDecomp.cpp:getNeighborRank"]}
{"id": "C85", "title": "No convex functional of the advected field grows", "statement": "If the total Courant number is at most 1, then for every function that is convex between the bounds of the initial field (a power, an entropy, the excess over a threshold) the sum over the cells of the function of the value never grows. No convex function's sum ever grows, for any initial field, exactly if the Courant number, not counting the axes of one cell, is between 0 and 1.", "quantifier": "every convex function, number of axes, grid, velocity, positive domain, time step, initial field and number of steps (exact arithmetic)", "why_tests_cant": "a statement on all convex functions, initial fields, grids and numbers of steps; the tests look at the sum only", "anchors": ["upwind/cxx/upwind.cxx:advect"]}
{"id": "C86", "title": "The check sums of laplacian with IEEE numbers", "statement": "With IEEE doubles laplacian ends with status 0 on all ranks; every value of its field is finite and within (4n)^10 (22n+21) / 2^52 of ten applications of the discrete Laplacian to the initial field, n being the number of axes; the two check sums it prints are finite and, whatever the order in which MPI adds, within (4n)^10 N^n (cells per process + processes + 22n + 21) / 2^52 of the exact sum, which is 0.", "quantifier": "every command line with known options and without help, every number of axes, power of two N of cells per axis up to 2^31 cells, number of processes for which the grid can be decomposed, order of the additions in MPI, and sine and pi of at most 1 and 4 in size", "why_tests_cant": "rounding errors of all sizes, process counts and orders of addition; the sums printed differ from run to run", "anchors": ["laplacian/cxx/laplacian.cxx:main", "cxx/Filter.cpp:applyFilter", "cxx/Filter.cpp:computeCheckSum"]}
{"id": "C87", "title": "The file of laplacian with IEEE numbers against the closed form", "statement": "With IEEE doubles, a sine and a pi within 2^-52 of the real ones and option -vtk, laplacian writes exactly one file, on rank 0, in which the number of every cell, before it is rounded to six digits for printing, is within (4n)^10 (63n+21) / 2^52 of (2n (cos(2 pi / N) - 1))^10 times the product over the n axes of sin(2 pi x) at the centre of the cell. The decimal number in the text of the file is this closed form with a relative error of 1/200000 and an absolute error of (4n)^10 (64n+22) / 2^52 at most.", "quantifier": "every command line with known options and without help, 1 to 3 axes, every power of two N of cells per axis up to 2^31 cells, every number of processes for which the grid can be decomposed, every sine and pi as accurate as stated", "why_tests_cant": "rounding errors for all grids, cells and math libraries; the tests do not look at the field", "anchors": ["laplacian/cxx/laplacian.cxx:main", "cxx/Filter.cpp:applyFilter", "cxx/Filter.cpp:saveVTK"]}
{"id": "C88", "title": "The field of upwind with IEEE numbers", "statement": "With IEEE doubles every value of the field of upwind is finite and within 23 steps / 2^52 of the value of the same program in exact arithmetic. So it is symmetric in the three axes up to 46 steps / 2^52, though not exactly; with fewer steps than cells along an axis it is, up to 23 steps / 2^52, the probability of drawing each axis as often as the cell is away from the corner along it, and the decimal number in up1.vtk is this probability with a relative error of 1/200000 and an absolute error of 24 steps / 2^52 at most.", "quantifier": "every number of cells from 1 to 1290 along each axis, every int number of steps, every cell, permutation of the axes; for the file every command line with known options, -vtk and without help", "why_tests_cant": "accumulated rounding errors of every cell for all sizes and numbers of steps; the tests look at the check sum only", "anchors": ["upwind/cxx/upwind.cxx:advect", "upwind/cxx/upwind.cxx:main", "upwind/cxx/upwindOMPTasks.cxx:main", "upwind/cxx/saveVTK.h:saveVTK"]}
{"id": "C89", "title": "All programs named upwind compute the same field up to rounding", "statement": "With IEEE doubles every value that upwind.cxx, upwindOMPTasks.cxx, upwindMpi, upwindAcc, upwindAcc2, upwindOMP5, the Fortran programs, upwind.py, upwind.jl, upwind3.jl and upwindMPI.py compute is finite and within 23 steps / 2^52 of that of the exact upwind scheme with Courant number 1/10, so that any two of them agree to 46 steps / 2^52. In exact arithmetic upwind.cxx computes this scheme itself, and with fewer steps than cells along an axis it has the closed form of C81. So up to the same errors the values of all of them are this closed form, lie between 0 and 1 and are symmetric in the axes. The decimal numbers in the files up1.vtk of upwind.cxx and upwindOMPTasks.cxx, up.vtk of the accelerator versions and upMpi.vtk of upwindMpi (after one step at least) are the values of the exact scheme with a relative error of 1/200000 and an absolute error of 24 steps / 2^52 at most.", "quantifier": "every number of cells from 1 to 1290 along each axis, every number of steps below 2^31, every cell, every execution of the parallel programs, every number of processes and decomposition, every order of addition of the libraries, every command line that asks for the run; for upwindMpi the numbers of cells for which it is correct at all (powers of two), for upwindOMP5 one step or one team", "why_tests_cant": "the programs bracket their products differently and differ in their bits; the tests compare none of them with another, and accumulated rounding over all sizes, steps and schedules cannot be enumerated", "anchors": ["upwind/cxx/upwind.cxx:main", "upwind/cxx/upwindMpi.cxx:main", "upwind/cxx/upwindAcc.cxx:main", "upwind/cxx/upwindAcc2.cxx:main", "upwind/cxx/upwindOMP5.cxx:main", "upwind/fortran/upwind.F90", "upwind/python/upwind.py", "upwind/python/upwindMPI.py", "upwind/julia/upwind.jl", "upwind/julia/upwind3.jl"]}
