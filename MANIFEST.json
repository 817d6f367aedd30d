{"claims": [
 {"property": "C01", "status": "proved", "theorems": ["Fidi.C01_visits_box_exactly_once"], "note": ""},
 {"property": "C02", "status": "proved", "theorems": ["Fidi.C02_number_of_terms_mod", "Fidi.C02_number_of_terms_exact", "Fidi.C02_number_of_terms_zero"], "note": ""},
 {"property": "C03", "status": "proved", "theorems": ["Fidi.C03_flat_tuple_inverse", "Fidi.C03_flat_index_int"], "note": ""},
 {"property": "C04", "status": "proved", "theorems": ["Fidi.C04_row_major_lexicographic", "Fidi.C04_column_major_colexicographic"], "note": ""},
 {"property": "C05", "status": "proved", "theorems": ["Fidi.C05_position_is_counter_mod_terms"], "note": ""},
 {"property": "C06", "status": "proved", "theorems": ["Fidi.C06_build_undefined_iff", "Fidi.C06_getIndices_defined_iff", "Fidi.C06_getIndices_empty_box"], "note": ""},
 {"property": "C07", "status": "partial", "theorems": ["Fidi.C07_found_is_valid_partial", "Fidi.C07_found_is_valid_mod_partial", "Fidi.C07_found_is_valid_fails"], "note": "Proved for grids of at most 2^32 cells; false beyond (int-truncated product), the negation is proved."},
 {"property": "C08", "status": "partial", "theorems": ["Fidi.C08_found_iff_exists_partial", "Fidi.C08_found_iff_exists_fails", "Fidi.C08_found_mod_iff"], "note": "Proved for grids of at most 2^32 cells; false beyond, the negation is proved. C08_found_mod_iff says exactly when a decomposition is reported on larger grids."},
 {"property": "C09", "status": "proved", "theorems": ["Fidi.C09_partition", "Fidi.C09_partition_small"], "note": ""},
 {"property": "C10", "status": "proved", "theorems": ["Fidi.C10_equal_shares"], "note": ""},
 {"property": "C11", "status": "partial", "theorems": ["Fidi.C11_minimizes_partial", "Fidi.C11_minimizes_unit_axis_partial", "Fidi.C11_minimizes_fails", "Fidi.C11_double", "Fidi.C11_minimizes_double_partial", "Fidi.C11_minimizes_double_fails", "Fidi.C11_minimizes_iff"], "note": "The selection loop never costs the first valid decomposition: false in general (negation proved); optimal among all the others, and among all when an axis has extent 1. C11_minimizes_iff says exactly when the choice is optimal. With IEEE doubles the choice is the one of exact arithmetic (C11_double), so the same holds."},
 {"property": "C12", "status": "partial", "theorems": ["Fidi.C12_neighbour_partial", "Fidi.C12_neighbour_fails", "Fidi.C12_any_direction", "Fidi.C12_axis_iff"], "note": "For |dir[i]| <= decomp[i] and at most 2^30 processes; false for longer directions (negation proved). C12_any_direction says what is returned for any direction; along one axis the periodic neighbour is returned for all ranks exactly if |dir| <= decomp (C12_axis_iff)."},
 {"property": "C13", "status": "proved", "theorems": ["Fidi.C13_symmetric", "Fidi.C13_injective"], "note": "At most 2^30 processes."},
 {"property": "C14", "status": "proved", "theorems": ["Fidi.C14_neighbour_owns_adjacent"], "note": "At most 2^30 processes."},
 {"property": "C15", "status": "proved", "theorems": ["Fidi.C15_history_independent", "Fidi.C15_failure_history_independent"], "note": ""},
 {"property": "C16", "status": "partial", "theorems": ["Fidi.C16_periodic_stencil_partial", "Fidi.C16_periodic_stencil_fails", "Fidi.C16_any_extents_partial", "Fidi.C16_one_offset_iff", "Fidi.C16_every_process_count", "Fidi.C16_axis_stencil_iff"], "note": "False of the code: the periodic wrap of negative indices is computed in size_t and is wrong unless the extent divides 2^64; the negation is proved with a witness. Proved for all grids, process counts, axis stencils and inputs when the extents along which offsets are negative are powers of two. That condition is proved to be necessary: on every process count with a valid decomposition and grid of up to 2^31 cells, a stencil of different axis offsets with weights other than 0 is computed for all inputs exactly for powers of two (C16_axis_stencil_iff). C16_every_process_count says what the filter does for all other extents: a stencil with a displacement modulo 2^64, or a read outside of an array."},
 {"property": "C17", "status": "partial", "theorems": ["Fidi.C17_independent_of_processes_partial", "Fidi.C17_independent_of_processes_fails", "Fidi.C17_same_if_both_end"], "note": "Bit-for-bit, for any two process counts and any number of iterations, under the condition on the extents of C16; without it the negation is proved. For all extents: two runs that both end normally give the same values (C17_same_if_both_end)."},
 {"property": "C18", "status": "partial", "theorems": ["Fidi.C18_iterates_partial", "Fidi.C18_iterates_fails", "Fidi.C18_any_extents_partial", "Fidi.C18_every_process_count"], "note": "Any number of iterations, under the condition on the extents of C16; without it the negation is proved. C18_any_extents_partial gives what the iteration computes on one process for all extents, C18_every_process_count on any number of processes."},
 {"property": "C19", "status": "proved", "theorems": ["Fidi.C19_windows_mirror_input"], "note": "Any history of calls of any rank and collective calls that ends normally; stencil offsets no wider than the sub-domains (otherwise the constructor has no meaningful window)."},
 {"property": "C20", "status": "proved", "theorems": ["Fidi.C20_check_sum"], "note": "Exact addition (any commutative monoid); MPI_Reduce may add in any order and bracketing. After any history of calls."},
 {"property": "C21", "status": "partial", "theorems": ["Fidi.C21_field_partial", "Fidi.C21_empty_front_fails", "Fidi.C21_overflow_fails"], "note": "The reassembly is right on grids of at most 2^31 cells after any history of calls. Taken literally the call is undefined with more than one process (front() of an empty vector) and on larger grids (int overflow); both proved."},
 {"property": "C22", "status": "partial", "theorems": ["Fidi.C22_unit_offsets_partial", "Fidi.C22_one_process_partial", "Fidi.C22_unit_offsets_iff", "Fidi.C22_wide_axis_never", "Fidi.C22_wide_offsets_fails", "Fidi.C16_one_offset_iff", "Fidi.C22_one_process_iff", "Fidi.C22_one_offset_iff", "Fidi.C22_diagonal_offsets_fails", "Fidi.C22_offset_iff", "Fidi.C22_offsets_iff", "Fidi.C22_offsets_computed", "Fidi.C22_axis_offset_iff", "Fidi.C22_wide_offset_never"], "note": "False of the code (negations proved). C22_wide_axis_never: an offset of two cells or more along an axis makes applyFilter fail for every grid of up to 2^31 cells, process count with a valid decomposition and input. C22_unit_offsets_iff: stencils of components 0 and +-1 (extents along which they are negative being powers of two) are computed if no offset that leaves a sub-domain through one face needs cells that are interior along another axis, and applyFilter fails otherwise. On one process offsets of every shape are settled (C22_one_process_iff, C22_one_offset_iff): they are computed exactly if the components, each one step closer to zero, add up to 0 and the extents along which they are negative are powers of two. On any number of processes C22_offset_iff settles every offset that fits the sub-domains: it is computed exactly if OffsetWorks holds and the extents along which it is negative are powers of two. C22_offsets_iff settles every list of such offsets: the stencils with all weights are computed exactly if each of the offsets satisfies this condition with layers as wide as the first offset with the same signs; C22_offsets_computed is the sufficient half in any arithmetic. C22_axis_offset_iff settles a single offset along one axis for every int, also wider than the sub-domains: it is computed exactly if it is one cell at most and, if negative, the extent is a power of two. Missing: diagonal offsets wider than the sub-domains, and which particular weights of several offsets, not all of which work, give the right sums nevertheless."},
 {"property": "C23", "status": "partial", "theorems": ["Fidi.C23_wrap_iff_partial", "Fidi.C23_wrap_fails"], "note": "False of the code for negative indices: proved that the wrap is right exactly if the extent divides 2^64; non-negative indices are right for all extents."},
 {"property": "C24", "status": "partial", "theorems": ["Fidi.C24_invalid_decomposition_partial", "Fidi.C24_drivers_end_partial", "Fidi.C24_valid_mod_iff"], "note": "Grids of at most 2^32 cells on fewer than 32 axes; beyond that the search itself is wrong (C08_found_iff_exists_fails). C24_valid_mod_iff says exactly when isDecompValid() is true on larger grids. In any arithmetic."},
 {"property": "C25", "status": "proved", "theorems": ["Fidi.C25_cell_centres"], "note": "Over any linearly ordered field."},
 {"property": "C26", "status": "proved", "theorems": ["Fidi.C26_every_schedule", "Fidi.C26_every_schedule_iterates_partial"], "note": "Any interleaving, any number of ranks, iterations and stencil entries, for sizes in range, offsets no wider than the sub-domains and inputs for which the lock-step execution is defined (where it is not, see C16 and C23, the code has undefined behaviour). The first fence may wait or not. Memory is sequentially consistent between fences. The second theorem discharges the hypothesis on the lock-step execution under the conditions of C18 and gives the final field."},
 {"property": "C27", "status": "partial", "theorems": ["Fidi.C27_resources_partial", "Fidi.C27_freed_while_exposed_fails", "Fidi.C27_all_released_fails", "Fidi.C27_leak_count", "Fidi.C27_released_iff", "Fidi.C27_always_freed_while_exposed"], "note": "Nothing is released twice or without having been acquired. The full claim is false: the memory of every window is freed before the window, and everything is released exactly if no two non-zero offsets share a side; the number of leaked windows is given."},
 {"property": "C28", "status": "proved", "theorems": ["Fidi.C28_side_and_ghosts"], "note": ""},
 {"property": "C29", "status": "partial", "theorems": ["Fidi.C29_laplacian_operator", "Fidi.C29_driver_partial", "Fidi.C29_zero_sum_fails", "Fidi.C29_zero_sum_iff", "Fidi.C29_operator_iff", "Fidi.C29_every_process_count", "Fidi.C29_zero_sum_procs_iff", "Fidi.C29_operator_procs_iff"], "note": "Proved for the stencil assembled by laplacian, on every number of axes and every periodic grid. The filter computes this operator, and the driver its 10-fold application, if the number of cells per axis is a power of two; for other numbers the claim is false of the code (C29_zero_sum_fails: 3 cells, check sum -1), because negative indices wrap modulo 2^64. On every process count with a decomposition (grids of up to 2^31 cells) both the zero check sum and the operator are proved to hold for all inputs exactly if the number of cells is a power of two; C29_every_process_count says what the driver does for the others."},
 {"property": "C30", "status": "partial", "theorems": ["Fidi.C30_conserves_partial", "Fidi.C30_check_sum_fails", "Fidi.C30_runs_fails", "Fidi.C30_sum_grows", "Fidi.C30_sum_iff", "Fidi.C30_every_process_count", "Fidi.C30_sum_procs_iff"], "note": "Proved for every process count with a decomposition, number of steps, and number of cells per axis that is a power of two. False otherwise: check sum 13/10 with 3 cells per axis on one process, and a read outside a window with 6 cells per axis on two. For every process count and every number of cells that is not a power of two: either the first step reads outside an array, or the check sum exceeds 1 after a stated number of steps (C30_every_process_count), so it stays 1 exactly for powers of two (C30_sum_procs_iff)."},
 {"property": "C31", "status": "partial", "theorems": ["Fidi.C31_same_field_partial", "Fidi.C31_same_field_fails", "Fidi.C31_same_field_iff"], "note": "Proved for every process count with a decomposition, number of steps, Courant number, and number of cells per axis that is a power of two, on grids of fewer than 2^31 cells. False otherwise (3 cells per axis): the two programs agree after all numbers of steps exactly for powers of two (C31_same_field_iff)."},
 {"property": "C32", "status": "proved", "theorems": ["Fidi.C32_constructor", "Fidi.C32_advect_is_upwind_scheme", "Fidi.C32_axis_limit"], "note": "Any arithmetic; grids with fewer than 2^31 cells and fewer than 2^30 cells along each axis. C32_axis_limit shows that the second bound is needed (the sum inds[j] + up + numCells is narrowed to int)."},
 {"property": "C33", "status": "proved", "theorems": ["Fidi.C33_checksum_conserved", "Fidi.C33_checksum_one"], "note": "Exact arithmetic (any field)."},
 {"property": "C34", "status": "proved", "theorems": ["Fidi.C34_maximum_principle", "Fidi.C34_between_zero_and_one", "Fidi.C34_courant_iff"], "note": "Exact arithmetic (any ordered field). The values stay within the initial bounds for all fields and numbers of steps exactly if the total Courant number, not counting the axes of one cell, is between 0 and 1."},
 {"property": "C35", "status": "proved", "theorems": ["Fidi.C35_any_schedule", "Fidi.C35_terminates"], "note": "Any arithmetic, all interleavings of the single memory accesses (sequentially consistent memory)."},
 {"property": "C36", "status": "partial", "theorems": ["Fidi.C36_every_grid_fails", "Fidi.C36_every_grid_partial", "Fidi.C36_large_grid_inert", "Fidi.C36_any_axis", "Fidi.C36_right_iff"], "note": "False for grids with 2^31 cells or more, since the loops use int counters, and for some axes longer than 2^30. C36_right_iff says exactly on which grids the scheme is computed for all inputs; C36_any_axis says what is computed on every grid below 2^31 cells."},
 {"property": "C37", "status": "proved", "theorems": ["Fidi.C37_constructor", "Fidi.C37_acc_executions", "Fidi.C37_acc_result", "Fidi.C37_acc2_executions", "Fidi.C37_same_field"], "note": "Every execution, in any arithmetic, gives the upwind scheme with coefficient dt (v s / delta); equal to upwind.cxx in any ordered field. Fewer than 2^31 cells, fewer than 2^30 along each axis. Device transfers are the identity."},
 {"property": "C38", "status": "partial", "theorems": ["Fidi.C38_time_steps_ordered_fails", "Fidi.C38_two_steps_from_old_values", "Fidi.C38_two_teams_fails", "Fidi.C38_one_step_or_one_team_partial", "Fidi.C38_one_team_of_threads_partial"], "note": "False for every number (from two on) of cells along the first axis, time steps and teams: target teams distribute is on the time loop, so two time steps may start from the same values (any grid and field). Proved for at most one step or a single team, of any number of threads."},
 {"property": "C39", "status": "proved", "theorems": ["Fidi.C39_steps_compose", "Fidi.C39_no_steps"], "note": "Any arithmetic."},
 {"property": "C40", "status": "proved", "theorems": ["Fidi.C40_translation", "Fidi.C40_linear"], "note": "Translation in any arithmetic, linearity in any ordered field."},
 {"property": "C41", "status": "proved", "theorems": ["Fidi.C41_std_is_standard_deviation", "Fidi.C41_std_zero_iff_uniform", "Fidi.C41_std_nonincreasing"], "note": "Real numbers."},
 {"property": "C42", "status": "proved", "theorems": ["Fidi.C42_driver_courant", "Fidi.C42_driver_run"], "note": "Exact arithmetic."},
 {"property": "C43", "status": "partial", "theorems": ["Fidi.C43_file_partial", "Fidi.C43_more_axes_fails", "Fidi.C43_file_iff"], "note": "Proved for 1 to 3 axes, fewer than 2^31 cells, any field, any number of steps: the text is read back by a small independent reader of the legacy VTK format. False for more than 3 axes with more than one cell in the further axes: C43_more_axes_fails. C43_file_iff: for any number of axes the file can be read, with the right contents, exactly if all axes after the third have one cell. Doubles are formatted as arbitrary words; opening the file is assumed to succeed."},
 {"property": "C44", "status": "proved", "theorems": ["Fidi.C44_file", "Fidi.C44_more_axes", "Fidi.C44_nodes", "Fidi.C44_filter_file_partial"], "note": "The text is read back by a small independent reader of the legacy VTK format, for every grid of at most 3 axes whose product of node counts cannot wrap 64 bits, any domain and field of sufficient length. C44_filter_file_partial carries the statement to Filter::saveVTK, with what C21 leaves out."},
 {"property": "C45", "status": "proved", "theorems": ["Fidi.C45_rejects_iff", "Fidi.C45_rejected_changes_nothing"], "note": ""},
 {"property": "C46", "status": "proved", "theorems": ["Fidi.C46_last_value_int", "Fidi.C46_last_value_double", "Fidi.C46_last_value_string", "Fidi.C46_cases", "Fidi.C46_defined_iff"], "note": "Conversions are atoi (modelled) and atof (arbitrary function); C46_defined_iff characterises when parse is defined."},
 {"property": "C47", "status": "proved", "theorems": ["Fidi.C47_flags_toggle"], "note": ""},
 {"property": "C48", "status": "proved", "theorems": ["Fidi.C48_set_get", "Fidi.C48_unregistered"], "note": "The int sentinel is -INT_MAX."},
 {"property": "C49", "status": "proved", "theorems": ["Fidi.C49_positional_ignored"], "note": "Equality of whole outcomes, undefined ones included."},
 {"property": "C50", "status": "partial", "theorems": ["Fidi.C50_int_literals", "Fidi.C50_double_literals_partial", "Fidi.C50_double_literals_iff", "Fidi.C50_literals_fails"], "note": "All integers are accepted; of the decimal literals (optional fraction and exponent) exactly those starting with '-.' are rejected (C50_double_literals_iff), so the property is false (negation proved)."},
 {"property": "C51", "status": "partial", "theorems": ["Fidi.C51_not_swallowed_int_partial", "Fidi.C51_not_swallowed_double_partial", "Fidi.C51_not_swallowed_string_partial", "Fidi.C51_not_swallowed_fails", "Fidi.C51_always_swallowed"], "note": "False in general: '-numCells -vtk' reads -vtk as the number 0 (negation proved). Proved when no registered name directly follows the option. C51_always_swallowed: every accepted command line in which an option follows the last use of a value option swallows it, an int option becoming 0."},
 {"property": "C52", "status": "proved", "theorems": ["Fidi.C52_help"], "note": ""},
 {"property": "C53", "status": "partial", "theorems": ["Fidi.C53_acc_unknown_option", "Fidi.C53_acc_help", "Fidi.C53_upwind_unknown_option_partial", "Fidi.C53_upwind_help", "Fidi.C53_upwindMpi_unknown_option_partial", "Fidi.C53_upwindMpi_help", "Fidi.C53_laplacian_unknown_option_partial", "Fidi.C53_laplacian_help", "Fidi.C53_upwind_status_fails", "Fidi.C53_mpi_status_fails"], "note": "Holds for upwindAcc, upwindAcc2 and upwindOMP5. upwind, upwindOMPTasks, upwindMpi and laplacian report the error but exit with status 0, for every invalid command line (the _fails theorems); everything else in the claim holds for them."},
 {"property": "C54", "status": "partial", "theorems": ["Fidi.C54_fortran_any_schedule", "Fidi.C54_fortran_gpu_any_schedule", "Fidi.C54_fortran_terminates", "Fidi.C54_fortran_field", "Fidi.C54_fortran_same_as_cpp_partial", "Fidi.C54_fortran_time_step", "Fidi.C54_python_field", "Fidi.C54_python_step", "Fidi.C54_python_same_as_cpp_partial", "Fidi.C54_python_julia_time_step", "Fidi.C54_julia_field", "Fidi.C54_julia3_field", "Fidi.C54_julia_same_as_cpp", "Fidi.C54_fortran_bits_fails", "Fidi.C54_python_bits_fails", "Fidi.C54_julia_global_fails"], "note": "Every version is proved to compute the upwind scheme with its own order of evaluation, bit for bit, for all grids, velocities, steps, schedules. Julia equals C++ bit for bit (storage order reversed). Fortran and Python equal C++ in exact arithmetic; bit for bit they differ (witness with the rounding of double proved). upwindMPI.py is C62; the Cython version is C63."},
 {"property": "C55", "status": "proved", "theorems": ["Fidi.C55_matmult0", "Fidi.C55_matmult0_product", "Fidi.C55_matmult1_any_order", "Fidi.C55_matmult1_terminates", "Fidi.C55_initmat", "Fidi.C55_main_success", "Fidi.C55_main_outcomes", "Fidi.C55_program_success", "Fidi.C55_main_success_double"], "note": "sizes below 2^31-1 (the do variable is incremented past its bound); bit-exact for any arithmetic, matrix product over rings; the concurrent loop is the region of Model/Schedule.lean: any number of threads, order and interleaving. The whole program with its output is characterised for every execution in any arithmetic (C55_main_outcomes), once the sizes are known (C57). The texts of numbers in print * are parameters."},
 {"property": "C56", "status": "partial", "theorems": ["Fidi.C56_upwind_run", "Fidi.C56_upwind_check_sum", "Fidi.C56_acc_run_partial", "Fidi.C56_acc_check_sum_partial", "Fidi.C56_upwindMpi_run_partial", "Fidi.C56_laplacian_run_partial", "Fidi.C56_mpi_no_decomposition", "Fidi.C56_grid_sum", "Fidi.C56_upwindMpi_every_size", "Fidi.C56_laplacian_every_size"], "note": "upwind/upwindOMPTasks in full; upwindAcc, upwindAcc2 in full and upwindOMP5 with one time step or one team (the rest is false, C38). upwindMpi and laplacian: the `_every_size` theorems give, in any arithmetic and for every number of cells for which a decomposition exists, exactly the outcomes a run can have: out of bounds access when the number of cells is no divisor of 2^64 and the index wrapped by 2^64 falls outside a sub-domain, otherwise the texts with the check sums (in any order of addition) of the iterated stencil. The stencil there is the one wrapped at 2^64, equal to the mathematical scheme only for powers of two: this is what the `_run_partial` theorems add, in exact arithmetic, and what is false otherwise (C29/C30). The text of the timings is a parameter."},
 {"property": "C57", "status": "partial", "theorems": ["Fidi.C57_arguments_fails", "Fidi.C57_arguments_partial"], "note": "Disagreement: the program tests ier, which no statement assigns (the read of line 100 lacks iostat=ier), so that its behaviour with any numeric argument is undefined (C57_arguments_fails). The partial theorem shows that the loop would do what is wanted if ier held 0. List-directed read is a parameter."},
 {"property": "C58", "status": "proved", "theorems": ["Fidi.C58_upwind_error", "Fidi.C58_range", "Fidi.C58_checksum_error", "Fidi.C58_fortran_error", "Fidi.C58_python_error", "Fidi.C58_julia_error", "Fidi.C58_acc_error", "Fidi.C58_versions_close", "Fidi.C58_driver", "Fidi.C58_driver_double", "Fidi.C58_python_main_double", "Fidi.C58_julia_main_double", "Fidi.C58_fortran_main_double", "Fidi.C58_python_mpi_field_double", "Fidi.C58_python_mpi_main_double"], "note": "The arithmetic is the standard model of floating point with gradual underflow (Spec/Rounding.lean); the numbers Dbl, rationals rounded as IEEE doubles, are proved to satisfy it. These leave out overflow, which C69 excludes for IEEE doubles. The OpenMP and MPI versions compute the same bits as upwind.cxx (C35, C30). For the Fortran, Python and Julia programs with IEEE doubles, overflow included, the check sum is bounded whatever the order in which the library adds (SumsUp in Spec/AnyOrder.lean). The same is proved for upwindMPI.py on any number of processes, whose operations are in another order (C62); there numpy.sum of the three coefficients is trusted to add them in some order with at most 8 zeros, and the check sum is also bounded for every order of addition, as mpinum's reduce may add on each process first."},
 {"property": "C59", "status": "partial", "theorems": ["Fidi.C59_fortran_file_partial", "Fidi.C59_fortran_program", "Fidi.C59_fortran_unreadable_fails", "Fidi.C59_fortran_coordinates_fails", "Fidi.C59_python_values_fails", "Fidi.C59_python_file_partial", "Fidi.C59_julia_rectilinear", "Fidi.C59_julia_file_partial", "Fidi.C60_julia_vtk_fails"], "note": "Fortran: true of the files of the programs (equal numbers of cells along all axes of a cube); the dimensions are reversed but not the coordinates, so the file cannot be read for fewer axes or other shapes. Python: false, no separator between the values; everything else in the file is right. Julia: rectilinear is right for three axes; the file of the program, which save2VTK writes, fails on the first use (C60)."},
 {"property": "C60", "status": "partial", "theorems": ["Fidi.C60_fortran_run_partial", "Fidi.C60_fortran_bad_number_fails", "Fidi.C60_fortran_status_fails", "Fidi.C60_fortran_large_fails", "Fidi.C60_python_run_partial", "Fidi.C60_python_no_arguments", "Fidi.C60_julia_run_partial", "Fidi.C60_julia3_run_partial", "Fidi.C60_julia_no_arguments", "Fidi.C60_fortran_check_sum_partial", "Fidi.C60_python_check_sum_partial", "Fidi.C60_julia_check_sum_partial", "Fidi.C60_values_bounded", "Fidi.C60_fortran_blank_fails", "Fidi.C60_julia_vtk_fails"], "note": "False for the Fortran programs: arguments that are no numbers, missing arguments (status 0), blank arguments, 1291 cells or more per axis. Otherwise they do what is asked (all executions). Python: up to 1290 cells per axis; the file has the defect of C59. Julia: without `vtk`; with `vtk` the program ends with an exception and writes no file. The conversion of texts to integers, the sum of an array and the formatting of numbers are parameters."},
 {"property": "C61", "status": "partial", "theorems": ["Fidi.C61_fortran_threads_fails", "Fidi.C61_fortran_threads_partial", "Fidi.C61_fortran_threads_iff", "Fidi.C61_fortran_number_printed"], "note": "False for every number of threads from two on: the variables are shared, so the line may be missing, printed by every thread, or say 1. True exactly with one thread. For every number of threads the number printed is 1 or the number of threads."},
 {"property": "C62", "status": "partial", "theorems": ["Fidi.C62_field_partial", "Fidi.C62_run_partial", "Fidi.C62_file_fails", "Fidi.C62_refuses", "Fidi.C62_same_as_upwind_partial", "Fidi.C62_check_sum_partial", "Fidi.C62_values_bounded", "Fidi.C62_prints_one", "Fidi.C62_negative_velocity_fails", "Fidi.C62_any_velocity", "Fidi.C62_first_check_sum", "Fidi.C62_right_iff", "Fidi.C62_bits_fails"], "note": "False for negative velocities (witness proved), which the program itself does not use, and the bits depend on the decomposition (witness proved with the rounding of double). What is computed for velocities of any sign is proved operation by operation for every decomposition (C62_any_velocity); in exact arithmetic the field is that of the upwind scheme, and the check sum is 1, if and only if along each axis the velocity is not negative or the boxes are one cell wide (C62_right_iff). The file has the defect of C59: it cannot be read (C62_file_fails). Assumptions on mpinum are in the model. The rounding errors with IEEE numbers are bounded in C58_python_mpi_field_double and C58_python_mpi_main_double."},
 {"property": "C63", "status": "partial", "theorems": ["Fidi.C63_field_partial", "Fidi.C63_same_as_python_partial", "Fidi.C63_checksum_partial", "Fidi.C63_runs_iff", "Fidi.C63_runs_fails", "Fidi.C63_file_partial", "Fidi.C63_file_fails", "Fidi.C63_checksum_double_partial"], "note": "Proved with the rules of Python 2 and numpy before 1.10, for all grids below 2^31 cells and all sequences of time steps. False with newer versions: C63_runs_iff characterises when the constructor and a step succeed, C63_runs_fails says what happens otherwise. Addition of upDirection (1.0 or -1.0) to an index is modelled as integer addition. The VTK file has a wrong first line (C63_file_fails) and is right otherwise on grids of one to three axes (C63_file_partial). With IEEE numbers and the velocity, domain and time step of upwind.py the check sum is bounded as in C58 (C63_checksum_double_partial)."},
 {"property": "C64", "status": "partial", "theorems": ["Fidi.C64_listed_cells", "Fidi.C64_prints_data", "Fidi.C64_prints_source", "Fidi.C64_prints_received_partial", "Fidi.C64_prints_received_fails", "Fidi.C64_window_not_set", "Fidi.C64_unknown_side", "Fidi.C64_no_decomposition"], "note": "printInData, printOutData and printSrcDataWindow as claimed. printDstDataWindow pairs the own indices with the values of the neighbour (proved what it writes, and that the claim is false). Undefined: windows before anything is set, sides without window, no decomposition."},
 {"property": "C65", "status": "partial", "theorems": ["Fidi.C65_every_size", "Fidi.C65_run_partial", "Fidi.C65_values_iff", "Fidi.C65_values_fails", "Fidi.C65_first_cell_fails", "Fidi.C65_no_decomposition", "Fidi.C65_unknown_option", "Fidi.C65_help"], "note": "C65_every_size says what the program does for every size and process count, bit for bit. As stated the property is false: the wrapped index is wrong if the number of cells divides 2^64-1 (C65_values_iff, C65_values_fails), or read out of bounds; the field is 1 in a whole row and column (C65_first_cell_fails); without a decomposition an uninitialized iterator is read (C65_no_decomposition). C65_run_partial proves it for powers of two."},
 {"property": "C66", "status": "proved", "theorems": ["Fidi.C66_upwind", "Fidi.C66_acc", "Fidi.C66_python", "Fidi.C66_cython", "Fidi.C66_fortran"], "note": "C++ (all five versions), Python, Fortran (up to 2^31 - 2 cells, for all executions of the steps); Cython whenever it runs (C63). The formatting of numbers is a parameter; Fortran: its texts must fit into 20 characters."},
 {"property": "C67", "status": "proved", "theorems": ["Fidi.C67_decomp", "Fidi.C67_decomp_main", "Fidi.C67_iter", "Fidi.C67_iter_main"], "note": "The box of testMultiArrayIter, fixed in the code, is a parameter. C67_decomp_main assumes that the quotient 8/4 is less than the largest floating-point number."},
 {"property": "C68", "status": "proved", "theorems": ["Fidi.C68_filter_error", "Fidi.C68_any_extents", "Fidi.C68_check_sum", "Fidi.C68_upwindMpi", "Fidi.C68_upwindMpi_double"], "note": "The arithmetic is the standard model of floating point with gradual underflow (Spec/Rounding.lean), without overflow, which C69 excludes. MPI_Reduce may add in any order and grouping. Extents are those on which the filter is right (C16): where an offset wraps, they divide 2^64."},
 {"property": "C69", "status": "proved", "theorems": ["Fidi.C69_upwind", "Fidi.C69_fortran", "Fidi.C69_python", "Fidi.C69_julia", "Fidi.C69_acc", "Fidi.C69_driver", "Fidi.C69_unstable_overflow", "Fidi.C69_filter", "Fidi.C69_upwindMpi", "Fidi.C69_filter_overflow_fails"], "note": "F64 (Model/Ieee.lean) is binary64 with infinities and NaN; signs of zeros, NaN payloads and exception flags are left out. Signed zeros cannot change a finite result here: no division by a zero occurs. For the filter the extents are those of C18."},
 {"property": "C70", "status": "proved", "theorems": ["Fidi.C70_solution_unique", "Fidi.C70_first_order", "Fidi.C70_floating_point"], "note": "Exact (real) arithmetic for the first-order bound; any arithmetic with the standard model of rounding for C70_floating_point."},
 {"property": "C71", "status": "proved", "theorems": ["Fidi.C71_comparison", "Fidi.C71_contraction"], "note": "Exact arithmetic (any ordered field), total Courant number at most 1."},
 {"property": "C72", "status": "proved", "theorems": ["Fidi.C72_domain_of_dependence"], "note": "Any number type, no assumption on the arithmetic or the time step."},
 {"property": "C73", "status": "proved", "theorems": ["Fidi.C73_definite", "Fidi.C73_driver_closed_form"], "note": "C73_definite in any ordered field; the closed form in the reals with the real sine, cells per axis a power of two."},
 {"property": "C74", "status": "proved", "theorems": ["Fidi.C74_second_order"], "note": "Exact (real) arithmetic, cells per axis a power of two (for others the driver applies a displaced stencil, C29)."},
 {"property": "C75", "status": "proved", "theorems": ["Fidi.C75_unit_courant", "Fidi.C75_uniform_iff"], "note": "C75_unit_courant in any ordered field; C75_uniform_iff in F64 (IEEE double without the sign of zero)."},
 {"property": "C76", "status": "proved", "theorems": ["Fidi.C76_rate", "Fidi.C76_limit_iff"], "note": "Exact arithmetic (any ordered field, Archimedean for the limit)."},
 {"property": "C77", "status": "proved", "theorems": ["Fidi.C77_linear", "Fidi.C77_commute", "Fidi.C77_check_sum", "Fidi.C77_bounds"], "note": "Exact arithmetic (any field, ordered for the bounds), under the conditions of C16, which are necessary there. RunsTo is existence of a normal end with the given field on a partition of the grid; results are proved to exist and to be unique on the grid."},
 {"property": "C78", "status": "partial", "theorems": ["Fidi.C78_arguments_ignored", "Fidi.C78_cxx_size", "Fidi.C78_acc_size", "Fidi.C78_cxx_size_fails", "Fidi.C78_other_sizes_partial", "Fidi.C78_laplacian_size", "Fidi.C78_matmult_size"], "note": "False for the C++ upwind programs, which ignore arguments that are not options: their tests always run 10 steps on 128 cells (C78_cxx_size, C78_acc_size, C78_cxx_size_fails). True of the others: C78_laplacian_size, C78_other_sizes_partial together with C60 and the fields named in the C79 verdicts; matmult runs the sizes asked for whatever value ier holds because they are its defaults (C78_matmult_size)."},
 {"property": "C79", "status": "partial", "theorems": ["Fidi.C79_expression_iff", "Fidi.C79_near_one_partial", "Fidi.C79_near_one_fails", "Fidi.C79_upwind_verdict", "Fidi.C79_acc_verdict", "Fidi.C79_upwind_passes", "Fidi.C79_python_verdict", "Fidi.C79_julia_verdict", "Fidi.C79_fortran_verdict", "Fidi.C79_laplacian_verdict_iff", "Fidi.C79_laplacian_wrong_passes_fails", "Fidi.C79_stencil_passes", "Fidi.C79_stencil_wrong_passes_fails", "Fidi.C79_upwind_passes_double", "Fidi.C79_acc_passes_double", "Fidi.C79_other_passes_double", "Fidi.C79_python_mpi_verdict", "Fidi.C79_python_mpi_interleaved_fails", "Fidi.C79_python_mpi_no_decomposition", "Fidi.C79_matmult_verdict", "Fidi.C79_matmult_passes_double", "Fidi.C79_python_mpi_passes_double"], "note": "False: the alternatives in brackets are a set of characters (C79_near_one_fails), the Laplacian tests only look for a label and pass whatever the sums, in any arithmetic (C79_laplacian_verdict_iff), testStencil2d passes with wrong values, the output of several Python processes can interleave to either verdict (C79_python_mpi_interleaved_fails). The verdict of each test is characterised exactly, for every execution. Trusted: the meaning of the regular expressions and test properties of CMake as in Model/CTest.lean. With IEEE numbers the C++, Fortran, Python and Julia tests pass; the libraries' sums are trusted to add the values in some order (SumsUp) and, for the last three, the runtime to print numbers within 5e-7 of 1 with a 0 or 1 in front. The test of upwindMPI.py passes with IEEE numbers on one process, and on several if the line of the check sum arrives in one piece."},
 {"property": "C80", "status": "partial", "theorems": ["Fidi.C80_six_digits", "Fidi.C80_exact_iff", "Fidi.C80_order", "Fidi.C80_word", "Fidi.C80_one_iff", "Fidi.C80_lossless_fails", "Fidi.C80_upwind_check_sum", "Fidi.C80_upwind_files", "Fidi.C80_upwindMpi_check_sum", "Fidi.C80_acc_check_sum"], "note": "False as stated (C80_lossless_fails): six significant digits are written. Proved for every finite double: the text denotes the nearest number with six digits (C80_six_digits), it is exact exactly for numbers that have six digits (C80_exact_iff), the order is kept (C80_order), '1' stands exactly for 0.9999995 <= x <= 1.000005 (C80_one_iff). For upwind.cxx and upwindOMPTasks.cxx in IEEE arithmetic: the check sum printed is '1' for all sizes with n^3 + 22 steps < 2251799813; the coordinates in the files increase strictly from 0 to 1 and the values are the computed ones to six digits. upwindMpi in IEEE arithmetic with a power of two of cells writes one text only, whatever the order in which MPI adds: all check sums are '1' for N^3/processes + processes + 19 steps < 2251799813 (the last one is '0' without steps). The accelerator versions print '1' in every complete execution under the same condition (upwindOMP5 with one step or one team)."},
 {"property": "C81", "status": "proved", "theorems": ["Fidi.C81_closed_form", "Fidi.C81_point_source", "Fidi.C81_driver_field", "Fidi.C81_mpi_field"], "note": "Exact arithmetic (any ordered field; the drivers in the rationals). upwindMpi: number of cells per axis a power of two (otherwise C31 is false). The other versions: C37, C54, C62, C63."},
 {"property": "C82", "status": "proved", "theorems": ["Fidi.C82_axes", "Fidi.C82_mirror", "Fidi.C82_similarity", "Fidi.C82_driver"], "note": "Exact arithmetic (any ordered field; the driver in the rationals)."},
 {"property": "C83", "status": "proved", "theorems": ["Fidi.C83_variation"], "note": "Exact arithmetic (any ordered field). Beside it an example in which the variation grows at Courant number 2."},
 {"property": "C84", "status": "proved", "theorems": ["Fidi.C84_traffic", "Fidi.C84_laplacian_volume", "Fidi.C84_upwindMpi_volume"], "note": "C84_traffic: the record of calls of every interleaving is at any time the beginning of the plan for each rank, and the whole plan for a rank that has finished; number of calls and of elements of all ranks together. The hypothesis that the lock-step execution is defined is that of C26; it holds under the conditions of C18 and C56."},
 {"property": "C85", "status": "proved", "theorems": ["Fidi.C85_convex", "Fidi.C85_convex_iff"], "note": "Exact arithmetic (any ordered field). Beside it an example in which the sum of squares grows at Courant number 2."},
 {"property": "C86", "status": "proved", "theorems": ["Fidi.C86_laplacian_double"], "note": "IEEE doubles with overflow, underflow, infinities and NaNs; no signed zeros. The library function sin is any function that maps finite numbers to finite numbers of size at most 1."},
 {"property": "C87", "status": "proved", "theorems": ["Fidi.C87_laplacian_file_closed_form", "Fidi.C87_laplacian_file_decimals"], "note": "IEEE doubles with overflow, underflow, infinities and NaNs; no signed zeros. The library function sin is any function within 2^-52 of the real sine and at most 1 in size; M_PI any number within 2^-52 of pi."},
 {"property": "C88", "status": "proved", "theorems": ["Fidi.C88_field", "Fidi.C88_closed_form", "Fidi.C88_symmetric", "Fidi.C88_symmetric_bits_fails", "Fidi.C88_file"], "note": "IEEE doubles with overflow, underflow, infinities and NaNs; no signed zeros. The literal 0.1 is the double nearest to it. C88_symmetric_bits_fails shows that the symmetry is not exact."},
 {"property": "C89", "status": "proved", "theorems": ["Fidi.C89_exact", "Fidi.C89_upwind", "Fidi.C89_upwind_threads", "Fidi.C89_mpi", "Fidi.C89_mpi_agrees", "Fidi.C89_fortran", "Fidi.C89_python", "Fidi.C89_julia", "Fidi.C89_python_mpi", "Fidi.C89_acc", "Fidi.C89_closed_form", "Fidi.C89_range", "Fidi.C89_symmetric", "Fidi.C89_file", "Fidi.C89_acc_file", "Fidi.C89_mpi_file", "Fidi.C89_upwind_file"], "note": "IEEE doubles; the order in which the libraries add is arbitrary; upwindOMP5 with one step or one team and upwindMpi with powers of two of cells, as the other cases are wrong in exact arithmetic already (C38, C31)."}
]}
