{"id": "C01", "title": "Appending keeps every particle, in order", "statement": "Starting from a new segmented array pair, after any sequence of push_back calls no call has raised, get_number_of_items() equals the number of calls, and a[i] (also get_item(i) and get_segment_and_offset(i)) is the item given to the i-th call.", "quantifier": "every segment length >= 1, every sequence of appended items", "why_tests_cant": "The interesting cases are the segment boundaries; a unit test fixes one segment length and one number of pushes.", "anchors": ["SegmentedArrayPair_Module.py:SegmentedArrayPair_C.push_back", "SegmentedArrayPair_Module.py:SegmentedArrayPair_C.add_segment", "SegmentedArrayPair_Module.py:SegmentedArrayPair_C.__getitem__", "SegmentedArrayPair_Module.py:SegmentedArrayPair_C.get_segment_and_offset"]}
{"id": "C02", "title": "The index returned by push_back is a stable handle", "statement": "push_back returns (offset, full index) with full index = number of items stored before the call and offset = full index mod segment length; subscripting with that full index returns the item, and keeps returning it after any number of further push_back calls.", "quantifier": "every reachable container state, every item, every later sequence of pushes", "why_tests_cant": "Stability must hold for all continuations, including those that allocate new segments.", "anchors": ["SegmentedArrayPair_Module.py:SegmentedArrayPair_C.push_back", "SegmentedArrayPair_Module.py:SegmentedArrayPair_C.__getitem__"]}
{"id": "C03", "title": "Assignment by subscript changes exactly one item", "statement": "a[i] = v for i < get_number_of_items() makes a[i] read v, leaves every a[j], j != i, and the item count unchanged, and never raises.", "quantifier": "every container content, every index pair i, j, every value", "why_tests_cant": "Aliasing between segments or between the in and out arrays can only be excluded for all i, j.", "anchors": ["SegmentedArrayPair_Module.py:SegmentedArrayPair_C.__setitem__", "SegmentedArrayPair_Module.py:SegmentedArrayPair_C.__getitem__"]}
{"id": "C04", "title": "A read loop visits every stored item exactly once, in order", "statement": "init_out_loop() followed by get_next_segment('out') until it returns None yields pieces whose concatenation is the list of stored items; the loop ends after ceil(n/segment length) pieces, all pieces but the last have full length, no piece is empty, and contents and item count are unchanged.", "quantifier": "every number of items (including 0 and exact multiples of the segment length), every segment length", "why_tests_cant": "Off-by-one errors at exact multiples appear only for particular sizes.", "anchors": ["SegmentedArrayPair_Module.py:SegmentedArrayPair_C.init_out_loop", "SegmentedArrayPair_Module.py:SegmentedArrayPair_C.get_next_segment"]}
{"id": "C05", "title": "Storage grows only when needed and is never exceeded", "statement": "After any sequence of pushes onto a new container get_number_of_items() <= capacity of the out array, the out capacity is get_number_of_segments()*segment length, and the number of out segments is max(1, ceil(n/segment length)); the in array is untouched.", "quantifier": "every sequence of pushes, every segment length", "why_tests_cant": "A premature or missing allocation shows only at boundary sizes.", "anchors": ["SegmentedArrayPair_Module.py:SegmentedArrayPair_C.push_back", "SegmentedArrayPair_Module.py:SegmentedArrayPair_C.add_segment", "SegmentedArrayPair_Module.py:SegmentedArrayPair_C.get_capacity", "SegmentedArrayPair_Module.py:SegmentedArrayPair_C.get_number_of_segments"]}
{"id": "C06", "title": "Declaring the number of items fixes what is read back", "statement": "After set_number_of_items('out', n) with 0 <= n <= capacity, get_number_of_items() returns n and a read loop yields exactly the first n stored slots, in order.", "quantifier": "every container state, every n from 0 to the capacity", "why_tests_cant": "n = 0 and n a multiple of the segment length are single points of an unbounded range. (False at n = 0: the Python code then iterates over a whole stale segment.)", "anchors": ["SegmentedArrayPair_Module.py:SegmentedArrayPair_C.set_number_of_items", "SegmentedArrayPair_Module.py:SegmentedArrayPair_C.get_number_of_items", "SegmentedArrayPair_Module.py:SegmentedArrayPair_C.init_out_loop"]}
{"id": "C07", "title": "Reading never disturbs later appends", "statement": "For any interleaving of push_back, complete or abandoned read loops, subscript reads and writes, the container behaves like a plain list: no call raises and contents are as if the read loops had not happened.", "quantifier": "every finite history of these operations", "why_tests_cant": "The failure needs a read loop followed by enough pushes to cross a segment boundary. (False: push_back raises AssertionError; exact condition to be characterised.)", "anchors": ["SegmentedArrayPair_Module.py:SegmentedArrayPair_C.push_back", "SegmentedArrayPair_Module.py:SegmentedArrayPair_C.get_next_segment", "SegmentedArrayPair_Module.py:SegmentedArrayPair_C.init_out_loop", "Particle_Module.py:Particle_C.get_species_KE"]}
{"id": "C08", "title": "Starting an in/out pass exchanges the two arrays without losing data", "statement": "init_inout_loop() on a non-empty container makes the stored items readable as the 'in' array unchanged, makes the 'out' array empty, and returns the first pieces of both; on an empty container it returns (0, None, None) and the container stays empty.", "quantifier": "every container state", "why_tests_cant": "The empty container takes a different path (the swap is not recorded), and stale counters survive in the other array.", "anchors": ["SegmentedArrayPair_Module.py:SegmentedArrayPair_C.init_inout_loop"]}
{"id": "C09", "title": "Storage indices reported during a pass identify the particle", "statement": "While a pass is processing the particle at offset i of the current 'in' piece, get_full_index(i,'in') is the position of that particle in the list of items stored before the pass, and get_full_indices(i, o) gives in addition the position at which the particle will be stored after the pass.", "quantifier": "every population size, every pattern of deletions, every particle of the pass", "why_tests_cant": "Depends on the whole history of the pass, not one call.", "anchors": ["SegmentedArrayPair_Module.py:SegmentedArrayPair_C.get_full_index", "SegmentedArrayPair_Module.py:SegmentedArrayPair_C.get_full_indices", "Particle_Module.py:Particle_C.update_trajectory_particleId"]}
{"id": "C10", "title": "The C++ container is interchangeable with the Python container", "statement": "Driven by the same history of operations, the C++ SegmentedArrayPair and the Python SegmentedArrayPair_C return the same results and raise in the same situations.", "quantifier": "every history of operations", "why_tests_cant": "Differential tests sample histories. (False in general: set_number_of_items(0) and push_back after a read loop differ; to be characterised.)", "anchors": ["cpp/SegmentedArrayPair.h:push_back", "cpp/SegmentedArrayPair.h:set_number_of_items", "SegmentedArrayPair_Module.py:SegmentedArrayPair_C"]}
{"id": "C11", "title": "A mesh mover pass advances every particle exactly once and keeps exactly the survivors", "statement": "After advance_charged_species_in_E_field, move_particles_in_electrostatic_field or advance_neutral_species, the stored particles of the species are the advanced images of the previously stored ones that were not flagged for deletion, each once, in the same order, and get_species_particle_count is their number.", "quantifier": "every population size relative to the segment length, every pattern of deletions", "why_tests_cant": "Segment-boundary and deletion patterns interact: 2^n patterns for every n.", "anchors": ["Particle_Module.py:Particle_C.advance_charged_species_in_E_field", "Particle_Module.py:Particle_C.move_particles_in_electrostatic_field", "Particle_Module.py:Particle_C.advance_neutral_species"]}
{"id": "C12", "title": "A mover pass leaves the pre-step particles readable and raises only if a particle cannot be advanced", "statement": "During and after a pass the 'in' array still holds the particles as they were before the pass; the pass raises if and only if advancing one of the particles raises.", "quantifier": "every population and per-particle advance function", "why_tests_cant": "Requires absence of aliasing between in and out storage for every size.", "anchors": ["Particle_Module.py:Particle_C.advance_charged_species_in_E_field", "SegmentedArrayPair_Module.py:SegmentedArrayPair_C.get_next_out_segment"]}
{"id": "C13", "title": "The uniform-field mover keeps the particle count right", "statement": "After advance_charged_species_in_uniform_fields the particle count equals the number of particles not flagged for deletion and the stored particles are their advanced images.", "quantifier": "every population size and deletion pattern", "why_tests_cant": "Fails exactly when the number of survivors is a positive multiple of the segment length (100 by default): invisible to small tests. (False; exact characterisation to be proved.)", "anchors": ["Particle_Module.py:Particle_C.advance_charged_species_in_uniform_fields"]}
{"id": "C14", "title": "A species that loses all its particles is empty afterwards", "statement": "If every particle of a species is deleted in a pass, the count is 0, loops over the species (number, KE, density, output) see no particle, and new particles can be added.", "quantifier": "every population all of whose particles are deleted", "why_tests_cant": "Needs total loss of a species followed by another operation. (False for the Python container: loops see a full segment of stale particles and push_back raises.)", "anchors": ["Particle_Module.py:Particle_C.get_species_number", "SegmentedArrayPair_Module.py:SegmentedArrayPair_C.set_number_of_items", "SegmentedArrayPair_Module.py:SegmentedArrayPair_C.init_out_loop"]}
{"id": "C15", "title": "Particles can be added after any mover pass", "statement": "After a mover pass any number of push_back calls succeeds and appends after the survivors.", "quantifier": "every population, deletion pattern and number of added particles", "why_tests_cant": "Fails only if the survivors exactly fill segments and the pass ended with deletions. (False; exact condition to be proved.)", "anchors": ["Particle_Module.py:Particle_C.create_maxwellian_particles", "SegmentedArrayPair_Module.py:SegmentedArrayPair_C.push_back", "SegmentedArrayPair_Module.py:SegmentedArrayPair_C.get_next_out_segment"]}
{"id": "C16", "title": "Repeated steps compose", "statement": "After k consecutive mover passes with some survivor at every pass, the stored particles are the k-fold survivors of the k-fold advance, in original order, whatever the history of segment allocation.", "quantifier": "every k, every initial population", "why_tests_cant": "Stale data from two passes ago sits in the reused array; only an invariant over all histories excludes its reappearance.", "anchors": ["Particle_Module.py:Particle_C.advance_charged_species_in_E_field", "SegmentedArrayPair_Module.py:SegmentedArrayPair_C.init_inout_loop"]}
{"id": "C17", "title": "A trajectory keeps following the same particle", "statement": "If before a pass each live entry of the trajectory index list of a species is the storage index of a distinct trajectory-flagged particle, then after the pass each entry is the new storage index of the same particle if it survived and NO_PINDEX if it was deleted; entries of already removed particles stay NO_PINDEX; no lookup raises.", "quantifier": "every population, deletion pattern, set of trajectory particles, every number of passes", "why_tests_cant": "list.index() finds the first equal entry: a collision between an old and a new index would need specific deletion patterns.", "anchors": ["Particle_Module.py:Particle_C.update_trajectory_particleId", "Particle_Module.py:Particle_C.remove_trajectory_particleId", "Particle_Module.py:Particle_C.advance_charged_species_in_E_field"]}
{"id": "C18", "title": "Recorded trajectory points are never overwritten and never exceed the buffer", "statement": "record_trajectory_datum and remove_trajectory_particleId only append: TrajectoryLength never decreases, never exceeds npoints, already recorded points keep their values, and points beyond the buffer are dropped.", "quantifier": "every history of recordings", "why_tests_cant": "Buffer overrun occurs only in long runs with many boundary crossings.", "anchors": ["Particle_Module.py:Particle_C.record_trajectory_datum", "Particle_Module.py:Particle_C.remove_trajectory_particleId", "RecordedData_Module.py:Trajectory_C.create_trajectory"]}
{"id": "C19", "title": "Recording a step twice adds nothing and records every live trajectory once", "statement": "record_trajectory_data(step, ...) adds one point to every live trajectory of every species, and a second call with the same step adds nothing.", "quantifier": "every set of trajectories, every fill level of the buffers", "why_tests_cant": "False when a charged trajectory buffer is full (early return, step not remembered) or a neutral one is (IndexError); needs long histories.", "anchors": ["Particle_Module.py:Particle_C.record_trajectory_data"]}
{"id": "C20", "title": "Trajectory storage is large enough for the regular recording schedule", "statement": "With skip and npoints computed from (n_timesteps, max_points, extra_points), recording at every step divisible by skip, from step 0 to n_timesteps, plus up to extra_points further points, fits in npoints, and the number of scheduled points is at most max_points.", "quantifier": "every n_timesteps >= 0, max_points >= 1, extra_points >= 0", "why_tests_cant": "Integer division rounding for all pairs.", "anchors": ["RecordedData_Module.py:Trajectory_C.__init__", "RecordedData_Module.py:History_C.__init__"]}
{"id": "C21", "title": "A deleted trajectory particle gets its final point at the right time", "statement": "When a trajectory particle is deleted in a pass, its trajectory receives one last point (if room is left) stamped with the time of the step, or one step later if the previous scheduled record already carries the same step, and its index is invalidated.", "quantifier": "every trajectory state", "why_tests_cant": "The step==last_step branch is reached only on certain schedules.", "anchors": ["Particle_Module.py:Particle_C.remove_trajectory_particleId"]}
{"id": "C22", "title": "Boundary-crossing times lie inside the step and do not decrease", "statement": "For a particle crossing several facets in one step the time assigned to each crossing is between time-dt and time and the sequence of times is non-decreasing; elapsed plus remaining time always equals dt.", "quantifier": "every mesh, path, number of crossings (exact arithmetic)", "why_tests_cant": "Quantifies over all geometries and crossing counts.", "anchors": ["Particle_Module.py:Particle_C.advance_charged_species_in_E_field", "Particle_Module.py:Particle_C.advance_neutral_species"]}
{"id": "C23", "title": "find_facet returns the first facet plane reached", "statement": "If the start point is in the closed cell, find_facet(x0, dx, cell) returns the facet with the smallest crossing fraction among those reached before the end of the move; the fraction is in [0,1), the point x0+fraction*dx lies on that facet's plane and in the closed cell.", "quantifier": "every simplex cell in 1, 2, 3 dimensions given by outward normals, every start point in it, every move vector (exact arithmetic)", "why_tests_cant": "Continuum of inputs.", "anchors": ["Dolfin_Module.py:Mesh_C.find_facet", "cpp/dolfin_functions.cpp:find_facet"]}
{"id": "C24", "title": "find_facet finds a facet whenever the particle has left the cell", "statement": "For a start point in the closed cell, find_facet returns NO_FACET (with fraction 1) exactly if the end point is still in the closed cell; so the 'should not happen' error of the movers cannot occur.", "quantifier": "every simplex cell, start point, move vector (exact arithmetic)", "why_tests_cant": "Continuum of inputs; the error branch is unreachable only by proof.", "anchors": ["Dolfin_Module.py:Mesh_C.find_facet", "Particle_Module.py:Particle_C.advance_charged_species_in_E_field"]}
{"id": "C25", "title": "A surviving particle is labelled with the cell that contains it", "statement": "When tracking of a particle ends normally, either the particle is flagged deleted with cell_index NO_CELL after leaving the mesh, or is_inside_cell holds for its final position and its final cell_index.", "quantifier": "every mesh, start cell, move, boundary callbacks", "why_tests_cant": "Every path through arbitrarily many cells.", "anchors": ["Particle_Module.py:Particle_C.advance_charged_species_in_E_field", "Dolfin_Module.py:Mesh_C.is_inside_cell"]}
{"id": "C26", "title": "Tracking is bounded and the crossing counter is exact", "statement": "A particle crosses at most MAX_FACET_CROSS_COUNT facets in one step, otherwise RuntimeError is raised; the stored 'crossings' equals the number of facets crossed, and 0 if it stays in its cell.", "quantifier": "every mesh and move", "why_tests_cant": "Termination for every mesh, including inconsistent ones.", "anchors": ["Particle_Module.py:Particle_C.advance_charged_species_in_E_field", "Particle_Module.py:Particle_C.advance_neutral_species"]}
{"id": "C27", "title": "Cell tracking does not disturb the orbit", "statement": "For a particle that triggers no boundary callback, the final position is x+u*dt (component-wise), velocity, weight, flags and unique ID are those after acceleration; tracking changes only the start-point fields, cell_index and crossings. With accel_only=True a particle inside its cell keeps position and cell.", "quantifier": "every mesh, every number of cells crossed", "why_tests_cant": "Independence from the number of crossings.", "anchors": ["Particle_Module.py:Particle_C.advance_charged_species_in_E_field"]}
{"id": "C28", "title": "A particle does not cross the same facet twice in succession", "statement": "On a conforming mesh (the two cells of a shared facet have opposite normals on it) a freely moving particle never triggers the 'same as the last facet crossed' error, nor does a specularly reflected one.", "quantifier": "every conforming mesh, every path (exact arithmetic)", "why_tests_cant": "Error branch reachable only through degenerate geometry; proof needed to exclude it.", "anchors": ["Particle_Module.py:Particle_C.advance_charged_species_in_E_field", "Dolfin_Module.py:Mesh_C.compute_cell_neighbors_dict"]}
{"id": "C29", "title": "Reflecting boundary condition is specular", "statement": "The reflecting callback (default_bc_at_rmin in UserParticles_1D, reflect_from_surface in C++) mirrors the final position in the plane of the crossed facet and the velocity in the facet's direction: speed is preserved, applying it twice restores the velocity, tangential components are unchanged, the final position ends on the inner side.", "quantifier": "every unit normal, position, move vector, crossing fraction (exact arithmetic), dimensions 1 to 3", "why_tests_cant": "Continuum of inputs.", "anchors": ["UserParticles_1D.py:UserParticleBoundaryFunctions_C.default_bc_at_rmin", "cpp/Pstruct.h:reflect_from_surface"]}
{"id": "C30", "title": "Cell neighbours are mutual", "statement": "cell_neighbors_dict lists for every facet of every cell the other cell sharing that facet, or NO_CELL for a boundary facet; if B is the neighbour of A across facet f then A is the neighbour of B across the same mesh facet; Python and C++ tables agree.", "quantifier": "every mesh whose facets are attached to one or two cells", "why_tests_cant": "Every mesh topology.", "anchors": ["Dolfin_Module.py:Mesh_C.compute_cell_neighbors_dict", "cpp/MeshEntityArrays.cpp:compute_cell_neighbors_array"]}
{"id": "C31", "title": "Boundary callbacks see the current move vector", "statement": "When a boundary callback runs, the move vector it uses is the vector of the move being tracked.", "quantifier": "every particle and crossing, charged and neutral movers", "why_tests_cant": "In the neutral mover the shared array is rebound by a local assignment, so the callback reads a stale vector. (False for the Python neutral mover; to be proved with a witness.)", "anchors": ["Particle_Module.py:Particle_C.advance_neutral_species", "UserParticles_1D.py:UserParticleBoundaryFunctions_C.__init__"]}
{"id": "C32", "title": "C++ movers hand the correct start point to the facet search", "statement": "The start point passed to find_facet by the C++ movers is the particle's stored start point.", "quantifier": "every particle dimension and position", "why_tests_cant": "advance_neutral_species_cartesian_xy stores the start point at slots 3,4 but passes the address of slot 2. (False for that function; to be proved with a witness; true for the others.)", "anchors": ["cpp/advance_neutral_species_cartesian_xy.cpp", "cpp/advance_neutral_species_cartesian_xyz.cpp", "cpp/advance_charged_species_in_E_field_cartesian_xy.cpp"]}
{"id": "C33", "title": "Depositing particles on the mesh conserves the total weight", "statement": "accumulate_number_density adds exactly the sum of the particle weights to the sum of the DOF values, is independent of the order of the particles, and depositing two populations one after the other equals depositing their union.", "quantifier": "every particle population, DOF map, and basis values summing to one", "why_tests_cant": "Any number of particles and any cell connectivity.", "anchors": ["Particle_Module.py:Particle_C.accumulate_number_density", "Dolfin_Module.py:Field_C.interpolate_delta_function_to_dofs"]}
{"id": "C34", "title": "Cell densities integrate back to the number of physical particles", "statement": "After accumulating weights per cell and dividing by cell volumes, the sum over cells of density times volume equals the sum of the weights of all particles, and a cell holding no particle has density 0.", "quantifier": "every population, every mesh with positive cell volumes", "why_tests_cant": "Any number of particles and cells.", "anchors": ["Dolfin_Module.py:Field_C.add_weight_to_cell", "Dolfin_Module.py:Field_C.divide_by_cell_volumes", "Particle_Module.py:Particle_C.accumulate_number_density"]}
{"id": "C35", "title": "The electric field applied to a species is the one selected by the control switches", "statement": "The acceleration of a charged particle is q/m times (solved field if given and enabled for the species, else 0) plus (external field if given and enabled for the species, else 0).", "quantifier": "every combination of fields present/absent and switches per species, every segment", "why_tests_cant": "Shared scratch arrays are reused across segments and species, and a segment has slots that hold no particle; any number of particles, segments and earlier passes. (False in two cases: the solved field is given but disabled while an external field is enabled; the external field is evaluated at slots that hold no particle.)", "anchors": ["Particle_Module.py:Particle_C.advance_charged_species_in_E_field", "Particle_Module.py:Particle_C.move_particles_in_electrostatic_field"]}
{"id": "C36", "title": "Unique particle IDs are unique", "statement": "All particles ever created, over all species and all calls of the particle generators in one run, have distinct unique_ID values.", "quantifier": "every history of creation calls", "why_tests_cant": "Requires an invariant over the run-global counter.", "anchors": ["Particle_Module.py:Particle_C.create_maxwellian_particles", "Particle_Module.py:Particle_C.UNIQUE_ID_COUNTER"]}
{"id": "C37", "title": "A Maxwellian source creates the requested density", "statement": "create_maxwellian_particles adds number_per_cell particles to every cell of the region, each with weight volume*density/number_per_cell (divided by 4 pi for spherical_r), so that the weight added per cell is density times cell volume; nothing is added outside the region.", "quantifier": "every region, density, number per cell", "why_tests_cant": "Any number of cells and particles per cell; randomness only affects positions and velocities.", "anchors": ["Particle_Module.py:Particle_C.create_maxwellian_particles"]}
{"id": "C38", "title": "Sources fire on schedule", "statement": "In a run of n steps a source with timestep_interval k fires at exactly the steps divisible by k: floor(n/k) times over steps 1..n.", "quantifier": "every n, every interval k >= 1, any number of sources", "why_tests_cant": "Unbounded schedule.", "anchors": ["Particle_Module.py:Particle_C.add_more_particles"]}
{"id": "C39", "title": "Listed particles are stored as listed", "statement": "create_from_list appends the first N listed particles in order after the ones already stored, and creates one trajectory for each trajectory-flagged one, whose index refers to that particle.", "quantifier": "every list and previous content", "why_tests_cant": "Any list length and segment boundary.", "anchors": ["Particle_Module.py:Particle_C.create_from_list", "RecordedData_Module.py:Trajectory_C.create_trajectory"]}
{"id": "C40", "title": "The most specific boundary callback is used", "statement": "For boundary name b and species s the callback chosen is bc_at_b_for_s if defined, else default_bc_at_b, else default_bc; construction fails if none exists; the choice for one (b, s) does not depend on callbacks defined for other boundaries or species. Python and C++ choose alike.", "quantifier": "every set of defined callbacks, boundary dictionary and species list", "why_tests_cant": "Exponentially many sets of user-defined callbacks.", "anchors": ["Particle_Module.py:ParticleMeshBoundaryConditions_C.__init__", "cpp/ParticleMeshBoundaryConditions.h:ParticleMeshBoundaryConditions"]}
{"id": "C41", "title": "The particle file holds every particle of every species once per written step", "statement": "write_particles_to_file writes, for each requested attribute, a dataset of length get_total_particle_count() that is the concatenation over species (in species order) of the attribute of the stored particles in storage order; row i of all datasets of a group refers to the same particle; the output buffer is always large enough.", "quantifier": "every population per species, every segment length and number of species", "why_tests_cant": "Buffer growth formula and offsets for all sizes.", "anchors": ["Particle_Module.py:Particle_C.write_particles_to_file"]}
{"id": "C42", "title": "A step is written at most once", "statement": "Calling write_particles_to_file any number of times with non-decreasing step numbers creates exactly one group per distinct step, with consecutive group numbers.", "quantifier": "every sequence of calls", "why_tests_cant": "Histories of calls including the final close call.", "anchors": ["Particle_Module.py:Particle_C.write_particles_to_file"]}
{"id": "C43", "title": "Every species is integrated by exactly one family of movers and species indices are unambiguous", "statement": "Each species is in exactly one of charged_species and neutral_species, according to charge == 0.0, in definition order; species indices are 1..n, distinct.", "quantifier": "every list of species definitions with distinct names", "why_tests_cant": "Any number of species.", "anchors": ["Particle_Module.py:Particle_C.__init__"]}
{"id": "C44", "title": "Species totals are sums over the stored particles", "statement": "get_species_number is the sum of weights and get_species_KE the weighted sum of squared speeds (times m/2) over exactly the stored particles; both are additive under concatenation of populations and unaffected by storage layout.", "quantifier": "every population and segment length", "why_tests_cant": "Any size.", "anchors": ["Particle_Module.py:Particle_C.get_species_number", "Particle_Module.py:Particle_C.get_species_KE"]}
{"id": "C45", "title": "History records fit and are one per scheduled step", "statement": "record_history_data called at steps 0, skip, 2*skip, ... up to n_timesteps fills exactly npoints rows, in order, never out of range.", "quantifier": "every n_timesteps and skip", "why_tests_cant": "Unbounded schedule.", "anchors": ["RecordedData_Module.py:History_C.__init__", "Particle_Module.py:Particle_C.record_history_data"]}
{"id": "C46", "title": "A cell region contains exactly the cells whose midpoint is inside", "statement": "CellSet_C (rectangular or spherical region) selects exactly the mesh cells whose midpoint satisfies the region test, each once, in mesh order, and construction fails if there is none.", "quantifier": "every mesh and region", "why_tests_cant": "Any mesh.", "anchors": ["Dolfin_Module.py:CellSet_C.__init__", "Dolfin_Module.py:RectangularRegion_C.inside", "Dolfin_Module.py:SphericalRegion_C.inside"]}
{"id": "C47", "title": "The space-charge factor is applied once per solve", "statement": "solve_for_phi(assembled_charge, factor) solves with right-hand side factor*assembled_charge.", "quantifier": "every history of solves on the same charge field", "why_tests_cant": "The field is scaled in place: a second solve without re-accumulation applies factor twice. (False for repeated solves; true if the charge is re-accumulated from zero.)", "anchors": ["Dolfin_Module.py:PoissonSolve_C.solve_for_phi"]}
{"id": "C48", "title": "Scaling a field on a subdomain scales each value once", "statement": "multiply_values(factor, domain) multiplies by factor each DOF value attached to a cell of the domain and leaves the others unchanged.", "quantifier": "every mesh connectivity and domain", "why_tests_cant": "False for DOFs shared by several cells of the domain (multiplied once per cell); exact exponent to be proved.", "anchors": ["Dolfin_Module.py:Field_C.multiply_values"]}
{"id": "C49", "title": "The radial mesh map is monotone and hits its end points", "statement": "The stretched radial mesh has coordinates rmin + (rmax-rmin) x^s: vertex order is preserved, first vertex at rmin, last at rmax, so cells keep positive length and neighbours.", "quantifier": "every rmin < rmax, number of cells, natural stretch exponent s >= 1", "why_tests_cant": "All parameters.", "anchors": ["UserMesh_y_Fields_Spherical1D_Module.py:UserMesh1DS_C.create_mesh"]}
{"id": "C50", "title": "Spherical shell volumes add up", "statement": "In the 1D spherical mesh the cell volumes (4/3)pi(r1^3-r0^3) are positive for increasing vertices with r >= 0 and sum to the volume between the first and last vertex.", "quantifier": "every increasing sequence of vertices", "why_tests_cant": "Any number of cells.", "anchors": ["Dolfin_Module.py:Mesh_C.compute_cell_volume_dict"]}
{"id": "C51", "title": "Cell densities of several species in one field add up", "statement": "Calling accumulate_number_density for several species with the same cell-constant density field adds to each cell, for each species, its total weight in the cell divided by the cell volume.", "quantifier": "all numbers of species, populations, previous field contents and cell volumes", "why_tests_cant": "depends on how often the field is divided by the volumes; the existing tests accumulate one species into a zeroed field", "anchors": ["Particle_Module.py: accumulate_number_density", "Dolfin_Module.py: Field_C.divide_by_cell_volumes"]}
{"id": "C52", "title": "Setting a field on a subdomain sets exactly the values of the subdomain", "statement": "set_values(value, subdomain) gives every degree of freedom attached to a cell of the subdomain the value; all other degrees of freedom become 0, whatever the field held before.", "quantifier": "all meshes, DOF tables, subdomains, values and previous contents", "why_tests_cant": "must hold for every DOF of every mesh, including DOFs shared between cells inside and outside", "anchors": ["Dolfin_Module.py: Field_C.set_values"]}
{"id": "C53", "title": "The assembled charge is the total charge of the particles", "statement": "Accumulating the number density of every charged species and multiply-adding it with the species charge gives an assembled charge whose DOF values add up to the sum over the species of charge times total particle weight.", "quantifier": "all species lists, populations and meshes whose basis functions sum to one", "why_tests_cant": "ranges over all populations and numbers of species; involves several operations in sequence", "anchors": ["Particle_Module.py: accumulate_number_density", "Dolfin_Module.py: Field_C.multiply_add", "examples/sphere1D/sphere1D.py"]}
{"id": "C54", "title": "Closing the particle output file is honoured", "statement": "write_particles_to_file(..., close_flag=True) closes the output file, whether or not the step was already written.", "quantifier": "all histories of write calls", "why_tests_cant": "depends on which steps were written before the closing call", "anchors": ["Particle_Module.py: Particle_C.write_particles_to_file"]}
{"id": "C55", "title": "Initial cell indices label every particle with a cell containing it", "statement": "compute_mesh_cell_indices either labels every particle of every species with a cell for which is_inside_cell holds, leaving all other attributes and the storage order unchanged, or raises; it raises exactly if some particle is not inside the cell found for it.", "quantifier": "all populations, segment lengths, storage histories and cell-search results", "why_tests_cant": "in-place update through segment views must be right for every particle of every segment", "anchors": ["Particle_Module.py: Particle_C.compute_mesh_cell_indices", "Dolfin_Module.py: Mesh_C.compute_cell_index", "Dolfin_Module.py: Mesh_C.is_inside_cell"]}
{"id": "C56", "title": "Species with the same name are rejected", "statement": "Constructing Particle_C from species definitions two of which have the same name fails; so a species is never listed, and never advanced, twice.", "quantifier": "all lists of species definitions", "why_tests_cant": "ranges over all definitions", "anchors": ["Particle_Module.py: Particle_C.__init__"]}
{"id": "C57", "title": "A particle write is all or nothing", "statement": "write_particles_to_file either writes a complete group or leaves the file as it was; after a write that raised, a later write succeeds once its cause is gone.", "quantifier": "all attribute lists accepted by check_particle_output_parameters, populations and file states", "why_tests_cant": "ranges over the point at which a write fails", "anchors": ["Particle_Module.py: Particle_C.write_particles_to_file", "Particle_Module.py: Particle_C.check_particle_output_parameters"]}
{"id": "C58", "title": "The first write to a newly opened particle file is written", "statement": "After initialize_particle_output_file the next write_particles_to_file writes group Step#0, whatever was written to an earlier file.", "quantifier": "all histories of earlier writes", "why_tests_cant": "depends on state carried over from the earlier file", "anchors": ["Particle_Module.py: Particle_C.initialize_particle_output_file", "Particle_Module.py: Particle_C.write_particles_to_file"]}
{"id": "C59", "title": "Species totals do not depend on the storage backend", "statement": "With particles stored by the compiled container (use_cpp_integrators True), the number of physical particles and the kinetic energy reported for a species are the sums over the particles currently stored, as they are with the Python container.", "quantifier": "every segment length, every population and every history of pushes and mover passes, including passes that lose particles", "why_tests_cant": "A test with freshly filled storage, or one that ends with a full segment, gives the right sums; a wrong sum needs leftover slots from an earlier pass in a partly filled last segment.", "anchors": ["Particle_Module.py:Particle_C.get_species_number", "Particle_Module.py:Particle_C.get_species_KE", "cpp/SegmentedArrayPair.h:init_out_loop"]}
{"id": "C60", "title": "The field columns of a crossing record are those of a scheduled record", "statement": "The record made when a trajectory particle crosses a marked facet holds in its two field columns the same quantities as a record made by record_trajectory_data: the solved field and the external field at the particle.", "quantifier": "every combination of fields present/absent and switches, every particle of every segment, every state of the random-number generator and of the scratch arrays", "why_tests_cant": "Depends on the combination of fields and switches and on arrays shared between segments. (False if an external field is used, and if a given field is switched off.)", "anchors": ["Particle_Module.py:Particle_C.advance_charged_species_in_E_field", "Particle_Module.py:Particle_C.record_trajectory_data"]}
{"id": "C61", "title": "Declared initial distributions are created", "statement": "initialize_particles creates every distribution declared in initial_particles_dict: listed particles are appended as listed, a function_over_region entry fills its region with the stated density, and an unknown type is reported.", "quantifier": "every dictionary of initial distributions and every previous content", "why_tests_cant": "Any number and order of entries; the failure is in the positional arguments of one kind of entry.", "anchors": ["Particle_Module.py:Particle_C.initialize_particles", "Particle_Module.py:Particle_C.create_maxwellian_particles", "Particle_Module.py:Particle_C.create_from_list"]}
{"id": "C62", "title": "A trajectory started by a source begins at its own particle", "statement": "When create_maxwellian_particles selects a particle for a trajectory, one trajectory is added, its index is the storage index of that particle, and its first point holds the creation state of that particle and the fields there.", "quantifier": "every region, generator, previous content and previous trajectories", "why_tests_cant": "Depends on where in the segments the particle lands and on what was done with the storage before.", "anchors": ["Particle_Module.py:Particle_C.create_maxwellian_particles", "Particle_Module.py:Particle_C.record_trajectory_datum", "RecordedData_Module.py:Trajectory_C.create_trajectory"]}
{"id": "C63", "title": "The compiled point-in-cell test decides the closed simplex", "statement": "The compiled test of a point against the vertices of a cell returns true exactly for the points of the closed simplex spanned by the vertices (interval, triangle including a degenerate one, tetrahedron), in any order of the vertices, and gives the same answer as the Python test used by the Python movers; for four vertices in a plane it raises.", "quantifier": "every cell, vertex numbering, vertex array and point, in one, two and three dimensions", "why_tests_cant": "A wrong sign or a strict comparison in one of the orientation tests misjudges a region of points or only the points on one edge, for one orientation of the vertices.", "anchors": ["cpp/dolfin_functions.cpp:is_inside_vertices", "cpp/predicates.cpp:_orient2d", "cpp/predicates.cpp:_orient3d", "Dolfin_Module.py:Mesh_C.is_inside_cell"]}
{"id": "C64", "title": "The compiled find_facet agrees with the Python find_facet", "statement": "For every cell, start point and move the compiled find_facet returns the same facet, fraction of the move and normal as the Python function, so a run gives the same crossings with either set of movers.", "quantifier": "every cell, start point and displacement, in one, two and three dimensions", "why_tests_cant": "The two implementations unroll the facets differently, use different table layouts and treat a move that crosses no facet differently.", "anchors": ["cpp/dolfin_functions.cpp:find_facet", "Dolfin_Module.py:Mesh_C.find_facet", "cpp/MeshEntityArrays.cpp:compute_cell_facet_normals_array", "Dolfin_Module.py:Mesh_C.compute_cell_facet_normals_dict"]}
{"id": "C65", "title": "A compiled mover leaves exactly the surviving particles, in order", "statement": "After a pass of a compiled mover over a species the storage holds the advanced images of the particles that were kept, in their original order, and its count is their number, also if all particles were lost; consecutive steps compose; particles can be added afterwards; the result is the one the Python mover gives.", "quantifier": "every population below 2^32, every segment length, every history of appends, read loops and passes, every pattern of deletions, failures and callbacks with side effects", "why_tests_cant": "The compaction into the out array, the segment hand-over and the final count depend on the exact number and position of deletions relative to the segment length, over any number of steps.", "anchors": ["cpp/advance_charged_species_in_E_field_cartesian_xy.cpp", "cpp/advance_charged_species_in_E_field_cartesian_x.cpp", "cpp/advance_charged_species_in_E_field_spherical_r.cpp", "cpp/advance_neutral_species_cartesian_xy.cpp", "cpp/advance_neutral_species_cartesian_xyz.cpp", "cpp/SegmentedArrayPair.h"]}
{"id": "C66", "title": "The compiled movers move particles exactly as the Python movers do", "statement": "On the same mesh, in the same field and with callbacks that do the same, a time step of a species with the compiled mover and with the Python mover either both fail, or leave the same particles in the same order with the same positions, start points, velocities, cells, flags and crossing counts, the same trajectory records with the same crossing times, and the same user state.", "quantifier": "every mesh with regular cells in one, two or three dimensions, every population below 2^32, every history of the storages, every field, time step, crossing limit and pair of equivalent callbacks, every previous content of the scratch arrays", "why_tests_cant": "Agreement has to hold along every sequence of facet crossings, deletions and callbacks; tests compare end positions of a handful of particles in one mesh.", "anchors": ["cpp/advance_charged_species_in_E_field_cartesian_xy.cpp", "cpp/advance_charged_species_in_E_field_cartesian_x.cpp", "cpp/advance_charged_species_in_E_field_spherical_r.cpp", "cpp/advance_neutral_species_cartesian_xy.cpp", "cpp/advance_neutral_species_cartesian_xyz.cpp", "Particle_Module.py:advance_charged_species_in_E_field", "Particle_Module.py:advance_neutral_species"]}
{"id": "C67", "title": "The compiled charged movers apply to each particle the fields selected for its species", "statement": "With compiled integrators, advancing the charged particles changes the velocity of every particle by q/m dt times the solved field at that particle if that field is given and enabled for the species, plus the external field if given and enabled, and by nothing else; accel_only leaves positions alone; a crossing record contains all components of the field; the result is the one of the Python mover.", "quantifier": "every population and segment length, every combination of given and enabled fields, every previous content of the reusable field arrays, every field evaluable at the particles", "why_tests_cant": "The field arrays are reused from segment to segment, step to step and species to species; a wrong row or a stale value shows only for particular populations and switch settings.", "anchors": ["cpp/advance_charged_species_in_E_field_cartesian_x.cpp", "cpp/advance_charged_species_in_E_field_cartesian_xy.cpp", "cpp/advance_charged_species_in_E_field_spherical_r.cpp", "cpp/dolfin_functions.cpp:interpolate_field_to_points", "Particle_Module.py:Particle_C.advance_charged_particles_in_E_field"]}
{"id": "C68", "title": "A whole simulation does what the same simulation on plain lists of particles does", "statement": "Running the example program - initialization, n time steps, end - with any movers, sources, output intervals and histories, as long as no species loses all its particles within one step and every stored particle is on the mesh: the containers, the particle file, the histories, the potential file and the cell-density file are exactly those of a simulation on plain lists in which each step moves every charged particle in the last solved field, appends the particles of the due sources, and solves for the potential from the charge of all particles; if the list simulation raises, the program raises the same exception.", "quantifier": "every number of steps, every set of species, every mover and source (functions of field, step, time and their own state), every output interval, every segment length", "why_tests_cant": "Containers, buffers, density fields and files carry state from step to step; a test sees one configuration for a few steps.", "anchors": ["examples/sphere1D/sphere1D.py", "Particle_Module.py:Particle_C.advance_charged_particles_in_E_field", "Particle_Module.py:Particle_C.add_more_particles", "Particle_Module.py:Particle_C.write_particles_to_file", "Particle_Module.py:Particle_C.accumulate_number_density", "Particle_Module.py:Particle_C.record_history_data", "Dolfin_Module.py:PoissonSolve_C.solve_for_phi"]}
{"id": "C69", "title": "After a simulation the particle file is closed", "statement": "When the program has ended, the particle output file has been closed, whatever the number of steps and the output interval.", "quantifier": "every number of steps, output interval and presence of initial particles", "why_tests_cant": "Whether the final call closes the file depends on the divisibility of the last step by the interval; a test fixes both.", "anchors": ["examples/sphere1D/sphere1D.py", "Particle_Module.py:Particle_C.write_particles_to_file"]}
{"id": "C70", "title": "Particle sources never stop a simulation", "statement": "If neither a mover nor the creation of particles fails, a simulation with particle sources runs through all its steps: adding particles to a species never raises.", "quantifier": "every number of steps, every population, every order of losses and creations", "why_tests_cant": "The failure depends on the exact number of particles modulo the segment length at the step in which a source acts and on whether the last particle was lost in that step.", "anchors": ["examples/sphere1D/sphere1D.py", "Particle_Module.py:Particle_C.add_more_particles", "SegmentedArrayPair_Module.py:SegmentedArrayPair_C.push_back"]}
{"id": "C71", "title": "Every particle in a container after a run was given or created, at most once", "statement": "After n steps the container of a species holds a selection, in order, of its initial particles followed by the particles its sources created step by step; no particle is duplicated, invented, moved to another species or reordered, and for a neutral species none is missing or changed.", "quantifier": "every number of steps, every mover that keeps some identifying attribute, all sources and intervals, all initial particles", "why_tests_cant": "Duplication or loss happens at segment boundaries after particular sequences of deletions and additions over many steps.", "anchors": ["examples/sphere1D/sphere1D.py", "Particle_Module.py:Particle_C.advance_charged_particles_in_E_field", "Particle_Module.py:Particle_C.add_more_particles", "SegmentedArrayPair_Module.py"]}
{"id": "C72", "title": "The charge used for each potential is the charge of the particles present", "statement": "In every step of a simulation the right-hand side from which the potential is solved adds up (before boundary conditions) to the assembled-charge factor times the sum of charge times weight over all particles then in the containers; no charge is left over from earlier steps.", "quantifier": "every number of steps, all species, movers and sources, every basis that sums to one at each particle", "why_tests_cant": "Charge left over from a previous step or counted twice shows up only in long runs with particular losses; tests check the density of one fixed population.", "anchors": ["examples/sphere1D/sphere1D.py", "Particle_Module.py:Particle_C.accumulate_number_density", "Dolfin_Module.py:Field_C.multiply_add", "Dolfin_Module.py:PoissonSolve_C.solve_for_phi"]}
{"id": "C73", "title": "During a simulation every stored particle is in its cell", "statement": "If the initial particles and the particles made by the sources lie in the cells they are labelled with, then after every step of a simulation every particle in every container lies in the cell its cell index names, and no particle flagged as deleted is stored.", "quantifier": "every conforming mesh, every number of steps, all species, fields, time steps, sources and boundary callbacks that keep the cell label, in runs where no species loses all its particles in one step", "why_tests_cant": "A label and a position can part only through a particular crossing in one of many steps; densities and fields then are silently wrong.", "anchors": ["examples/sphere1D/sphere1D.py", "Particle_Module.py:Particle_C.advance_charged_particles_in_E_field", "Particle_Module.py:Particle_C.accumulate_number_density"]}
{"id": "C74", "title": "A simulation in order runs to the end", "statement": "If initial particles and sources are in order, a simulation ends early only because a particle exceeds the limit on facet crossings in a step or because of the append assertion of a source; on a one-dimensional mesh with absorbing ends, no sources and no more cells than the crossing limit it always runs to the end.", "quantifier": "every conforming mesh, every number of steps, all fields, charges, masses, time steps and initial particles, callbacks that delete or turn back, in runs where no species loses all its particles in one step", "why_tests_cant": "Whether an error is reachable depends on all the geometry, the fields and the whole history; tests run a few histories.", "anchors": ["examples/sphere1D/sphere1D.py", "Particle_Module.py:Particle_C.advance_charged_particles_in_E_field", "Dolfin_Module.py:Mesh_C.find_facet"]}
{"id": "C75", "title": "A simulation moves particles by leapfrog steps, whatever cells they cross", "statement": "On a conforming mesh of a convex domain with boundary callbacks that only delete, the particles after each step are exactly the leapfrog images (velocity changed by q/m E dt, then position by u dt) of the particles before it that end inside the domain, in order, followed by the particles made by the sources; the field used is the one solved from the charge of the particles before the step. Which cells and facets are crossed and how the particles are stored has no influence.", "quantifier": "every number of steps, mesh, field function, charge-to-mass ratios, time step, sources and initial particles; runs in which no error occurs and no species loses all its particles in one step", "why_tests_cant": "Tests compare a few orbits over a few cells; a particle lost, kept, displaced or accelerated wrongly at one kind of crossing would be missed.", "anchors": ["examples/sphere1D/sphere1D.py", "Particle_Module.py:Particle_C.advance_charged_particles_in_E_field", "Particle_Module.py:Particle_C.advance_charged_species_in_E_field", "Dolfin_Module.py:Mesh_C.find_facet"]}
{"id": "C76", "title": "Motion between reflecting and absorbing walls", "statement": "On a one-dimensional mesh whose inner end reflects and whose outer end deletes, each step of a particle is a leapfrog step folded at the inner end, and the particle is dropped exactly if the folded position is beyond the outer end; the number of cells has no influence. If the mesh has at most half as many cells as the limit on facet crossings, no particle makes the mover stop with an error and a simulation without sources runs to its end. With two mirrors the motion is reflected at both ends and no particle is lost.", "quantifier": "every one-dimensional mesh, every field, charge-to-mass ratio, time step, initial particles and number of steps; runs in which no species loses all its particles in one step", "why_tests_cant": "A reflected particle may cross any number of cells before and after the reflection; tests reflect one or two particles once.", "anchors": ["examples/sphere1D/sphere1D.py", "UserParticles_1D.py:UserParticleBoundaryFunctions_C.default_bc_at_rmin", "Particle_Module.py:Particle_C.advance_charged_species_in_E_field", "Dolfin_Module.py:Mesh_C.find_facet"]}
{"id": "C77", "title": "Boundary callbacks account for every lost particle", "statement": "If the boundary callbacks keep a count per species of the particles they delete, then at the end of a simulation the count of each species has grown by exactly the number of its particles that were given at the start or made by sources and are not stored any more: every loss is seen by exactly one callback that deletes, and no deletion is called for a particle that stays.", "quantifier": "every mesh, every number of steps, all fields, sources, initial particles and callbacks that delete only at the boundary of the mesh; runs in which no error occurs and no species loses all its particles in one step", "why_tests_cant": "A callback called twice for one loss, or a loss without a callback, needs a particular path through the cells.", "anchors": ["UserParticles_1D.py:UserParticleBoundaryFunctions_C.default_bc", "Particle_Module.py:Particle_C.advance_charged_species_in_E_field", "Particle_Module.py:ParticleMeshBoundaryConditions_C"]}
{"id": "C78", "title": "Recorded trajectories are diaries of the particles", "statement": "In a program that moves particles, records trajectory points, adds particles and loops over them, in any order and on several charged and neutral species: every trajectory contains exactly what was noted about its particle (first point, facet crossings, scheduled points, final point), in that order, up to the size of its data array; its particle index is the place where the particle is stored, or NO_PINDEX if it is gone; the trajectory of a lost particle never changes again; the bookkeeping itself raises no exception; and marking particles for trajectories changes nothing about the particles.", "quantifier": "all sequences of calls, all numbers and kinds of species, segment lengths and array sizes, all motions that keep the identity and the trajectory flag of a particle, all numbers of particles; programs in which no scheduled point is due for a full array, identities are distinct, and a species that lost everything in one step is not used again", "why_tests_cant": "Storage positions shift with every deletion, so a wrong index shows only for particular interleavings of deletions, additions and recordings over many steps.", "anchors": ["Particle_Module.py:Particle_C.record_trajectory_data", "Particle_Module.py:Particle_C.record_trajectory_datum", "Particle_Module.py:Particle_C.advance_charged_particles_in_E_field", "Particle_Module.py:Particle_C.advance_neutral_particles", "Particle_Module.py:Particle_C.create_from_list", "RecordedData_Module.py:Trajectory_C.create_trajectory"]}
{"id": "C79", "title": "After set-up every species is moved by the right mover", "statement": "Constructing the particles, giving them the mesh and initializing the integration succeeds, with Python and with compiled movers; afterwards a call to advance charged (neutral) particles applies to every charged (neutral) species that has particles, once and in order, the mover of its kind, coordinate system and cell shape; called too early, the advance and recording functions raise instead of moving or recording anything.", "quantifier": "all coordinate systems, lists of species with masses and distinct names, dimensions of the mesh, numbers of particles, Python or compiled movers", "why_tests_cant": "The mover is looked up by a name assembled at run time from the kind of species and the number of facets; each combination exists or not in separately compiled modules.", "anchors": ["Particle_Module.py:Particle_C.__init__", "Particle_Module.py:Particle_C.initialize_particle_mesh", "Particle_Module.py:Particle_C.initialize_particle_integration", "Particle_Module.py:Particle_C.advance_charged_particles_in_E_field", "Particle_Module.py:Particle_C.advance_neutral_particles", "Particle_Module.py:Particle_C.record_trajectory_data", "cpp/particle_solib.cpp", "examples/sphere1D/sphere1D.py"]}
{"id": "C80", "title": "Python and C++ store the same particle record", "statement": "For every coordinate system the C++ particle record has the attributes of the Python one, with the same names in the same order; a tuple with one number per attribute is stored as the same record by both containers and read back unchanged as a tuple and as a dictionary; tuples with missing or surplus values are refused by both; the distributions that come with the code make tuples that are accepted.", "quantifier": "all coordinate systems, all tuples of numbers of any length, all lists of particles", "why_tests_cant": "The record layout is written down separately in Python, in four C++ structs, and in every user distribution; swapped or missing entries show only for particular values.", "anchors": ["Particle_Module.py:Particle_C.__init__", "Particle_Module.py:Particle_C.create_from_list", "cpp/Pstruct.h", "cpp/numpy_types_solib.cpp", "SegmentedArrayPair_Module.py:SegmentedArrayPair_C.push_back", "cpp/SegmentedArrayPair.h", "UserParticles_1D.py:UserParticleDistributions_C.neutral_H"]}
{"id": "C81", "title": "Compiled programs behave like programs on lists", "statement": "A program that uses the compiled movers and containers (creating particles from lists and by sources, mover calls, loops over the particles, in any order and for several species) sees exactly what it would see if each species were a plain list: new particles go to the end, a mover call leaves the particles that are not lost, in their order, and a loop meets every particle once; it stops only with an error of a mover or of the caller's own functions.", "quantifier": "all sequences of calls, all numbers of species, all movers (including failing ones), all segment lengths of at least two", "why_tests_cant": "Whether a later call works depends on how full the last segment is and on where earlier loops and mover calls have left the storage position; tests use a handful of particles and never meet a full segment at the wrong moment.", "anchors": ["cpp/SegmentedArrayPair.h", "cpp/MeshEntityArrays.h", "cpp/particle_solib.cpp", "Particle_Module.py:Particle_C.create_from_list", "Particle_Module.py:Particle_C.create_maxwellian_particles", "Particle_Module.py:Particle_C.advance_charged_particles_in_E_field", "Particle_Module.py:Particle_C.advance_neutral_particles"]}
{"id": "C82", "title": "Boundary tags end up on the sides they are named after", "statement": "When a mesh is created with a dictionary of named boundaries (rmin/rmax on the radial mesh, xmin/xmax on an interval, xmin/xmax/ymin/ymax on a rectangle), every facet of the mesh that lies on a named side carries the tag given for that side in the dictionary, and every facet that lies on no named side carries the tag 0; markers read from files or passed in dictionaries are available on the mesh object afterwards.", "quantifier": "all dictionaries, all boxes or radii, all numbers of cells and all facets", "why_tests_cant": "Tests use one mesh and one dictionary; whether tags are right for every width, cell size and dictionary (including tolerances and corners) is a statement about all of them.", "anchors": ["UserMesh_y_Fields_Spherical1D_Module.py:UserMesh1DS_C.create_mesh", "UserMesh_y_Fields_Spherical1D_Module.py:UserMesh1DS_C.__init__", "UserMesh_y_Fields_FE_XYZ_Module.py:UserMesh_C.create_mesh", "UserMesh_y_Fields_FE2D_Module.py:UserMesh2DCirc_C.create_mesh"]}
{"id": "C83", "title": "A particle that reaches a named boundary meets the callback named after it", "statement": "If a mesh is created with named particle boundaries and the user provides callbacks named bc_at_<boundary>_for_<species>, default_bc_at_<boundary> or default_bc, then a particle of a species that reaches a boundary is handed to the most specific callback of that boundary, and to no callback elsewhere; with reflecting or absorbing callbacks the motion is that of a point between mirrors and holes at the named positions.", "quantifier": "all meshes, dictionaries with distinct positive tags, sets of callbacks, species, fields and particles", "why_tests_cant": "The result depends on mesh creation, tag lookup, callback lookup and tracking together, for every trajectory and every set of callbacks; tests run a handful of particles on one mesh.", "anchors": ["UserMesh_y_Fields_Spherical1D_Module.py:UserMesh1DS_C.create_mesh", "UserMesh_y_Fields_FE_XYZ_Module.py:UserMesh_C.create_mesh", "Particle_Module.py:ParticleMeshBoundaryConditions_C.__init__", "Particle_Module.py:Particle_C.advance_charged_species_in_E_field"]}
{"id": "C84", "title": "Between mirrors and holes particles move like billiard balls, on any mesh", "statement": "If every boundary facet has a callback that reflects or deletes, then a particle that is in the mesh at the start of a step either stops the run with the error that too many facets were crossed, or it goes straight through the domain to the first point of the boundary its way leads through, is mirrored or deleted there, goes on from there, and so on until the step is used up. Mirrors do not change its speed, nothing changes its other attributes, and it is in the domain afterwards unless it was deleted.", "quantifier": "all conforming meshes in any dimension (convex or not), all sets of mirrors and holes, all fields, particles and time steps, any number of bounces", "why_tests_cant": "Tests follow one or two bounces on one mesh; the path through the cells and the order of walls depend on every position, velocity and mesh.", "anchors": ["Particle_Module.py:Particle_C.advance_charged_species_in_E_field", "Particle_Module.py:Particle_C.advance_neutral_species", "Dolfin_Module.py:Mesh_C.find_facet", "UserParticles_2D_e.py:UserParticleBoundaryFunctions_C"]}
{"id": "C85", "title": "The named sides of a rectangle act as named, for every trajectory", "statement": "A rectangle divided into triangles, whose four sides are named and tagged with different positive numbers, with a reflecting or absorbing callback for every side: a particle of a species is reflected at the reflecting sides and deleted at the absorbing ones, the two coordinates move independently of each other, the particle stays in the rectangle while it is not deleted, and a simulation with absorbing sides moves every particle by the leapfrog rule until it leaves the rectangle; no particle makes the run fail.", "quantifier": "all rectangles, numbers of cells, choices of diagonals, tag dictionaries, sets of callbacks, species, fields, particles and numbers of steps", "why_tests_cant": "The result combines mesh creation, tagging, callback lookup and tracking for every trajectory; tests use one box and a few particles.", "anchors": ["UserMesh_y_Fields_FE_XYZ_Module.py:UserMesh_C.create_mesh", "Particle_Module.py:ParticleMeshBoundaryConditions_C.__init__", "Particle_Module.py:Particle_C.advance_charged_species_in_E_field"]}
{"id": "C86", "title": "On a rectangle no particle stops the run by crossing too many facets", "statement": "On a rectangle of nx by ny boxes, each divided into two triangles, whose named sides reflect or absorb, a particle in the mesh is moved without an error, however fast it is and whatever the field is, and also if it passes through corners of triangles or along edges; a simulation on such a mesh runs to its end.", "quantifier": "all rectangles, numbers of boxes, choices of diagonals, reflecting and absorbing sides, fields, particles, time steps and numbers of steps", "why_tests_cant": "The number of facets a particle crosses depends on its direction and speed and on the mesh; the limit of 100 crossings is never approached by tests, and degenerate directions are not tried.", "anchors": ["Particle_Module.py:Particle_C.advance_charged_species_in_E_field", "Particle_Module.py:Particle_C.MAX_FACET_CROSS_COUNT", "Dolfin_Module.py:Mesh_C.find_facet", "UserMesh_y_Fields_FE_XYZ_Module.py:UserMesh_C.create_mesh"]}
{"id": "C87", "title": "Every particle is labelled with a cell that contains it, and particles outside of the mesh are reported", "statement": "compute_mesh_cell_indices gives every particle the number of a cell that contains it and changes nothing else; if a particle is in no cell, the run stops with a message. The cell number of a single point or of an array of points can be asked for, with a special value for points outside of the mesh.", "quantifier": "all meshes with regular cells, all species, containers and particle positions", "why_tests_cant": "Tests use a few points inside of the mesh; the claim covers every position, also on facets and outside.", "anchors": ["Particle_Module.py:Particle_C.compute_mesh_cell_indices", "Dolfin_Module.py:Mesh_C.compute_cell_index", "Dolfin_Module.py:Mesh_C.compute_cell_indices", "Dolfin_Module.py:Mesh_C.NO_CELL", "Dolfin_Module.py:Mesh_C.is_inside_cell"]}
{"id": "C88", "title": "The geometry dictionaries of any triangulation describe a conforming mesh", "statement": "From the vertices, cells and facets of any triangulation in one, two or three dimensions, the mesh object computes vertex, neighbour and normal dictionaries such that the cells are the simplices, normals point outward, the neighbour across a facet is the simplex on the other side, and so particles are followed through the mesh: each ends in the simplex of its record, or deleted, or with the error for too many crossings.", "quantifier": "all triangulations, facet markings, callbacks and particles; in particular all rectangles divided into triangles", "why_tests_cant": "Tests look at single small meshes and compare some entries of the dictionaries with numbers found by hand.", "anchors": ["Dolfin_Module.py:Mesh_C.compute_cell_vertices_dict", "Dolfin_Module.py:Mesh_C.compute_cell_neighbors_dict", "Dolfin_Module.py:Mesh_C.compute_cell_facet_normals_dict", "Dolfin_Module.py:Mesh_C.compute_cell_entity_indices_dict", "Particle_Module.py:Particle_C.advance_charged_species_in_E_field"]}
{"id": "C89", "title": "The potential of a one-dimensional Poisson solve exists, is unique, has the given boundary values and obeys Gauss's law", "statement": "With a potential given at one or both ends of an interval mesh, Cartesian or radial, and the other end left unset, the solver is made without error and for every charge vector there is exactly one potential; it has the given end values, and the flux of its field out of any part of the mesh is the charge in it.", "quantifier": "all interval meshes with increasing vertices (positive radii allowed to start at 0), boundary values, charge vectors", "why_tests_cant": "Tests compare with a known solution for one mesh and charge; existence, uniqueness and the conservation law are about all.", "anchors": ["UserMesh_y_Fields_FE_XYZ_Module.py:UserPoissonSolve1D_C", "UserMesh_y_Fields_Spherical1D_Module.py:UserPoissonSolve1DS_C", "Dolfin_Module.py:PoissonSolve_C.solve_for_phi", "Dolfin_Module.py:PoissonSolve_C.compute_negE"]}
{"id": "C90", "title": "Between plates the computed potential is exact at the vertices", "statement": "On a Cartesian interval mesh with potentials given at both ends, the potential computed for deposited point charges equals at every vertex the exact electrostatic potential of these charges between two plates.", "quantifier": "all meshes, plate potentials, finite sets of point charges between the plates", "why_tests_cant": "The claim is an exact identity for any mesh spacing and any charges; tests can only sample it up to a tolerance.", "anchors": ["UserMesh_y_Fields_FE_XYZ_Module.py:UserPoissonSolve1D_C", "Dolfin_Module.py:PoissonSolve_C.solve_for_phi", "Dolfin_Module.py:Field_C.integrate_delta_function"]}
{"id": "C91", "title": "A charge density given in the input is the source of the potential", "statement": "A charge density given to the Poisson solver is assembled into the right-hand side with the volume element of the coordinate system, and adds to the charge of the particles; a constant density on a Cartesian interval mesh yields the exact parabola at the vertices.", "quantifier": "all interval meshes, constant densities, boundary values and particle charges", "why_tests_cant": "Tests solve with one density and compare pictures or a few values.", "anchors": ["UserMesh_y_Fields_FE_XYZ_Module.py:UserPoissonSolve1D_C", "Dolfin_Module.py:PoissonSolve_C.assemble_source_expression", "Dolfin_Module.py:PoissonSolve_C.solve_for_phi"]}
{"id": "C92", "title": "In every state of a one-dimensional simulation the field is that of the particles present", "statement": "In a simulation with field solves on an interval mesh, the potential computed in each step obeys Gauss's law for the particles that are then in the mesh, and with a potential given at both ends it is at the vertices the exact potential of those particles.", "quantifier": "all interval meshes, boundary values, species, particles, time steps, sources and numbers of steps", "why_tests_cant": "The claim ranges over all histories of a simulation in which particles move, are created and leave.", "anchors": ["examples/sphere1D/sphere1D.py", "Particle_Module.py:Particle_C.accumulate_charge_density_from_particles", "Dolfin_Module.py:PoissonSolve_C.solve_for_phi"]}
{"id": "C93", "title": "In a spherical simulation the particles move in the field that Gauss's law gives", "statement": "Let a radial mesh be made with named tags for the field and for the particles, with callbacks named after the boundaries (reflecting or absorbing at rmin, absorbing at rmax), the potential given at rmax and given or 'unset' at rmin. Then the solver is made, and from each state of a simulation to the next every charged particle makes one leapfrog step in the electric field of all charges present, where the flux through a cell is the charge below it (a charge in the cell counts in proportion to its distance from the upper end), plus the charge of the inner electrode if its potential is given; a particle beyond rmax is lost, one below rmin is folded back or lost, the particles of the sources are added, and nothing else happens. This field is unique. If the mesh has at most half as many cells as the limit of crossings the program runs to its end, unless a species loses all its particles in one step or a source meets a full container.", "quantifier": "all radial meshes with any number of cells and any stretching, all tags and callbacks, all species, sources, initial particles, weights, time-steps and numbers of steps", "why_tests_cant": "A test compares one run with recorded numbers; that each step moves each particle in the field of all others is a statement about all populations and all lengths of runs.", "anchors": ["UserMesh_y_Fields_Spherical1D_Module.py:UserMesh1DS_C.create_mesh", "UserMesh_y_Fields_Spherical1D_Module.py:UserPoissonSolve1DS_C", "Dolfin_Module.py:PoissonSolve_C.solve_for_phi", "Particle_Module.py:Particle_C.accumulate_charge_density_from_particles", "Particle_Module.py:Particle_C.move_particles_in_electrostatic_field", "Dolfin_Module.py:Field_C.interpolate_field_to_points"]}
{"id": "C94", "title": "On any triangulation the two-dimensional Poisson solver finds the potential of the given charges", "statement": "With the potential given as a number at the sides 'rmin' and 'rmax', and every vertex connected with these sides by a chain of cells: the solver is made, its system has exactly one solution for any charges at the vertices, this potential has the given values at the sides ('rmax' counts where they meet), the field is its gradient and obeys Gauss's law, tested with every function that is linear in each cell and zero at the sides. It is the potential of least energy. The value 'unset' is accepted, as by the one-dimensional solver, and a side whose tag is not on the mesh is reported.", "quantifier": "all triangulations, sides, boundary values, permittivities and charges", "why_tests_cant": "Tests solve on one mesh with one set of boundary values; the claim is about all meshes and all charges.", "anchors": ["UserMesh_y_Fields_FE2D_Module.py:UserPoissonSolve2DCirc_C", "Dolfin_Module.py:PoissonSolve_C.solve_for_phi", "Dolfin_Module.py:PoissonSolve_C.compute_negE", "Dolfin_Module.py:PoissonSolve_C.assemble_source_expression"]}
{"id": "C95", "title": "Without charges the potential stays between the values at the sides", "statement": "If the charge at every vertex not on a side with given potential is not positive (not negative), the potential is nowhere above the larger (below the smaller) of the two given values; without charges it stays between them.", "quantifier": "all triangulations, sides, boundary values, permittivities and charges of one sign", "why_tests_cant": "Whether it holds depends on the angles of every triangle; a tested mesh says nothing about another.", "anchors": ["UserMesh_y_Fields_FE2D_Module.py:UserPoissonSolve2DCirc_C", "Dolfin_Module.py:PoissonSolve_C.solve_for_phi", "Dolfin_Module.py:PoissonSolve_C.compute_negE", "Dolfin_Module.py:PoissonSolve_C.assemble_source_expression"]}
{"id": "C96", "title": "In every state of a simulation on a triangulation the field is that of the particles present", "statement": "In a simulation with field solves on a triangulation, in every state after a step the potential has the given values at the sides, and the field obeys Gauss's law for the particles then present as point charges: tested with any function that is linear in each cell and zero at the sides, it gives the sum of charge times value of the function at the position of the particle. With grounded sides the integral of eps E^2 is the sum of charge times potential at the particles.", "quantifier": "all triangulations, boundary values, species, particles, sources, time-steps and numbers of steps", "why_tests_cant": "The claim ranges over all histories of a simulation in which particles move, are created and leave.", "anchors": ["UserMesh_y_Fields_FE2D_Module.py:UserPoissonSolve2DCirc_C", "Dolfin_Module.py:PoissonSolve_C.solve_for_phi", "Dolfin_Module.py:PoissonSolve_C.compute_negE", "Dolfin_Module.py:PoissonSolve_C.assemble_source_expression", "Particle_Module.py:Particle_C.accumulate_charge_density_from_particles"]}
{"id": "C97", "title": "On a triangulation of a convex domain particles move in the electric field of all of them", "statement": "Let a triangulation of a convex domain be given, with marks on its boundary where particles are absorbed, and with the potential given at two sides. Then the mesh tables are built, the solver is made, and from each state of a simulation to the next every charged particle makes one leapfrog step in the electric field of all charges present (the only field that is minus the gradient of a potential with the given values at the sides and obeys Gauss's law), and is lost if it is then outside the domain; neutral particles stay, the particles of the sources are added, and nothing else happens. The state of the program holds these particles.", "quantifier": "all triangulations of convex domains in one, two or three dimensions, all marks, boundary values, species, sources, initial particles, weights, time-steps and numbers of steps", "why_tests_cant": "A test compares one run with recorded numbers; that each step moves each particle in the field of all others is a statement about all meshes, populations and lengths of runs.", "anchors": ["UserMesh_y_Fields_FE2D_Module.py:UserPoissonSolve2DCirc_C", "Dolfin_Module.py:PoissonSolve_C.solve_for_phi", "Dolfin_Module.py:PoissonSolve_C.compute_negE", "Dolfin_Module.py:PoissonSolve_C.assemble_source_expression", "Dolfin_Module.py:Mesh_C.compute_cell_neighbors_dict", "Particle_Module.py:Particle_C.accumulate_charge_density_from_particles", "Particle_Module.py:Particle_C.move_particles_in_electrostatic_field"]}
{"id": "C98", "title": "The mesh on a sector of a ring is a triangulation with the sides it is asked for", "statement": "For radii 0 < rmin < rmax, a positive stretching power, an angle tmax of at most one turn and less than half a turn between neighbouring rays, the mesh made on the sector is a triangulation: no triangle is flat, no two overlap, neighbours share an edge. Its triangles cover exactly the points between the chords of the inner and of the outer circle. Facets are marked as named in the dictionaries. The Poisson solver on it has just one solution for all charges, with the given potentials at all vertices on the inner and the outer circle, and the mover keeps particles in the triangle with the number in their record, or deletes them at a side. Radii, angles and numbers for which this is not so are rejected.", "quantifier": "all radii, stretching powers, angles, numbers of cells, choices of diagonals ('left', 'right', 'left/right'), dictionaries and potentials", "why_tests_cant": "A test makes one mesh with one set of numbers; whether triangles overlap depends on all of them.", "anchors": ["UserMesh_y_Fields_FE2D_Module.py:UserMesh2DCirc_C.create_mesh", "UserMesh_y_Fields_FE2D_Module.py:UserPoissonSolve2DCirc_C", "Dolfin_Module.py:Mesh_C.compute_cell_neighbors_dict"]}
{"id": "C99", "title": "With crossed diagonals the mesh on a sector is a triangulation, too", "statement": "With the option 'crossed' every box of the sector has a vertex halfway between its rays and halfway, before stretching, between its circles, and four triangles. The mesh is a triangulation (no flat triangle, no overlap), its triangles cover the same points as without the middles, its sides are marked as named, the Poisson solver has just one solution for all charges and the mover keeps particles in the triangle with the number in their record. If the numbers are such that the middle of a box would not lie inside it, the mesh is rejected.", "quantifier": "all radii, stretching powers, angles, numbers of cells, dictionaries and potentials", "why_tests_cant": "Whether the middle of a box is inside it depends on all the numbers together; a mesh that works with few circles fails with many.", "anchors": ["UserMesh_y_Fields_FE2D_Module.py:UserMesh2DCirc_C.create_mesh", "UserMesh_y_Fields_FE2D_Module.py:UserPoissonSolve2DCirc_C"]}
{"id": "C100", "title": "Every recorded trajectory ends up in a file of its own", "statement": "write_trajectories_to_files makes, for every particle that had a trajectory, whether it still exists or not, a file named after its species and its unique ID. The file holds the title and author of the run, the name, mass and charge of the species, and one group per recorded point, in the order of recording, with the time and a dataset per recorded attribute. No other file is touched, and no trajectory is lost.", "quantifier": "all programs that create, move, record and delete particles; all species names, unique IDs, attributes and earlier contents of the directory", "why_tests_cant": "File names are put together from text and numbers, and must be different for all species names and IDs; the points depend on the whole history of the program.", "anchors": ["RecordedData_Module.py:Trajectory_C.write_trajectories_to_files", "RecordedData_Module.py:Trajectory_C.create_trajectory", "Particle_Module.py:Particle_C.create_from_list", "Particle_Module.py:Particle_C.create_maxwellian_particles"]}
{"id": "C101", "title": "A box is cut into tetrahedra that fit, and particles move in all of it", "statement": "If the corners given to create_mesh have three coordinates, the mesh is a triangulation of the box between them: vertices at equal distances in each direction, six tetrahedra of equal volume in each grid cell, no overlap, nothing left out. Particles in the box make leapfrog steps in the field of all particles, whatever tetrahedra they cross, and those that leave reach the callback of the boundary named in particle_boundary_dict.", "quantifier": "all boxes, numbers of grid cells, particles, fields, time steps and callbacks", "why_tests_cant": "Tetrahedra that fit in one grid cell need not fit the next one; particles can reach facets, edges and vertices from all directions.", "anchors": ["UserMesh_y_Fields_FE_XYZ_Module.py:UserMesh_C.create_mesh", "Dolfin_Module.py:Mesh_C", "Particle_Module.py:Particle_C.advance_charged_species_in_E_field"]}
{"id": "C102", "title": "Particles cannot cross too many facets where lines meet few cells", "statement": "Where particles are deleted at the boundary, no particle stops the run by exceeding MAX_FACET_CROSS_COUNT, however fast it is, whatever the field is and through whatever vertices and edges it passes: on any mesh in one or two dimensions with no more cells than the limit; on a box of nx by ny by nz grid cells with 3(nx+ny+nz)-5 within the limit; on a sector of a ring of nr by nt boxes with 2(nt+2nr-2) within the limit, or 4(nt+2nr-2) with crossed diagonals. In the plane a particle never returns within a step to a cell it has left.", "quantifier": "all triangulations, markers, callbacks that delete at the boundary, fields, velocities, time steps and simulations", "why_tests_cant": "The number of cells on a line depends on its direction; a path through vertices can visit cells that a path nearby does not, and only a proof excludes that it goes round in circles.", "anchors": ["Particle_Module.py:Particle_C.advance_charged_species_in_E_field", "Particle_Module.py:Particle_C.advance_neutral_species", "Particle_Module.py:Particle_C.MAX_FACET_CROSS_COUNT", "Dolfin_Module.py:Mesh_C.find_facet"]}
{"id": "C103", "title": "A rectangle with crossed diagonals has the named walls, and particles move in it as in any rectangle", "statement": "The mesh made for a rectangle with the option 'crossed' is a triangulation with 4 nx ny cells whose points are those of the rectangle. If particle boundaries are named on all four sides, then the callback run where a particle meets the boundary is that of the side, for the species; a step of the charged mover is a leapfrog step of a billiard ball in the rectangle (folded at mirrors, deleted exactly when it ends outside if all sides absorb), and the only error is that of too many facets. If all sides absorb and 4(nx+ny-1) is within MAX_FACET_CROSS_COUNT, no particle stops the run, and a simulation ends normally with every particle having made leapfrog steps until it was lost.", "quantifier": "all rectangles, numbers of boxes, boundary dictionaries with distinct positive tags, callbacks, fields, velocities, time steps, sources and numbers of steps", "why_tests_cant": "Diagonals meet in the middles of boxes; particles can pass through any of the vertices in any direction, and walls are found by comparing coordinates.", "anchors": ["UserMesh_y_Fields_FE_XYZ_Module.py:UserMesh_C.create_mesh", "Dolfin_Module.py:Mesh_C.find_facet", "Particle_Module.py:Particle_C.advance_charged_species_in_E_field"]}
{"id": "C104", "title": "Energy is kept exactly as long as no particle changes its cell", "statement": "In a simulation on a triangulated convex domain with fixed potentials, where particles are absorbed at the boundary and the field of each step is that of the particles, each recorded state has exactly one energy: half the mass times the product of the velocities half a step before and after, plus charge times potential, less the energy of the field. In a leapfrog step the energy changes by the sum over the particles of q/2 (S(x') - S(x) + (E + E').(x' - x)), S the sum of the old and new potential; the term of a particle that stays in its simplex is zero. So in a step in which no particle is made, lost or changes its simplex the energy is the same, for every time step, if the charge-to-mass ratios are those of the charges and masses. If the sides are grounded, the potential energy is the energy of the field.", "quantifier": "all meshes that are triangulations, potentials at the sides, particles, weights, velocities, time steps and numbers of steps", "why_tests_cant": "Conservation over a run depends on the field solver, the weights used for the charge, the field used for the force and the order of kick, move and solve all fitting together; a run with a finite time step shows energy drifting and cannot tell the scheme from a bug.", "anchors": ["Particle_Module.py:Particle_C.advance_charged_species_in_E_field", "Dolfin_Module.py:PoissonSolve_C.solve_for_phi", "Dolfin_Module.py:PoissonSolve_C.compute_negE", "Dolfin_Module.py:Field_C.interpolate_delta_function_to_dofs"]}
{"id": "C105", "title": "Energy of sheets and shells is kept exactly until one passes a vertex or a wall", "statement": "In a one-dimensional simulation (charged sheets between plates, or shells in a sphere as in the spherical example) each recorded state has exactly one energy, determined by positions, velocities and the field of Gauss's law: half the mass times the product of the velocities half a step before and after, plus charge times potential, less the energy of the field. In a step in which no particle is made, lost, reflected, or passes a vertex of the mesh, the energy is kept exactly, whatever the time step, if the charge-to-mass ratios are those of the charges and masses. In general it changes by the sum over the particles of q/2 ((F + F')(y' - y) - integral of F + F' from y to y'). A particle that passes a vertex can change the energy.", "quantifier": "all grids (graded or not, with or without an inner radius), open and fixed lower ends, particles, weights, velocities, time steps and numbers of steps", "why_tests_cant": "Energy drifts in every run with a finite time step; only the exact balance tells which part of a drift is the method's and which would be an error in the charge weights, the solver, the gradient or the order of the steps.", "anchors": ["Particle_Module.py:Particle_C.advance_charged_species_in_E_field", "UserMesh_y_Fields_Spherical1D_Module.py:UserPoissonSolve1DS_C", "Dolfin_Module.py:PoissonSolve_C.solve_for_phi", "Dolfin_Module.py:PoissonSolve_C.compute_negE"]}
{"id": "C106", "title": "The boundary functions that come with the code do the same to every particle, in Python and compiled", "statement": "With the boundary functions of the sample user modules, every particle that reaches a named boundary is either deleted or reflected, as a function of the name of the boundary and the species only; the compiled functions for the same geometry do the same; and a simulation goes on. In detail: the one-dimensional functions reflect at rmin (neutral_H is deleted) and delete elsewhere, the two-dimensional ones reflect test_electrons at rmin and delete elsewhere, the three-dimensional ones delete.", "quantifier": "all boundary names, species names, meshes, boundary dictionaries, particles, fields, time steps and crossing limits", "why_tests_cant": "The names are joined from strings chosen by the user and looked up by attribute; a test tries the few names of its own input file, and a function that only prints goes unnoticed until a particle leaves through that boundary.", "anchors": ["UserParticles_1D.py:UserParticleBoundaryFunctions_C", "UserParticles_2D_e.py:UserParticleBoundaryFunctions_C", "UserParticles_3D.py:UserParticleBoundaryFunctions_C", "cpp/UserParticleBoundaryFunctions.h:UserParticleBoundaryFunctions", "cpp/UPBFs_spherical_r.h:UserParticleBoundaryFunctions", "Particle_Module.py:ParticleMeshBoundaryConditions_C"]}
{"id": "C107", "title": "The compiled mesh arrays and the Python mesh dictionaries describe the same mesh", "statement": "For every mesh, the arrays that the compiled code computes (facets, neighbours and normals of every cell, vertex coordinates) and the dictionaries that the Python code computes can both be made and agree: same cells, same facets in the same order, same neighbours, same outward normals, same vertices, same markers. So a particle moved by the compiled mover ends with the same position, velocity, cell and flags as one moved by the Python mover.", "quantifier": "all triangulations in one, two and three dimensions (any number of cells, any numbering of facets), all markers, particles, fields and callbacks", "why_tests_cant": "A test compares the two for one small mesh; the arrays are filled through flat offsets, for which a wrong stride or a wrong neighbour shows only for some cell numbers and shapes.", "anchors": ["cpp/MeshEntityArrays.cpp:MeshEntityArrays", "Dolfin_Module.py:Mesh_C.compute_cpp_arrays", "Dolfin_Module.py:Mesh_C.compute_cell_dict", "Dolfin_Module.py:Mesh_C.compute_cell_neighbors_dict"]}
{"id": "C108", "title": "Programs with the compiled movers move the particles in leapfrog steps", "statement": "In a program that creates particles, calls the compiled movers and loops over the particles, in any order and any number of times, every charged-particle call moves every particle of every charged species by exactly one leapfrog step in the field of the call, with the charge-to-mass ratio of its species, and drops those that are outside the domain then; every neutral-particle call moves the neutral particles by v dt; other species and the order are not changed; everything the program sees (returned indices, loops) shows exactly these particles; and the program does not fail if the limit on crossings is at least the number of cells a line can meet. On a sphere with a reflecting centre particles are folded back at the centre.", "quantifier": "all programs of fewer than 2^32 calls, all segment lengths of at least 2, all numbers of species, triangulations of convex domains, fields, time steps, charge-to-mass ratios, markers, and callbacks that count or delete; all initial contents of the scratch arrays", "why_tests_cant": "The effect of a call depends on the history of the containers, on the mesh, and on scratch arrays shared by all particles; a test runs one program with a few particles on one mesh.", "anchors": ["Particle_Module.py:Particle_C.advance_charged_particles_in_E_field", "Particle_Module.py:Particle_C.advance_neutral_particles", "cpp/advance_charged_species_in_E_field_cartesian_xy.cpp:advance_charged_species_in_E_field_cartesian_xy", "cpp/advance_charged_species_in_E_field_spherical_r.cpp", "cpp/advance_neutral_species_cartesian_xyz.cpp", "cpp/SegmentedArrayPair.h:SegmentedArrayPair", "tests/unit/test_cpp_ParticleMigration.py"]}
{"id": "C109", "title": "A simulation with the compiled movers and containers gives what the Python simulation gives", "statement": "A whole run - initial particles, n steps of moving, sources, densities, potential and output, and the end - with compiled movers and containers ends with the same step number and time, the same particles in the same order in every species, the same potential, and the same contents of the particle and potential files as the run with the Python movers and containers, and it does what the same simulation on plain lists of particles does; it fails only if that one does. On an interval with absorbing ends and without sources it ends normally for every field, time step, number of steps and initial particles.", "quantifier": "all simulations (any movers and sources that do the same in both languages, fields, solvers, output intervals, numbers of species and steps, segment lengths of at least 2), all initial particles, all contents of the scratch arrays; fewer than 2^32 particles per species", "why_tests_cant": "The two containers compact, reuse and hand out memory differently, so agreement depends on the history of creations and losses of the run; tests compare a few steps of a few particles.", "anchors": ["examples/cpp/sphere1D/sphere1D.py", "examples/sphere1D/sphere1D.py", "Particle_Module.py:Particle_C.advance_charged_particles_in_E_field", "Particle_Module.py:Particle_C.add_more_particles", "Particle_Module.py:Particle_C.accumulate_number_density", "cpp/SegmentedArrayPair.h:SegmentedArrayPair"]}
{"id": "C110", "title": "The mesh tables asked for are there, whatever the order of the calls", "statement": "After constructing a Mesh_C object with any flags and any sequence of compute_... calls and initialize_particle_mesh calls, every table that was asked for gives the value of the mesh for each of its cells and a KeyError for any other index; moving particles, dividing by cell volumes and finding the cells of particles work exactly if the tables they need were asked for. In particular a mesh handed to initialize_particle_mesh (\"Compute mesh data needed to move particles\") can be used to move particles.", "quantifier": "all meshes, constructor flags, coordinate systems, sequences of calls, cell indices, trips of a particle through cells", "why_tests_cant": "The tests construct their meshes with compute_dictionaries=True or call the missing methods themselves; what is there after another sequence of calls is not tried.", "anchors": ["Dolfin_Module.py:Mesh_C.__init__", "Dolfin_Module.py:Mesh_C.compute_cell_dict", "Dolfin_Module.py:Mesh_C.compute_cell_volume_dict", "Dolfin_Module.py:Mesh_C.is_inside_cell", "Dolfin_Module.py:Mesh_C.find_facet", "Particle_Module.py:Particle_C.initialize_particle_mesh", "Particle_Module.py:Particle_C.compute_mesh_cell_indices"]}
{"id": "C111", "title": "In one dimension particles move in the exact field of all charges", "statement": "In a one-dimensional Cartesian simulation with fixed potentials at both ends, every charged particle is pushed by the electrostatic field of all charged sheets (all particles of all species) and plates at its position. A single particle at rest between grounded plates is attracted by the nearer plate.", "quantifier": "all meshes, populations, time steps, potentials, numbers of steps, boundary functions that reflect at the lower and absorb at the upper end, all points of the domain", "why_tests_cant": "The tests compare the potential for a few charge distributions with stored values; the field at every particle of every population is not tried.", "anchors": ["Dolfin_Module.py:PoissonSolve_C.solve_for_phi", "Dolfin_Module.py:Field_C.interpolate_delta_function_to_dofs", "Dolfin_Module.py:Field_C.interpolate_field_to_points", "Particle_Module.py:Particle_C.advance_charged_particles_in_E_field"]}
{"id": "C112", "title": "Particles exert no net force on themselves", "statement": "In a step of a one-dimensional Cartesian simulation with fixed potentials at both ends, in which no particle is made, lost or reflected, the total momentum of all particles changes by the time step times the force that the fields at the two plates exert; forces between particles cancel.", "quantifier": "all meshes, populations of any number of species, time steps, potentials", "why_tests_cant": "A statement about the sum over all particles of every population; the tests move at most a few particles.", "anchors": ["Dolfin_Module.py:PoissonSolve_C.solve_for_phi", "Dolfin_Module.py:Field_C.interpolate_delta_function_to_dofs", "Dolfin_Module.py:Field_C.interpolate_field_to_points", "Particle_Module.py:Particle_C.advance_charged_particles_in_E_field"]}
{"id": "C113", "title": "The order of the particles does not matter", "statement": "Two one-dimensional electrostatic simulations with the same mesh, potentials, time step, species and sources whose initial particles are the same in a different order hold the same particles (positions, velocities, weights), in some order, after every step; the length of the container segments, the limit on crossings, and the output settings do not matter either. Both run to their ends, or none does.", "quantifier": "all meshes, populations, permutations, segment lengths, configurations, numbers of steps", "why_tests_cant": "A relation between two runs, for every permutation of every population.", "anchors": ["examples/sphere1D/sphere1D.py", "Particle_Module.py:Particle_C.advance_charged_particles_in_E_field", "Particle_Module.py:Particle_C.create_from_list", "SegmentedArrayPair_Module.py:SegmentedArrayPair_C.push_back", "Dolfin_Module.py:PoissonSolve_C.solve_for_phi"]}
{"id": "C114", "title": "In a spherical simulation particles move in the field of Coulomb's law", "statement": "In a spherical simulation with an open centre, the field on each particle at radius r is the charge inside r divided by eps r^2, up to an error bounded by the width of its mesh cell and the charge in its cell; in a cell without charges it is exact at a radius in the cell; and the potential at the vertices is the exact Coulomb potential.", "quantifier": "all radial meshes, populations, time steps, numbers of steps, radii", "why_tests_cant": "The test compares the potential of one stored charge distribution; an error bound for every population and mesh cannot be tested.", "anchors": ["Dolfin_Module.py:PoissonSolve_C.solve_for_phi", "Dolfin_Module.py:PoissonSolve_C.compute_negE", "Particle_Module.py:Particle_C.advance_charged_particles_in_E_field", "examples/sphere1D/sphere1D.py"]}
{"id": "C115", "title": "Neutral species and particles without weight act on nothing", "statement": "Adding to a one-dimensional electrostatic simulation neutral species, or particles of weight zero in any species, changes nothing for the other particles of charged species: after every step of every pair of such simulations that run, those have the same positions, velocities and weights as without the additions.", "quantifier": "all meshes, populations, added species and particles, sources, time steps, numbers of steps", "why_tests_cant": "A relation between two runs, for every population and every addition to it.", "anchors": ["Particle_Module.py:Particle_C.accumulate_charge_density_from_particles", "Particle_Module.py:Particle_C.advance_charged_particles_in_E_field", "Dolfin_Module.py:PoissonSolve_C.solve_for_phi", "examples/sphere1D/sphere1D.py"]}
{"id": "C116", "title": "A simulation can be run backwards", "statement": "If no particles are made or lost in a one-dimensional electrostatic simulation, and no reflected particle starts a step on the mirror, then a second simulation without sources that begins with the final positions and with the velocities after the next kick, in the opposite direction, goes through the same positions in the opposite order; it ends with the particles where they began. Reversing the motion twice changes nothing.", "quantifier": "all meshes (Cartesian, spherical), populations, time steps, potentials, mirrors at the lower end, numbers of steps", "why_tests_cant": "A relation between two runs of any length; a test can reverse one simulation.", "anchors": ["Particle_Module.py:Particle_C.advance_charged_particles_in_E_field", "Dolfin_Module.py:PoissonSolve_C.solve_for_phi", "examples/sphere1D/sphere1D.py"]}
{"id": "C117", "title": "The units and the origin do not matter", "statement": "Two one-dimensional electrostatic simulations whose mesh, potentials, permittivity, charges, masses, time step, initial particles and sources are the same quantities in different units of length, time, mass and charge, and in Cartesian coordinates counted from different origins, go through the same states, in the respective units: no length, time or charge is built into the code.", "quantifier": "all meshes (Cartesian, spherical), changes of units, populations, sources, time steps, mirrors, numbers of steps", "why_tests_cant": "A relation between two runs of any length for every change of units; a test has one system of units.", "anchors": ["Particle_Module.py:Particle_C.advance_charged_particles_in_E_field", "Dolfin_Module.py:PoissonSolve_C.solve_for_phi", "Dolfin_Module.py:Field_C.interpolate_delta_function_to_dofs", "examples/sphere1D/sphere1D.py"]}
{"id": "C118", "title": "Settings for storage and output do not influence the simulation", "statement": "Two simulations that differ only in the length of the segments of the particle containers and in what is written how often to the particle file, the cell-density file, the field file and the histories go through the same states: both end normally with the same particles in the same order, the same potential and the same time, or both raise the same exception. A simulation of more steps begins with the records of the one with fewer steps.", "quantifier": "all configurations, populations, movers, sources, segment lengths, output settings, numbers of steps", "why_tests_cant": "A relation between two runs of any length, for every pair of settings; reading the containers for output moves their iterators and could disturb later steps.", "anchors": ["Particle_Module.py:Particle_C.write_particles_to_file", "Particle_Module.py:Particle_C.record_history_data", "SegmentedArrayPair_Module.py:SegmentedArrayPair_C", "examples/sphere1D/sphere1D.py"]}
{"id": "C119", "title": "Number densities accumulated with compiled functions are those accumulated in Python", "statement": "accumulate_number_density_CPP leaves in the DOF field and the cell field what accumulate_number_density leaves there, for the same species and the same fields.", "quantifier": "all containers, populations, fields, particle dimensions", "why_tests_cant": "An equivalence of two functions for every population and every field; the failure is in a branch that no test of the package reaches.", "anchors": ["Particle_Module.py:Particle_C.accumulate_number_density_CPP", "Particle_Module.py:Particle_C.accumulate_number_density"]}
{"id": "C120", "title": "A simulation with the compiled movers is a plasma in its own electric field", "statement": "Let a simulation with the compiled movers and containers run on a triangulation of a convex domain, in one, two or three dimensions, with absorbing outer facets and the potential given at two sides. From each step to the next every charged particle makes a leapfrog step in the electric field of all particles present, which is minus the gradient of a potential with the given values and obeys Gauss's law; it is removed if and only if it leaves the domain; the particles of sources are added and nothing else happens. Files and histories hold these states. Without sources, and if the limit on crossings is not too small (the number of triangles in the plane), the program ends normally for every number of steps, also if species lose all their particles.", "quantifier": "all triangulations of convex domains, solvers, fields, species, initial particles, sources, numbers of steps", "why_tests_cant": "The whole chain from mesh arrays over the compiled mover, the containers, the charge density and the solver must be right for every mesh and every population; tests run one mesh and a few particles.", "anchors": ["cpp/advance_charged_species_in_E_field_cartesian_x.cpp", "cpp/advance_charged_species_in_E_field_cartesian_xy.cpp", "cpp/MeshEntityArrays.cpp:MeshEntityArrays", "cpp/SegmentedArrayPair.h:SegmentedArrayPair", "Particle_Module.py:Particle_C.advance_charged_particles_in_E_field", "Dolfin_Module.py:PoissonSolve_C.solve_for_phi"]}
{"id": "C121", "title": "The compiled spherical example moves particles as charged shells between a mirror and an absorbing wall", "statement": "Let a user make a radial mesh with any number of cells and stretching, tag its ends for fields and particles, use the boundary functions of UPBFs_spherical_r.h, give the potential at rmax, and give it or leave it 'unset' at rmin. The table of boundary functions and the solver are made. From each step of a simulation with the compiled movers to the next every charged particle makes a leapfrog step in the electric field that follows from Gauss's law for all particles present, is reflected at rmin and removed beyond rmax; particles of sources are added; nothing else happens. Files and histories hold these states. Without sources, and with at most half as many cells as the limit on crossings, the program ends normally for every number of steps.", "quantifier": "all radii, numbers of cells, stretchings, tags, species, initial particles, sources, time steps and numbers of steps", "why_tests_cant": "Mesh, tags, function tables, mover, containers, density and solver must work together for every choice of the user; a test runs one sphere with a few particles.", "anchors": ["examples/cpp/sphere1D/sphere1D.py", "cpp/advance_charged_species_in_E_field_spherical_r.cpp", "cpp/UPBFs_spherical_r.h:UserParticleBoundaryFunctions", "cpp/ParticleMeshBoundaryConditions.h:ParticleMeshBoundaryConditions", "cpp/SegmentedArrayPair.h:SegmentedArrayPair", "Dolfin_Module.py:PoissonSolve_C.solve_for_phi"]}
{"id": "C122", "title": "Interval meshes become the meshes of the movers, in Python and in compiled code", "statement": "From every interval mesh, of any number of cells and any spacing, the Python dictionaries and the compiled arrays are made without error: cell i joins vertices i and i+1, its neighbours are cells i-1 and i+1 or none at the ends, its outward normals are -1 and +1. Such a mesh is a triangulation of the points between its ends, a particle goes through at most as many cells as there are, and a compiled simulation without sources between two absorbing plates ends normally for every number of steps, every particle moving in the electric field of all.", "quantifier": "all numbers of cells and increasing vertex positions, all markers, initial contents of rows, species, particles and numbers of steps", "why_tests_cant": "Tests build a few meshes with equal cells and compare the entries; the tables must be right for every number of cells and spacing.", "anchors": ["UserMesh_y_Fields_FE_XYZ_Module.py:UserMesh_C", "UserMesh_y_Fields_Spherical1D_Module.py:UserMesh1DS_C", "Dolfin_Module.py:Mesh_C.compute_cell_neighbors_dict", "Dolfin_Module.py:Mesh_C.compute_cell_facet_normals_dict", "cpp/MeshEntityArrays.cpp:MeshEntityArrays"]}
{"id": "C123", "title": "Functions for source regions can be registered by name", "statement": "ParticleMeshSources_C(species, mesh, functions) makes, for every tagged source region and every species, an entry with the most specific function the user provides: one named for the region and the species, else the default of the region, else the global default.", "quantifier": "all dictionaries of source regions, species lists and sets of provided functions", "why_tests_cant": "No test makes such an object; which names are provided, and for which regions and species, is the user's choice.", "anchors": ["Particle_Module.py:ParticleMeshSources_C.__init__", "UserParticles_1D.py:UserParticleSourceFunctions_C"]}
{"id": "C124", "title": "The order of the particles does not matter, on any mesh", "statement": "Run the same simulation twice with the initial particles listed in different orders (and possibly with other segment lengths, output intervals, histories, files). If the boundary callbacks treat each particle by itself and what the sources make depends on the step and the time only, then after every step in which both run, both have the same particles with all their attributes, and the same potential. Without sources one ends normally if the other does, with the same histories.", "quantifier": "all meshes and dimensions, field solvers, species, particles and their orders, numbers of steps, segment lengths and output settings", "why_tests_cant": "Tests use one order; the property is about all permutations of all populations, over any number of steps.", "anchors": ["Particle_Module.py:Particle_C.advance_charged_species_in_E_field", "Particle_Module.py:Particle_C.initialize_particles", "SegmentedArrayPair_Module.py:SegmentedArrayPair_C", "DnTrun1.py"]}
{"id": "C125", "title": "The order of the particles does not matter in simulations with compiled movers", "statement": "As C124 for simulations with the compiled movers and containers: the same particles and potential after every step whatever the order; without sources whether the program ends normally does not depend on the order. In particular what the mover leaves behind in its scratch array while moving one particle never affects the next.", "quantifier": "all triangulations, species, particles and their orders, numbers of steps, segment lengths and output settings", "why_tests_cant": "Tests use one order; the property is about all permutations of all populations and all contents of the scratch array.", "anchors": ["cpp/advance_charged_species_in_E_field_cartesian_xy.cpp", "cpp/advance_charged_species_in_E_field_cartesian_x.cpp", "cpp/SegmentedArrayPair.h:SegmentedArrayPair", "Particle_Module.py:Particle_C.advance_charged_species_in_E_field"]}
{"id": "C126", "title": "The sample functions list particles that can be created", "statement": "Each function of the sample user modules that lists particles returns tuples that fit the particle record of its dimension; the particle object adds exactly these particles. They start with positive weight, no cell, no crossings, not marked as deleted, with the previous position equal to the position, inside the sample mesh; over any sequence of calls no identity is given twice; asked for another kind of list the function stops the program.", "quantifier": "all sample functions, all values of the identity counter, all sequences of calls, all containers and trajectory settings", "why_tests_cant": "Tests call single functions once with a fresh counter; identities must differ over all sequences of calls and all counter values.", "anchors": ["UserParticles_1D.py:UserParticleDistributions_C.neutral_H", "UserParticles_2D_e.py:UserParticleDistributions_C", "UserParticles_3D.py:UserParticleDistributions_C", "UserParticles_H_He_e.py:UserParticleDistributions_C", "UserParticles_2D_H_He_e.py:UserParticleDistributions_C", "Particle_Module.py:Particle_C.create_from_list"]}
{"id": "C127", "title": "Potentials superpose, and charges act on each other alike", "statement": "On every mesh the potential that the field solver finds is linear in the charges and the given potentials: multiples and sums of problems give multiples and sums of potentials and fields. It is the potential without charges plus each charge times a fixed influence; the influence is symmetric (a charge at one vertex causes at another the potential it would cause there after exchanging the two), vanishes at the sides, and gives every distribution of charges an energy that is not negative. More charge and higher potentials at the sides nowhere lower the potential. In a simulation the potential is the sum of the influences at the positions of the particles.", "quantifier": "all triangulations in any dimension and all one-dimensional Cartesian and radial grids, all permittivities, tags, given potentials, charges, simulations and numbers of steps", "why_tests_cant": "Tests solve for single charges on single meshes; linearity, symmetry and monotonicity are about all pairs of problems on all meshes.", "anchors": ["Dolfin_Module.py:PoissonSolve_C", "UserMesh_y_Fields_FE2D_Module.py:UserPoissonSolve2DCirc_C", "UserMesh_y_Fields_FE_XYZ_Module.py:UserPoissonSolve1D_C", "UserMesh_y_Fields_Spherical1D_Module.py:UserPoissonSolve1DS_C"]}
{"id": "C128", "title": "Neutral species and particles without weight act on nothing, on any mesh, in Python and in compiled code", "statement": "Two simulations with the same laws whose charged species hold the same particles with a weight, in the beginning and from the sources, have the same potential and the same weighted charged particles after every step, whatever neutral species, particles without weight, sources of these, and output settings they have. The movers change no weight.", "quantifier": "all meshes in any dimension, solvers, populations, sources, numbers of steps, Python and compiled movers", "why_tests_cant": "A relation between two runs of any length; a neutral or test particle could act through the shared scratch state of the movers, through the charge of another species, or through the numbering of the particles.", "anchors": ["Particle_Module.py:Particle_C.accumulate_charge_density_from_particles", "Particle_Module.py:Particle_C.advance_charged_species_in_E_field", "Particle_Module.py:Particle_C.add_more_particles", "cpp/particle.h:advance_charged_species_in_E_field_cartesian_xy"]}
{"id": "C129", "title": "Settings for storage and output do not influence the simulation in compiled code", "statement": "Two simulations with compiled movers and containers that differ only in the length of the segments of the particle containers and in what is written how often to the particle file, the cell-density file, the field file and the histories go through the same states: both end normally with the same particles in the same order, the same potential and the same time, or both fail alike. A simulation of more steps begins with the records of the one with fewer steps.", "quantifier": "all configurations, populations, movers, sources, segment lengths from 2 on, output settings, numbers of steps", "why_tests_cant": "A relation between two runs of any length, for every pair of settings; loops over the compiled containers leave their storage positions behind, which may disturb later steps.", "anchors": ["cpp/SegmentedArrayPair.h:SegmentedArrayPair", "Particle_Module.py:Particle_C.write_particles_to_file", "Particle_Module.py:Particle_C.record_history_data"]}
{"id": "C130", "title": "Units, origin, direction and handedness of the axes do not matter, on any mesh, in Python and in compiled code", "statement": "Take a simulation on a mesh and describe it in coordinates that are turned or reflected, with another origin, and in other units of length, time, mass and charge: mesh coordinates, normals, volumes, time step, permittivity, charge-to-mass ratios, boundary potentials, callbacks, sources and initial particles are converted. The converted simulation goes through the converted states: after every step the particles have the same cells, converted positions and velocities, the same flags and crossing counts, and the potential is the converted one; if one run raises an error, the other raises it in the same step.", "quantifier": "all triangulations in 1 to 3 dimensions, rigid motions and reflections, positive units, populations, callbacks and sources that convert, numbers of steps, Python and compiled movers", "why_tests_cant": "A relation between two runs of any length over a continuum of frames; a tolerance or threshold in absolute units, or a facet search depending on the axes, shows only for some of them.", "anchors": ["Particle_Module.py:Particle_C.move_particles_in_electrostatic_field", "Dolfin_Module.py:Mesh_C.find_facet", "Dolfin_Module.py:PoissonSolve_C.solve_for_phi", "cpp/advance_charged_species_in_E_field_cartesian_xy.cpp", "cpp/dolfin_functions.cpp:find_facet"]}
{"id": "C131", "title": "A simulation on any mesh can be run backwards, in Python and in compiled code", "statement": "If in an electrostatic simulation on a triangulated convex domain no particles are made or lost, and after no step is a particle on the border of two cells, then a second simulation without sources, which begins with the final positions and with the velocities after the next kick in the opposite direction, goes through the same positions in the opposite order and ends with the particles where they began, with the velocities of the first kick reversed. Boundary callbacks and crossing limits of the two simulations may differ. Reversing the motion twice changes nothing.", "quantifier": "all triangulations of convex domains in 1 to 3 dimensions, populations, time steps, boundary potentials, numbers of steps, Python and compiled movers", "why_tests_cant": "A relation between two runs of any length; an asymmetry of the search for the next cell or of the interpolation shows only for particles that cross particular facets.", "anchors": ["Particle_Module.py:Particle_C.move_particles_in_electrostatic_field", "Dolfin_Module.py:Mesh_C.find_facet", "Dolfin_Module.py:PoissonSolve_C.solve_for_phi", "cpp/advance_charged_species_in_E_field_cartesian_xy.cpp"]}
{"id": "C132", "title": "Numbers of vertices, cells and facets, orders of corners and particles, and position and orientation of the mesh do not matter", "statement": "Take two electrostatic simulations without sources. The mesh of the second is the mesh of the first moved by a rotation, reflection or shift, with any numbers for vertices, cells and facets, cells in any order, and the corners of each cell in any order. The same potentials are prescribed at corresponding vertices. If the particles at the beginning correspond, in any order, then after each step the particles of the second are those of the first, moved in the same way; the same particles are lost. In particular a symmetric set-up stays symmetric: if the mesh is mapped to itself and the particles are arranged symmetrically, they are so after each step. Particles between two cells are excluded.", "quantifier": "all triangulations of convex domains in 1 to 3 dimensions, rigid motions and reflections, renumberings, populations, boundary potentials, time steps, numbers of steps, Python and compiled movers", "why_tests_cant": "A relation between two runs of any length for all renumberings; a dependence on the order of facets in the search for the next cell, or of the corners in the assembly, shows only for particular meshes and particles.", "anchors": ["Dolfin_Module.py:Mesh_C.find_facet", "Dolfin_Module.py:Mesh_C.compute_cell_neighbors_dict", "Dolfin_Module.py:PoissonSolve_C.solve_for_phi", "Particle_Module.py:Particle_C.move_particles_in_electrostatic_field", "cpp/advance_charged_species_in_E_field_cartesian_xy.cpp"]}
{"id": "C133", "title": "Only charge and charge-to-mass ratio count: particles and species may be divided", "statement": "In an electrostatic simulation without sources, let each particle be replaced by any number of parts at the same place and with the same velocity, with weights such that their charges add up to the charge of the particle. The parts may belong to other species if their ratio of charge to mass is the same. Then after each step the particles are the parts of the particles of the first simulation: parts stay together and move and are lost as the whole would. In particular more particles of smaller weight change nothing, a species may be divided in two, and charge and weight matter only through their product.", "quantifier": "all triangulations of convex domains in 1 to 3 dimensions, divisions, populations, boundary potentials, time steps, numbers of steps, Python and compiled movers", "why_tests_cant": "A relation between two runs of any length, for every division; a charge deposited twice or not at all in one species, or a weight used in the motion, shows only for particular populations.", "anchors": ["Particle_Module.py:Particle_C.accumulate_charge_density_from_particles", "Particle_Module.py:Particle_C.move_particles_in_electrostatic_field", "Dolfin_Module.py:PoissonSolve_C.solve_for_phi", "cpp/advance_charged_species_in_E_field_cartesian_xy.cpp"]}
{"id": "C134", "title": "Rounding errors do not harm labels, counters, crossing fractions and the order of crossing times", "statement": "Let every arithmetic operation of the movers be rounded, in Python or in compiled code. Then after a step that raises no error each particle still passes the code's own test for the cell it is labelled with, and its label was reached from the old one by as many moves between neighbouring cells (or turns at a boundary) as its crossing counter says; or it is marked for deletion with label NO_CELL, in a cell at the boundary. The counter does not exceed the maximum. The fraction of a move returned by the facet search is between 0 and 1 and the facet belongs to the cell. Crossing times recorded in one step do not decrease and lie within the step. A step raises no error that it would not raise in exact arithmetic.", "quantifier": "all roundings that are monotone and keep machine numbers, with fused operations or without, all results of scalar products and of the containment test, all meshes, callbacks, particles, fields, time steps; whole runs of any length", "why_tests_cant": "A rounding error shows for particular coordinates only; no set of sample particles covers all roundings of all operations along a path through many cells.", "anchors": ["Particle_Module.py:Particle_C.advance_charged_species_in_E_field", "Particle_Module.py:Particle_C.advance_neutral_species", "Dolfin_Module.py:Mesh_C.find_facet", "Dolfin_Module.py:Mesh_C.is_inside_cell", "cpp/advance_charged_species_in_E_field_cartesian_xy.cpp", "cpp/dolfin_functions.cpp:find_facet"]}
{"id": "C135", "title": "Python and compiled code move particles alike to the last bit", "statement": "Let every arithmetic operation of the movers of charged and neutral particles be rounded, in Python and in compiled code, by the same rounding and with the same scalar products and containment test. Then one succeeds exactly if the other does, and positions, start points, velocities, cell labels, flags, crossing counters, the state of the callbacks, and the recorded crossing points and times are the same to the last bit.", "quantifier": "all roundings that are monotone and keep machine numbers, all meshes of 1 to 3 dimensions, callbacks, particles, fields, time steps, contents of the scratch array; species of any length, whole programs of any number of steps", "why_tests_cant": "A difference in the last bit shows for particular coordinates only, after particular numbers of crossings.", "anchors": ["Particle_Module.py:Particle_C.advance_charged_species_in_E_field", "Particle_Module.py:Particle_C.advance_neutral_species", "Dolfin_Module.py:Mesh_C.find_facet", "cpp/advance_charged_species_in_E_field_cartesian_xy.cpp", "cpp/dolfin_functions.cpp:find_facet", "cpp/advance_neutral_species_cartesian_xyz.cpp"]}
{"id": "C136", "title": "Rounding errors of moving particles grow slowly", "statement": "If every arithmetic operation of the charged mover is rounded with an error of at most eta, a step of one particle adds at most 2 eta to the error of its velocity and at most |dt| times the new velocity error plus 2 eta to the error of its position, whatever cells it passes. In a uniform field, after k steps the velocity differs from the one without rounding by at most 2 k eta and the position by at most 2 k eta + k (k+1) |dt| eta. A neutral particle keeps its velocity, and its position differs by at most 2 k eta after k steps.", "quantifier": "all roundings with an error of at most eta on the numbers that occur, all meshes of 1 to 3 dimensions, particles, time steps, numbers of steps, boundary functions that change neither position nor velocity", "why_tests_cant": "A test compares a few trajectories with a tolerance chosen by hand; it cannot show how errors grow for all particles and any number of steps.", "anchors": ["Particle_Module.py:Particle_C.advance_charged_species_in_E_field", "Particle_Module.py:Particle_C.advance_neutral_species"]}
{"id": "C137", "title": "The clock of a simulation follows the steps", "statement": "After N steps the step counter has grown by exactly N, and the clock, to which the time step is added with a rounding error of at most eta, differs from N time steps by at most N eta. With a time step that is not negative the clock never goes back, the times in the file of the potential are in order, and the clock advances in every step.", "quantifier": "all simulations and numbers of steps, all roundings with an error of at most eta on the times that occur (size) or that are monotone and keep machine numbers (order)", "why_tests_cant": "Tests run a few steps from time 0; the error depends on the number of steps, the time reached and the time step.", "anchors": ["examples/sphere1D/sphere1D.py"]}
