# Formal model of lyrana/dt in Lean 4: design

`/repo` is a particle-in-cell plasma code (Python with C++ twins of the hot
loops).  `/verif/lean` contains a Lean 4 model of its algorithmic parts and
theorems about that model.

## 1. How the code is modelled

* Each modelled function is a total computable Lean function that follows the
  source branch by branch; its doc comment gives the file and lines.
* Python exceptions are values: a function that can raise returns
  `Except Err _`.  `Err` distinguishes AssertionError, IndexError, ValueError,
  RuntimeError, AttributeError, TypeError, NameError, KeyError,
  ZeroDivisionError, `sys.exit` and, for the compiled code, a failed `assert` (`abort`),
  `exit` and an access outside an array (`ub`).
* Mutable objects become structures that are passed and returned.  A NumPy
  slice handed out by the container (a *view*) is modelled by the number of the
  segment it refers to, so writes through a view go to the container.
* Python `divmod`/`//`/`%` on possibly negative integers is Lean's
  `Int.fdiv`/`Int.fmod`; Python negative list subscripts are modelled.
* Floating-point numbers are elements of an arbitrary linearly ordered field
  `K` (exact arithmetic).  Round-off is **not** modelled, except for the movers
  (`Rounded`, `CppRounded`, `RoundedTwin`: an arbitrary rounding after every
  operation, C134 to C136) and the clock (`RoundedClock`, C137).  Theorems about storage, indices, scheduling, dispatch do not involve numbers.
* Code that is *wrong* is modelled as it is.  When a listed property is false
  for the code, the negation is proved on a concrete witness, and the property
  is proved under the weakest hypothesis found (`_partial`).

## 2. Trusted base

* Lean 4.33.0's kernel.
* Axioms: at most `propext`, `Classical.choice`, `Quot.sound` (section 6 gives
  the list per theorem as printed by `#print axioms`).
  No axioms are added; no `sorry`, `admit`, `native_decide`, `bv_decide`.
* The reading of the Python/C++ source embodied in the model (not checked by
  machine): see the citations beside each definition.

## 3. What is modelled and what is not

Model files are in `lean/Verif/Model`; each definition cites file and lines, and the head
of each file lists its simplifications.

| source | model | extent |
|--------|-------|--------|
| SegmentedArrayPair_Module.py | SAP, SAPReach, SAPClient, OutLoop | everything but `compress`, `get_number_of_mbytes` |
| cpp/SegmentedArrayPair.h | CppSAP | everything but `get_as_tuple/list`, `get_number_of_mbytes`; counters unbounded |
| Particle_Module.py, movers | Mover (loop), Track (one particle), EField (fields) | the four Python movers |
| cpp/advance_*.cpp | CppPass (loop), CppTrack, CppMover (one particle), CppEField (fields) | charged x, r, xy; neutral xy, xyz; uniform xyz (loop only) |
| Dolfin_Module.py, `Mesh_C` | Geometry, LineMesh, Topology, RadialMesh | `is_inside_cell`, `find_facet`, `compute_cell_index`, neighbours, normals, volumes |
| cpp/dolfin_functions.cpp, predicates.cpp, MeshEntityArrays.cpp | CppGeometry, Topology | point in cell, `find_facet`, neighbour table, `interpolate_field_to_points` |
| cpp/MeshEntityArrays.cpp:59-331; Dolfin_Module.py `compute_cpp_arrays` | CppArrays | flat facet, neighbour, normal and coordinate arrays filled cell by cell |
| programs of tests/unit/test_cpp_Particle*.py (create, advance, loop) | CppRun | calls with the compiled movers of CppTrack and the containers of CppProgram; no trajectories |
| examples/cpp/sphere1D/sphere1D.py (INIT, RUN, FIN.1) | CppLoop | the loop of TimeLoop with compiled containers and movers; the arrangement in the files and the sums of the histories are not repeated |
| Dolfin_Module.py:41-148, 195-557 (which tables are made), Particle_Module.py:816-890 | MeshTables | the values in the tables and the answers of the geometry are given |
| Dolfin_Module.py, `Field_C`, `PoissonSolve_C.solve_for_phi` | Field | values, deposition, densities, interpolation (in EField), order of operations of the solve |
| Dolfin_Module.py, cell sets | Topology | rectangular, spherical, whole mesh |
| Particle_Module.py, tables and sums | Species | constructor, counts, energies, cell indices, histories |
| Particle_Module.py, creation | Sources | `initialize_particles`, `create_from_list`, `add_more_particles`, `create_maxwellian_particles` |
| Particle_Module.py, trajectories; RecordedData_Module.py | Traj, Recorded | storage, recording, removal, sizes |
| Particle_Module.py, output | Output | `initialize_particle_output_file`, `write_particles_to_file` |
| Particle_Module.py `ParticleMeshBoundaryConditions_C`, UserParticles_*.py | BC | selection of the callback, the callbacks |
| UserParticles_1D.py, _2D_e.py, _3D.py, _H_He_e.py, _2D_H_He_e.py: functions that list particles | UserLists | the tuples, the counter of identities, conversion of a tuple to a record (int32 fields wrap) |
| UserParticles_1D.py, _2D_e.py, _3D.py `UserParticleBoundaryFunctions_C`; cpp/UserParticleBoundaryFunctions*.h, cpp/UPBFs_spherical_r.h | UserBC | tables of function names and kinds (delete, reflect, nothing) |
| UserMesh_y_Fields_Spherical1D_Module.py | RadialMesh | vertex map, volumes |
| examples/sphere1D/sphere1D.py | TimeLoop, Simulation | initialization, time loop, end; `Simulation` puts the modelled charged mover (Track) into the loop; without trajectories and plots |
| examples/random-accel/random-accel.py, tests/unit/test_ParticleTrajectory.py (loops), sphere1D.py (trajectory calls) | TrajLoop | any sequence of mover, recording, creation and reading calls with trajectories; the motion of one particle is an argument |
| RecordedData_Module.py `write_trajectories_to_files`, `particle_unique_id_list` | TrajFiles | disk as a function from names to files; h5 files as attributes, groups and datasets; the conversion to 64 bit is an argument |
| Particle_Module.py, set-up of a simulation; cpp/particle_solib.cpp, Pstruct.h, numpy_types_solib.cpp | Setup | coordinate systems, mover dictionary, order of the set-up calls, particle records; int32 overflow not modelled |
| tests/unit/test_cpp_*.py (loops with compiled movers) | CppProgram | any sequence of mover, creation and reading calls on compiled containers; no trajectories; the motion of one particle is an argument |
| UserMesh_y_Fields_*_Module.py, `create_mesh`, `__init__` (boundary tags) | MeshMark | radial, 1D/2D/3D Cartesian, quarter circle; `SubDomain.mark` with midpoints and end points as Dolfin does; the vertex coordinates of a Cartesian grid in exact arithmetic |
| UserMesh_y_Fields_FE_XYZ_Module.py, 2D mesh as the particle code sees it | RectMesh | `RectangleMesh` with either diagonal in each cell (left, right, alternating; crossed is in Crossed); numbering of cells and facets is ours |
| Particle_Module.py `compute_mesh_cell_indices`; Dolfin_Module.py `compute_cell_index`, `compute_cell_indices` | Locate | the bounding-box tree of Dolfin is any function that finds a cell of a point in the mesh and otherwise returns 4294967295; the 32-bit store wraps (NumPy 1) |
| Dolfin_Module.py, dictionaries of `Mesh_C` from Dolfin's connectivity | MeshBuild, RectBuild | any triangulation given by vertex coordinates and incidences; Dolfin's facet normals written out; `RectBuild` gives the data of `RectangleMesh` |
| Dolfin_Module.py `PoissonSolve_C`; `UserPoissonSolve1D_C`, `UserPoissonSolve1DS_C` | Poisson | interval meshes, linear elements; assembly, boundary conditions and projection written out with exact integrals; the linear solver is any function that solves the system; string densities not modelled |
| `UserPoissonSolve2DCirc_C`, `PoissonSolve_C` | Elements | linear elements on any mesh of simplices; gradients and volumes of the elements are data with stated hypotheses; assembly, boundary conditions and projection written out |
| UserMesh_y_Fields_FE2D_Module.py `UserMesh2DCirc_C.create_mesh` 223-339 | Sector | stretching and bending of the rectangle mesh; normals computed from the moved vertices; cos, sin, sqrt and power are arguments |
| the same, and the rectangle (FE_XYZ 303-315), with the option 'crossed' | Crossed | vertex in the middle of each box, four triangles; numbers of vertices and cells are Dolfin's, those of facets ours |
| UserMesh_y_Fields_FE_XYZ_Module.py: create_mesh, the mesh in 3D (389) | Box | `BoxMesh`: six tetrahedra per grid cell; numbers of vertices and cells are Dolfin's, those of facets ours; normals as in Dolfin's TetrahedronCell |
| `Particle_C.accumulate_number_density_CPP` | Model/FieldCpp | the calls of the undefined `dnt_cpp` as NameErrors |
| cpp/advance_charged_species_in_E_field_*.cpp (call of the boundary function) | CppNamed | a missing entry is an error (undefined behaviour in C++) |
| UserMesh_y_Fields_FE_XYZ_Module.py:216, UserMesh_y_Fields_Spherical1D_Module.py:239 (interval meshes) | IntervalMesh | what Dolfin knows of an interval mesh is written out: numbering from left to right, outward normals |
| Particle_Module.py:3373-3446 `ParticleMeshSources_C` | MeshSources | printing omitted, except for the undefined name |
| Particle_Module.py:1574-1799, 1980-2092, Dolfin_Module.py:560-597, 626-891 (one particle of the Python movers, again) | Rounded | every operation is followed by a rounding; scalar products and `cell.contains` return anything; callbacks and fields are arbitrary; no overflow, no NaN |
| cpp/dolfin_functions.cpp:75-466, cpp/advance_charged_species_in_E_field_cartesian_xy.cpp:232-437 and copies (again) | CppRounded | as `Rounded`; a product and a sum may be fused; `is_inside_vertices` returns anything |
| cpp/advance_charged_species_in_E_field_cartesian_xy.cpp:100, cpp/advance_neutral_species_cartesian_xyz.cpp:143-323, Particle_Module.py:1400-1412, 693-719 (again) | RoundedTwin | a whole program in which the movers round and nothing else does |
| examples/sphere1D/sphere1D.py:1274-1375 (the time loop, again) | RoundedClock | the time is rounded after each addition of the time step; the rest as `TimeLoop` |

Not modelled: Dolfin/FEniCS itself (refinement, linear solvers, assembly and basis functions other than
the linear ones of `Poisson` and `Elements`: abstract data with stated hypotheses), HDF5 itself (an ordered list of groups), plot
files, random numbers (arbitrary values), MPI, plotting, printing, keyboard input, parsing of
parameters by the example scripts, floating-point rounding (except in `Rounded`, `CppRounded`, `RoundedTwin` and `RoundedClock`), memory exhaustion, NumPy dtype
conversion (except the 32-bit wrap of `unique_ID`), C++ object lifetime.

Dead code, not modelled: the functions of DT_Module.py, `create_from_functions`,
`set_number_density`, `move_particles_in_electrostatic_potential`, `CellSubDomain_C2` (never
called, or unfinished), and UserParticles_2D_H_He_e.py, whose class of boundary conditions refers to undefined names.

Consequences for reading a theorem: a statement about positions and times holds in exact arithmetic, except those of C134;
a statement about fields holds for any basis with the hypotheses given; "raises" means that the
exception leaves the modelled function.

## 4. Plan per property

| id | modelled | proof |
|----|----------|-------|
| C01 | container state, `push_back`, subscripts | refinement to a list, induction on the pushes |
| C02 | return value of `push_back` | refinement + list append lemmas |
| C03 | `__setitem__` | refinement to `List.set` |
| C04 | `init_out_loop`, `get_next_segment`, the client's while loop | invariant over the remaining segments |
| C05 | `add_segment`, `get_capacity` | invariant by induction on pushes |
| C06 | `set_number_of_items` | divmod arithmetic; witness for n = 0; partial for n >= 1 |
| C07 | operation histories | witness; exact condition for `push_back` to raise; partial refinement |
| C08 | `init_inout_loop` | case analysis under the invariant |
| C09 | `get_full_index(s)` inside the mover loop | loop invariant |
| C10 | C++ container | simulation relation; witnesses for the differences |
| C11 | particle loop of the movers, per-particle advance as parameter | loop invariant, induction on particles and segments |
| C12 | same, in array, exceptions | same invariant |
| C13 | uniform-field mover | invariant, exact count; witness |
| C14 | mover + read loop + push | witness; partial |
| C15 | mover + push | exact condition; witness; partial |
| C16 | iterated passes | induction on number of passes |
| C17 | trajectory index list in mover loop | loop invariant (old indices above, new indices below) |
| C18 | trajectory buffers | induction on operations |
| C19 | `record_trajectory_data` | list induction; witnesses |
| C20 | sizing | integer arithmetic |
| C21 | `remove_trajectory_particleId` | case analysis |
| C22 | tracking loop | loop invariant over an ordered field |
| C23 | `find_facet` | running-minimum invariant, half-space description of a cell |
| C24 | `find_facet` | same |
| C25 | tracking loop | induction on loop |
| C26 | tracking loop | induction on loop |
| C27 | tracking loop, mover | induction on loop |
| C28 | tracking loop on conforming mesh | loop invariant |
| C29 | reflecting callbacks | field arithmetic |
| C30 | neighbour tables | list lemmas |
| C31 | neutral mover scratch vector | model of the alias; witness |
| C32 | C++ scratch array layout | model of the array; witness |
| C33 | deposition | induction on particles, partition of unity as hypothesis |
| C34 | cell densities | induction; finite sums |
| C35 | field switches | decision table; witness |
| C36 | unique-ID counter | induction on creation calls |
| C37 | Maxwellian source | induction on cells |
| C38 | source schedule | induction on steps |
| C39 | `create_from_list` | refinement |
| C40 | callback dispatch | decision logic |
| C41 | output buffer | induction on species and segments |
| C42 | step guard | induction on calls |
| C43 | species tables | induction on species list |
| C44 | species sums | refinement to sum over list |
| C45 | histories | arithmetic + induction; witness for `max_points` |
| C46 | cell sets | list filter |
| C47 | solve factor | witness; partial |
| C48 | multiply_values | induction over cells; exact exponent |
| C49 | radial map | monotonicity of powers |
| C50 | shell volumes | telescoping sum |
| C51 | charge of several species in one field | refinement to a sum; witness |
| C52 | `set_values` on a subdomain | list induction |
| C53 | `multiply_add`, assembled charge | finite sums |
| C54 | closing the particle file | exact condition; witness |
| C55 | `compute_mesh_cell_indices` | refinement of the read loop |
| C56 | attribute and species names in a file | witness; partial |
| C57 | failing write | exact state after failure; witness |
| C58 | reopened file | witness; partial |
| C59 | totals with compiled containers | exact; witness |
| C60 | field columns of crossing points | case analysis; witness |
| C61 | `initialize_particles` | case analysis; witness |
| C62 | first trajectory point of created particles | refinement; witness |
| C63 | compiled point-in-cell | convexity, sign of determinants |
| C64 | compiled `find_facet` | same case by case as the Python function; witness |
| C65 | loop of the compiled movers | loop invariant over the C++ container; witnesses |
| C66 | tracking in the compiled movers | simulation with the Python tracking loop; witness |
| C67 | fields in the compiled movers | decision logic, scratch array invariant; witnesses |
| C68 | the example program: initialization, time loop, end | simulation relation with a program on plain lists, induction on steps |
| C69 | final write | exact condition; witness |
| C70 | sources in the loop | exact condition; witnesses |
| C71 | accounting of particles | induction on steps |
| C72 | charge in the loop | finite sums, induction on steps; witness |
| C73 | whole run with the Python charged mover | invariant of the list simulation over steps, through C68 |
| C74 | whole run with the Python charged mover; one-dimensional meshes | exact fault analysis over steps; on a line, a decreasing number of cells ahead |
| C75 | whole run with the Python charged mover | tracking invariant (free motion, deleted iff outside a convex domain); induction on lists and steps |
| C76 | boundary callbacks, Python charged mover, whole run | refinement of tracking to a motion between two walls; crossing count bounded by twice the number of cells |
| C77 | boundary callbacks, Python charged mover, whole run | count invariant over crossings, particles, species and steps |
| C78 | trajectory lists, containers, mover calls, recording and creation as one program | refinement of any sequence of calls to diaries keyed by particle identity; growth invariant; comparison with the untraced program |
| C79 | coordinate systems, exported movers, the set-up calls and the mover dispatch | exact decision of the set-up for all species lists, induction over the lists; calls before the set-up |
| C80 | particle tuples, the NumPy record and the C++ struct | round trips and exact acceptance conditions for all tuples |
| C81 | sequences of calls with compiled movers and containers | simulation: a relation between container and list with one flag for the storage position, preserved by every call |
| C82 | facet tags made by create_mesh, and the markers a mesh object ends up with | the tag of a facet in closed form, compared with a specification by position; iff-conditions on the tolerance |
| C83 | tags, callback lookup and tracking together | composition of C82, C40, C49 and C76; invariant of the tracking loop on meshes without tags |
| C84 | tracking and boundary callbacks on any mesh | invariant of the tracking loop; a chain of convex cells is walked straight, so the way is in the domain until a boundary facet |
| C85 | rectangle of triangles, tags, callback lookup and tracking together | the triangles conform and cover the rectangle; composition of C82, C40, C84 and the leapfrog theorems |
| C86 | rectangle of triangles and tracking | a budget of crossings that every crossing uses up, also in degenerate cases; composition with the faults of a simulation (C74) |
| C87 | finding cells, `compute_mesh_cell_indices` | the loop over species and containers by induction; a found cell passes `is_inside_cell` by C18 |
| C88 | mesh dictionaries of any triangulation; rectangle | a facet shared by two simplices has the same plane for both; composition with the tracking theorems and C87 |
| C89 | one-dimensional Poisson solver, assembly written out | the tridiagonal system telescopes to the flux through each cell, which determines the potential; converse for existence |
| C90 | one-dimensional Poisson solver with deposited charges | the Green function of the plates solves the system; uniqueness from C89 |
| C91 | source density of the solver | the parabola solves the system; witnesses against the rest |
| C92 | simulation with field solves | invariant of the time loop; composition with C89 and C90 |
| C93 | radial mesh, markers, callbacks, solver, mover, time loop | composition of C49, C76, C82, C83, C89 and C92; uniqueness of the field from the voltage equation |
| C94 | Poisson solver on triangulations | stiffness form is the Dirichlet form; definiteness by chains of cells; existence from injectivity |
| C95 | Poisson solver on triangulations | test with the part above the larger value; witness with an obtuse angle |
| C96 | simulation with field solves on triangulations | invariant of the time loop; shares of a particle sum up to point values; C94 |
| C97 | mesh tables, solver, deposition, mover, time loop on triangulations | composition of C73, C75, C88, C94 and C96; uniqueness by testing with the difference |
| C98 | mesh on a sector of a ring, marks, solver, mover | rectangle mesh with moved vertices; polar coordinates over the reals; C82, C88, C94 |
| C99 | mesh on a sector of a ring with crossed diagonals | each facet has a kind and at most two owners (manifold); triangles in the coordinates of the cone between two rays; an explicit common point if a middle is beyond the chord; limit for many circles |
| C100 | trajectory files, unique IDs of a program's trajectories | file names are parsed from the end; loops by induction; composition with C78 |
| C101 | tetrahedra of a box, their facets, normals and numbers | position in a grid cell ordered by size; two owners per facet; instance of C88, C75, C97 |
| C102 | limit on facet crossings on general meshes (model of C25, C88) | an acyclic order of the cells for each direction; counting of planes, rings and rays; instance of C28, C68 |
| C103 | rectangle with crossed diagonals (model of C82, C88, C99) | triangulation of every box in coordinates of the box; walls of a mesh from facets with one cell; instances of C84, C85, C102, C68 |
| C104 | energy of a leapfrog step with the finite-element field (model of C94, C97) | difference of two energies by testing Gauss's law of both states with the difference of the potentials; then along the chain of states |
| C105 | energy of one-dimensional simulations (model of C92, C93) | balance by exchanging the sums over cells and particles; states by induction along the chain of C93; a computed run with a crossing |
| C106 | the boundary functions of the sample modules, as tables of names and kinds | decision logic over all strings (names split at _for_); a step that meets only idle functions ends in a cell or fails, by induction on crossings |
| C107 | flat arrays filled cell by cell next to dictionaries filled cell by cell | refinement: array entry = dictionary entry, by induction on the cells |
| C108 | programs of creations, mover calls and loops with the compiled containers, movers and mesh arrays | refinement through C81 (containers), C66 and C107 (mover, mesh), C75/C76 (motion), by induction on the calls |
| C109 | the loop of C68 with the compiled containers; particle file and histories represented by what is put into them | refinement to lists by induction on the steps; simulation between the two lists; invariants for the absence of failures |
| C110 | dictionaries as association lists, None and unset attributes; what the API calls read | invariant by induction on the history of calls |
| C111 | the whole 1D simulation (C93), Cartesian | the field of the program computed in closed form and compared with the exact one cell by cell |
| C112 | as C111 | summation by parts over the cells; invariant of a step |
| C113 | two whole 1D simulations (C93, C111) | relation between two runs by induction on the steps; the field depends on the multiset of charges only |
| C114 | the whole spherical simulation (C93) | closed form of the flux, split into charge inside and in the cell |
| C115 | two whole 1D simulations (C93, C111) | relation between two runs by induction on the steps; the field depends on the weighted charges only |
| C116 | two whole 1D simulations (C93, C111) | kick, drift and fold undone by the reversed ones; the field is unique; induction on the steps backwards |
| C117 | two whole 1D simulations (C93, C111) | the field and a step of a particle in other units; the field is unique; induction on the steps |
| C118 | two whole simulations (C68) | same states of the specification, whatever the segment length; C68 for both |
| C119 | accumulate_number_density_CPP | all cases of the fields and the population |
| C120 | whole simulation with compiled movers, mesh arrays, Poisson solver | C107, C109 and C94 put together; induction on the steps on lists of particles |
| C121 | radial mesh, tags, compiled function table, compiled mover, solver | C82, C106, C76, C109 and C89 put together; induction on the steps on lists of particles |
| C122 | interval meshes as Dolfin data, mesh dictionaries, mesh arrays | uniqueness of neighbour tables (C30), induction on vertices, C120 for the simulation |
| C123 | constructor of the table of source functions | induction over tags and species; exact condition |
| C124 | time loop on lists, Python mover | a pass of a mover that treats particles one by one is a filterMap; the charge is a sum; induction over steps |
| C125 | time loop of the compiled program, compiled mover | as C124; compiled mover = Python mover (C107, C109) |
| C126 | sample functions that list particles, conversion of tuples to records | tuples convert to records, so that C36/C39 apply; identities by induction over calls |
| C127 | Poisson solvers on any mesh | reciprocity from the symmetry of the energy product; order from the maximum principle (C95); the one-dimensional solvers are solvers on the interval mesh (C122) with other volumes |
| C128 | both loops, both movers, any mesh and solver | relation on states (potential, weighted charged particles up to order) preserved by each step; charge vectors of related populations are equal |
| C129 | compiled loop and containers | relation between two ideal runs, then C109 |
| C130 | both loops, both movers, mesh dictionaries and arrays, Poisson solver and field on any mesh | simulation relation: tracker, mover, stiffness matrix, potential (by uniqueness), field and sources each commute with the change of frame; induction on steps |
| C131 | both loops, both movers, mesh dictionaries and arrays, Poisson solver and field on any mesh | leapfrog is reversible in a field that depends only on positions; uniqueness of field and cell; induction on the reversed chain of states of C97 and C120 |
| C132 | both loops, both movers, mesh dictionaries and arrays, Poisson solver and field on any mesh | field law (Gauss's law tested with all piecewise linear functions) carried from one mesh to the other; uniqueness of the field; induction on the chains of states of C97 and C120 |
| C133 | both loops, both movers, mesh dictionaries and arrays, Poisson solver and field on any mesh | field law is linear in the charges; uniqueness of the field; induction on the chains of states of C97 and C120 |
| C134 | both Python movers, `find_facet` and `is_inside_cell` with an arbitrary arithmetic | invariants of the tracking loop; monotony of rounding; the run by C68 and the invariant rule for runs |
| C135 | charged mover in Python and compiled, with the same arbitrary arithmetic | equality of the facet searches up to failures; loop states equal up to the times, by induction on the loop |
| C136 | charged mover with rounded operations against the exact one | the loop over cells changes neither position nor velocity; triangle inequality; induction on the steps |
| C137 | time loop with a rounded clock | induction on the steps; triangle inequality; monotony of rounding |

## 5. Listed properties that the code does not have

Each has a theorem with `false` in its name (or named below) that exhibits the failure, and one or more
theorems with the part that holds; MANIFEST.json has a note for each.

* Containers: `set_number_of_items(0)` declares a full segment (C06); a read loop followed by an append
  at a full segment raises AssertionError (C07); the two containers differ (C10); a pass that deletes
  everything leaves a segment of records visible to read loops and blocks additions (C14); additions
  after a pass whose survivors fill their segments raise if the last particle was deleted (C15).
* Python movers: the uniform-field mover drops deletions (C13); tracking stops with an error at a
  facet touched twice (C28); callbacks of the neutral mover see the wrong move vector (C31); fields of
  another species or of the previous step are applied for some switch settings (C35).
* Compiled movers: start point in the wrong slot (C32, C66), `find_facet` without a crossed facet
  (C64), segment length 1 (C65), missing or external fields (C67).
* Trajectories: points recorded twice or from another particle (C19, C60, C62).
* Fields: the charge factor is applied again to a reused right-hand side (C47), a subdomain is scaled
  once per cell touching a DOF (C48), several species in one cell field are divided by the volume
  repeatedly (C51).
* Particles: unique IDs wrap (C36), creation raises on a marked full store (C37, C39),
  `function_over_region` entries raise (C61), sums over all species (C44, C59), histories with
  `max_points` raise NameError (C45), spherical regions use the wrong radius (C46), boundary callback
  names (C40).
* Files: not closed (C54, C69), clashing names (C56), half-written groups (C57), reopened files (C58).
* Whole simulations: a source for a neutral species stops every run longer than the segment length
  (C70); the charge of a species that lost all its particles in one step stays in all later
  potentials (C72); between two mirrors a fast particle stops the run with the crossing-limit error (C76).
* Set-up: species without a compiled mover, recording before the integration is set up, compiled movers
  with an external field (C79); tuples with missing or surplus values (C80).
* Compiled programs: a source aborts after a loop over a full container, and after a mover call that leaves
  the container full and loses the last particle (C81).
* Boundary tags: particle dictionaries of 1D and 3D Cartesian meshes are accepted and ignored, so that a
  particle that leaves stops the run whatever the callbacks (C82, C83); markers read from files are dropped
  by the radial mesh, source dictionaries end in NameError or exit, cells smaller than 1e-10 are mis-tagged
  (C82).
* Mirrors: a fast particle between mirrors meets more than 100 facets in one step and stops the run (C85).
* Mirrors do not work for neutral species: NameError (C84). A particle that crosses a fine mesh (26 by 26 boxes) in one step stops the run (C86).
* Particles outside of the mesh are not reported: Dolfin returns 4294967295 and the code looks for -1, so a KeyError ends the run; `compute_cell_indices` always raises NameError (C87).
* The source density of the Poisson solver has no volume element on a radial mesh, and is lost when the charge of particles is given (C91). `linear_solver` and `preconditioner` are stored and never used.
* The two-dimensional Poisson solver does not accept 'unset' (TypeError), and accepts tags that are not on the mesh, for which the system is singular (C94). With obtuse angles the potential leaves the range of the boundary values (C95).
* The mesh on a sector of a ring is made without a check of its numbers: `rmin = 0`, or rays half a turn apart, make flat triangles (C98).
* The same mesh with crossed diagonals has flat or overlapping triangles as soon as the middle of a box is not inside it, which is so for any number of rays if there are enough circles (C99). There is no check.
* Two trajectories of one species with the same unique ID share one file, and the first is lost; a trajectory created without ID, or a run without title or author (the defaults), is a TypeError, which leaves an emptied file behind (C100).
* In three dimensions create_mesh marks nothing, although it accepts particle_boundary_dict: a particle that leaves the box makes the mover fail (C101).
* `default_bc_at_xmax` of UserParticles_1D.py, and every boundary function of UserParticles_3D.py other than those for `xmin` and `ymin`, only print; a particle that leaves there keeps its cell, the same facet is found again, and the run stops with a RuntimeError. `neutral_H` at `rmin` is deleted by UserParticles_1D.py and reflected by UPBFs_spherical_r.h (C106).
* If a species loses all its particles in one step, the Python simulation goes on with the charge of the records left over, the compiled simulation does not; their potentials differ from then on (C109).
* `initialize_particle_mesh` does not make `cell_dict`; on a mesh constructed without dictionaries the Python movers raise KeyError for every particle (C110).
* A particle is pushed towards the middle of its cell by its own charge: the charge is deposited at the vertices with linear weights but the field is constant in each cell.  A single electron at rest between grounded plates can move away from the nearer plate (C111).
* For the same reason the forces between the particles of a cell do not cancel, and the total momentum changes without a force at the plates (C112).
* Whether a simulation with a source fails with AssertionError can depend on the order of the initial particles: if the survivors of a move fill their segments and the last particle was lost, the container is left in a state in which it cannot grow (C113; see C13).
* On radial meshes the potential at the vertices is not exact, unlike between plates (C90): with linear elements in r the voltage of a cell from a to b is too small by the factor 3ab/(a^2+ab+b^2) (C114).
* The segment length of the containers decides whether a simulation with sources raises an AssertionError (C118).
* `accumulate_number_density_CPP` raises a NameError whenever it is asked for something: `dnt_cpp` is not defined (C119).
* C123: `ParticleMeshSources_C.__init__` (Particle_Module.py:3385-3443) tests the name `printTag`, which is not defined (the parameter is `print_flag`), as soon as it finds a function: a NameError. It succeeds only if there is nothing to register, and then stores None everywhere.
* C126 (sample lists of particles): `neutral_H` of UserParticles_1D.py lists tuples of seven entries without
  `crossings`, which fit the record of no dimension; `testelectrons` of UserParticles_2D_H_He_e.py uses the undefined
  name `Particles_C`; `plasma_electrons` and `H_plus` of UserParticles_H_He_e.py always use the identities 0-3,
  which the counter also gives; the second ion of `H_plus` has `bitflags = 0b01`, which is `DELETE_FLAG`, so that it is
  dropped in its first step (`C126_false_short`, `C126_false_name`, `C126_false_ids`, `C126_false_deleted`).
* C127 (order): as C95, more charge or higher potentials at the sides may lower the potential somewhere if the mesh has
  obtuse angles (`C127_false_order`); the rest of C127 holds on all meshes.
* C129 (segments): with compiled containers, if the last particle of a species is lost and the others fill whole segments,
  a source acting in the same step aborts the program; with another segment length it does not (`C129_false_segments`).
* C134 (times): with rounding, the time recorded for a crossing may be after the end of the step (`C134_false_late`, `C134_false_compiled_late`).
* C134 (errors): with rounding, a particle that leaves its cell may be found to cross no facet, which ends the simulation with a
  RuntimeError although the same step succeeds in exact arithmetic (`C134_false_no_facet`); compiled code ends the program (`C134_false_compiled_exit`).
* C135: the recorded times of Python and compiled code differ in the last bits after the first crossing of a step: Python computes `rem - f*rem`, compiled code `(1-f)*rem` (`C135_false_times`).  If the compiler fuses multiplication and addition, positions differ too (`C135_false_fused`).
* C137: the clock of a simulation stands still, while the particles move, once the time step is below the rounding error of the time reached (`C137_false_stands_still`, `C137_stuck`); all later output carries the same time.

## 6. Axioms per property theorem

Printed by `#print axioms`, grouped by the result; generated from MANIFEST.json.

* **Classical.choice, Quot.sound, propext** (467): C01_append_keeps_order, C02_push_index_stable, C03_setitem_frame, C04_read_loop, C05_count_le_capacity, C05_growth_minimal, C06_read_back_partial, C06_zero_ghosts, C07_history_exact, C07_pushes_after_read, C07_reads_after_pushes_partial, C08_inout_empty, C08_inout_swap, C09_indices_identify_particle, C100_distinct, C100_false_same_id, C100_files, C100_names, C100_program, C101_box, C101_cells, C101_false_walls, C101_mover, C101_plasma, C101_points, C102_box, C102_box_mover, C102_crossed, C102_each_cell_once, C102_line, C102_mover, C102_plane, C102_run, C102_sector, C103_crossings, C103_named_walls, C103_particle, C103_run, C103_triangulation, C104_balance, C104_grounded, C104_run, C104_step, C105_balance, C105_calm, C105_crossing, C105_field, C105_field_energy, C105_sphere, C105_step, C105_unique, C106_compiled, C106_cpp_spherical, C106_false_neutral_rmin, C106_run, C106_sphere, C106_stops, C106_stops_3D, C106_stops_xmax, C106_user1D, C106_user2D, C106_user3D, C107_mover, C107_numbered, C107_same_mesh, C108_convex, C108_sphere, C108_triangulation, C109_ends_normally, C109_false_all_lost, C109_follows_python, C109_line_runs, C109_movers, C109_programs_agree, C109_run, C10_same_history_partial, C110_cell_indices, C110_dictionaries_serve, C110_false_particle_mesh, C110_history_succeeds, C110_movers, C110_reads, C110_volumes, C111_bound, C111_empty_cell, C111_exact_field, C111_false_direction, C111_field, C111_run, C111_self_force, C112_false_momentum, C112_force, C112_momentum, C112_step, C113_false_failure, C113_run, C113_step, C114_bound, C114_false_potential, C114_mean, C114_run, C114_voltage, C115_run, C115_step, C116_run, C116_step, C116_twice, C117_field, C117_run, C117_step, C118_false_segments, C118_longer, C118_output, C118_segments, C119_exact, C119_false_name, C119_nothing_asked_partial, C11_pass_refines_list, C11_survivors, C120_plasma, C121_sphere, C122_compiled, C122_convex, C122_crossings, C122_linked, C122_meshed, C122_numbered, C122_plasma, C122_python, C122_triangulation, C123_exact, C123_false_provided, C124_mover, C124_program, C124_run, C124_runs, C124_step, C125_mover, C125_program, C125_run, C125_runs, C125_step, C126_counting, C126_created, C126_distinct, C126_false_deleted, C126_false_ids, C126_false_short, C126_in_quarter, C126_three_d, C126_two_d, C126_wrong_length, C127_energy, C127_false_order, C127_influence, C127_one_d, C127_order_partial, C127_potential, C127_run, C127_superposition, C128_compiled, C128_compiled_mover, C128_compiled_program, C128_compiled_step, C128_mover, C128_program, C128_run, C128_step, C129_false_segments, C129_longer, C129_output, C129_segments, C12_in_array_preserved, C12_raises_iff_particle_raises, C130_callbacks, C130_compiled, C130_compiled_program, C130_program, C130_run, C131_compiled, C131_run, C131_twice, C132_compiled, C132_run, C132_symmetric, C133_compiled, C133_run, C134_compiled_exact, C134_compiled_fraction, C134_compiled_times_partial, C134_errors_partial, C134_exact, C134_exact_species, C134_false_compiled_exit, C134_false_compiled_late, C134_false_late, C134_false_no_facet, C134_fraction, C134_run, C134_times_partial, C135_false_fused, C135_false_times, C135_first_crossing, C135_neutral_exact, C135_neutral_partial, C135_run, C135_same_bits_partial, C135_species, C136_neutral, C136_step, C136_steps, C137_clock, C137_false_stands_still, C137_order, C13_cpp_uniform, C13_uniform_count_exact, C13_uniform_partial, C14_count_zero_partial, C14_ghosts, C15_push_after_pass_exact, C15_push_after_pass_partial, C16_steps_compose, C17_create_follows, C17_pass_follows, C17_steps_follow, C18_append_only, C18_record_datum, C19_record_all_once_partial, C20_schedule_fits, C21_final_point, C22_time_is_exact, C22_times_charged, C22_times_neutral, C23_first_facet, C23_fraction_range, C24_no_facet_iff, C25_cell_label, C26_crossings, C26_each_cell_once, C26_limit, C26_limit_monotone, C26_limit_only_degenerate, C26_line_no_error, C26_none, C27_accel_only, C27_free_motion, C27_free_motion_neutral, C28_false_interior_reflection, C28_false_passive_boundary, C28_no_error, C28_no_error_neutral, C28_steps, C29_inner_side, C29_involution, C29_specular, C30_interval, C30_mutual, C30_tables, C31_current_dx, C31_false_neutral, C31_neutral_stale, C32_false_neutral_xy, C35_applied_field_partial, C35_false_disabled, C35_false_stale_slot, C40_false_missing, C40_independent, C40_most_specific, C41_file_holds_particles, C42_groups, C42_one_group_per_step, C43_species_tables, C44_KE_is_sum, C44_additive, C44_false_after_loss, C44_number_is_sum, C45_history_fits, C46_false_sphere, C46_rectangular, C46_spherical_1D_partial, C49_in_range, C49_radial_mesh, C50_volumes, C54_closes_partial, C54_false_repeated_step, C55_cell_indices, C56_false_duplicates, C57_accepted_fails, C57_exact, C57_false_incomplete_group, C58_false_reopened, C58_reopened_partial, C59_KE_partial, C59_false, C59_full_segments_partial, C59_number_partial, C60_false_external, C60_false_switched_off, C60_no_external_partial, C63_agree, C63_flat_raises, C63_inside, C63_python, C64_exact, C64_false_inside_move, C64_leaving, C64_tables, C65_agrees_with_python, C65_pass_refines_list, C65_push_after_pass_exact, C65_steps_compose, C66_charged_particle, C66_charged_step, C66_false_neutral_xy, C66_interval_mesh, C66_layouts, C66_neutral_particle, C66_neutral_step, C67_agrees_with_python, C67_applied_field_partial, C67_external_ignored, C67_false_accel_only, C67_false_missing_name, C67_false_second_component, C68_run, C69_false_left_open, C69_file_closed_partial, C70_false_source_after_loss, C70_neutral_source_raises_partial, C71_particles_accounted_for, C71_step, C72_charge_conserved_partial, C72_false_ghost_charge, C73_in_its_cell, C74_line_runs, C74_only_errors, C75_particle, C75_run, C75_step, C76_false_two_mirrors, C76_folded, C76_no_error, C76_particle, C76_run, C76_runs, C77_particle, C77_run, C81_no_sources, C81_run, C81_sources_partial, C82_accepts, C82_circle, C82_false_fine_cells, C82_false_interval_particles, C82_interval_field, C82_radial, C82_rectangle, C83_false_interval, C83_false_unmarked, C83_named_walls, C83_particle, C84_energy, C84_false_neutral, C84_neutral, C84_no_error, C84_particle, C85_coordinates, C85_false_fast, C85_named_walls, C85_particle, C85_run, C86_false_fine, C86_named_walls, C86_neutral, C86_particle, C86_reflections, C86_run, C87_false_reported, C87_particles, C87_point, C87_present, C87_rectangle, C88_conforming, C88_located, C88_mover, C88_points, C88_rectangle, C89_marks, C89_potential, C89_solve, C90_plates, C91_assembled, C91_density, C91_false_density_lost, C91_false_radial, C92_exact, C92_gauss, C93_field_unique, C93_sphere, C94_density, C94_energy, C94_false_unmarked, C94_false_unset, C94_potential, C94_shape, C94_total, C94_unique, C95_false_range, C95_range_partial, C96_energy, C96_gauss, C97_field_unique, C97_plasma, C98_false_centre, C98_false_coarse, C98_mover, C98_points, C98_round, C98_sector, C98_solver, C98_vertices, C99_crossed, C99_false_fine, C99_false_half, C99_mover, C99_points, C99_solver, C99_vertices, Fld.C33_additive, Fld.C33_conserves_weight, Fld.C33_deposit_exact, Fld.C33_order_independent, Fld.C34_cell_exact, Fld.C34_integrates, Fld.C47_false_compounding, Fld.C48_false_shared, Fld.C48_multiply_all, Fld.C48_multiply_exact, Fld.C48_multiply_once_partial, Fld.C51_false_two_species, Fld.C51_two_species_exact, Fld.C52_set_on_subdomain, Fld.C53_total_charge, Setup.C79_calls, Setup.C79_false_no_mover, Setup.C79_setup_partial, Setup.C80_cpp_iff_partial, Setup.C80_distribution, Setup.C80_false_long, Setup.C80_false_shipped, Setup.C80_python_iff, Sources.C36_false_listed, Sources.C36_false_wrap, Sources.C36_unique_ids_partial, Sources.C37_false_full, Sources.C37_fill_partial, Sources.C37_returns, Sources.C38_schedule, Sources.C39_false_full, Sources.C39_listed_partial, Sources.C61_false_region, Sources.C61_listed_partial, Sources.C62_false_after_read, Sources.C62_first_point_partial, TrajLoop.C78_history, TrajLoop.C78_run, TrajLoop.C78_tracing_inert
* **Quot.sound, propext** (46): C06_count, C100_false_anonymous, C100_false_text, C100_false_untitled, C109_python_follows, C126_false_name, C126_not_listed, C130_mesh, C134_compiled_labels, C134_labels, C137_exact, C137_stuck, C20_errors, C32_start_point, C40_cpp_agrees, C43_zero_mass, C44_number_of_visited_partial, C45_false_max_points, C46_whole_mesh, C50_unknown_system, C56_duplicates_kept_partial, C57_check_exact, C57_old_groups_kept_partial, C65_skip_idle, C67_false_disabled_crossing, C67_false_external, C67_false_no_solved_field, C70_no_sources_partial, C76_determined, C76_walls, C82_false_sources, C82_no_dictionary, Fld.C47_no_charge, Fld.C47_once_partial, Fld.C47_solves_exact, Fld.C53_charge_density, Setup.C79_coordinates, Setup.C79_false_fields, Setup.C79_false_first_record, Setup.C79_too_early, Setup.C80_copy, Setup.C80_store, Sources.C37_other_species, Sources.C38_interval_zero, Sources.C61_source_call, Sources.C61_unknown_kind
* **none** (3): C82_false_box, C82_false_files, C87_false_indices
* **propext** (20): C06_false_at_zero, C07_false_push_after_read, C10_false_array, C10_false_out_of_bounds, C10_false_push_after_read, C10_false_zero, C10_false_zero_length_1, C10_overloads_partial, C13_false, C13_false_cpp, C14_false, C15_false, C19_false_charged, C19_false_neutral, C19_same_step, C44_total_count, C65_false_segment_length_one, C81_false_source_after_loop, C81_false_source_after_loss, Setup.C80_names
