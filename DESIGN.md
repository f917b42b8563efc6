# Formal model of mathischeap/phyem in Lean 4

This directory holds a Lean 4 model of parts of `phyem` (source in `/repo`) and
kernel-checked proofs of the properties listed in `properties.jsonl`.

## Layout

* `properties.jsonl` – the properties in English, with anchors in `/repo`.
* `lean/Verif/<Area>/Model.lean` – the model: total, computable functions mirroring
  the Python branch by branch.  Every definition cites file and lines.
* `lean/Verif/<Area>/Spec.lean` – where needed, a small specification that does not use
  the helpers of the model (what the property means).
* `lean/Verif/<Area>/Lemmas.lean` – auxiliary lemmas.
* `lean/Verif/<Area>/Props.lean` – the property theorems, each followed by `example`s
  showing that concrete non-trivial inputs meet the hypotheses.
* `MANIFEST.json` – property → theorems and status.
* `seeded/LOG.jsonl` – log of seeded wrong programs and the theorems that caught them.

## Conventions

* Python exceptions and failed `assert`s are values: `Option`/`Except` results.
* Floating point numbers are modelled by an exact field (`ℚ` or an arbitrary field), unless
  rounding is the point of the property; then the rounding is modelled exactly on rationals
  (`round(t, 8)`, `"%.5f"`, `np.allclose`).  This is a simplification, stated at each definition.
* Python dicts with insertion order are association lists or functions; numpy arrays are
  functions on index ranges together with shapes or lists of lists.
* Stateful objects are a state type, an `init`, and step functions; properties over histories
  are proved by induction on a list of operations.
* Parallel (MPI) code is modelled as a list of ranks; a collective `reduce(SUM)` is a sum over
  that list, `gather`/`bcast` is a list visible to all ranks.
* Where the unchanged code violates a property, the negation is proved on a concrete
  witness (theorem name ending in `_refuted`), and the largest part found to hold is proved under a
  name ending in `_partial`.  The manifest says `partial` for these.

## Trusted base

* Lean 4.33.0 kernel.  Each theorem depends at most on `propext`, `Classical.choice`,
  `Quot.sound` (see section "Axioms").  No `sorry`, no own axioms, no
  `native_decide`/`bv_decide`.
* Mathlib definitions used in statements: `Finset.sum`, `Matrix`, `Polynomial`, `List` functions,
  `HasDerivAt`, `HasFDerivAt`, `Real.sin`, `Real.cos`, `Set.BijOn`, interval integrals.
* The transcription from Python to Lean, done by hand by reading `/repo`.  Nothing in
  `/repo` was executed.

## Properties: what is modelled and how it is proved

| id | area/module | model and proof idea |
|----|-------------|----------------------|
| C01 | `Expr` | the token-level parser (`replace(' ','')`, `'-'→'+-'`, split at `=` and `+`, drop empty and `0` terms) on character lists; semantics by a separate recursive-descent arithmetic evaluator; induction on the token list.  `a - -b` refutes the full claim; proved for strings without adjacent signs |
| C02 | `WeakForm` | `rearrange` on lists of signed terms with indices; residual = left − right in an arbitrary commutative ring; induction on the pattern |
| C03 | `WeakForm` | `replace`, `delete`, `switch_sign` likewise |
| C04 | `WeakForm` | `split` of a term; refuted for factor ≠ 1, proved for factor 1 |
| C05 | `WeakForm` | all branches of the commutation table; value of each equals sign of permutation times the original for any alternating trilinear map |
| C06 | `WeakForm` | rewriting rules as functions on terms; evaluated in any model of the Green identity |
| C07 | `TimeDisc` | `differentiate`, `average`, `td()` on signed terms with factors; refuted for a factor ≠ 1, proved for unit factor |
| C08 | `MatrixProxy` | state (block matrix, vectors, remaining terms); invariant over any sequence of parse calls |
| C09 | `MatrixProxy` | `_parse_ls`; equivalence of `A x = b` with rows |
| C10 | `LinRepr` | printing of expressions with the library's bracketing; refuted for `a-(b-c)`; unique readability proved for the operator fragment (unary, wedge, cross product …) |
| C11 | `LinRepr` | delimiter based search for root representations |
| C12 | `LinRepr` | textual substitution; refuted for sums substituted under `d`; proved when the replacement is a root form |
| C13 | `Spaces` | operator table on (n, k, orientation) |
| C14 | `TimeSeq` | constant sequence over ℚ with `round(·,8)` |
| C15 | `TimeSeq` | state machine of the lazily extended list; refutation for the failing query; partial theorem |
| C16 | `Registry` | state machine of the setter |
| C17 | `Registry` | state machine of `define_bc` |
| C18, C19 | `Incidence` | the loops building the incidence matrices as entry functions; identities on arbitrary cochains |
| C20 | `Numbering` | Fortran order numbering of boxes and blocks |
| C21 | `Mesh` | mixed radix numbering over regions |
| C22 | `Mesh` | neighbour computation on structured regions |
| C23, C24 | `Gathering` | the numbering loops with their state; invariants; refutations for boundary faces in 3d and single periodic elements |
| C25 | `Chaining` | methods 0 and 1 |
| C26–C28, C51 | `Chaining` | first-occurrence renumbering over ranks, split/merge/assemble, location search |
| C29, C30, C33 | `Assembly` | triplet (COO) assembly and fancy-index accumulation as in numpy |
| C31, C32, C34, C36, C37, C60 | `Customize` | customisation dictionaries, per rank |
| C35 | `OpCache` | evaluation of derived local matrices with key-caches over histories |
| C38, C39 | `Precond` | diagonal scaling, essential row search |
| C40 | `Tools` | masks |
| C41, C42 | `ArrayCache` | cache list with keys, exact rational `allclose` |
| C43–C45 | `Cochain` | stores as finite maps with history |
| C46, C47 | `Poly` | Mathlib `Lagrange.basis`, derivatives |
| C48 | `LocalDofs` | index slices against geometric incidence of dofs with faces |
| C49, C50 | `PoolGM` | pool based numbering with reversal |
| C52, C53 | `Multigrid` | schemes as lists of steps and the pairing stack |
| C54 | `Newton` | stop criterion and loop |
| C55–C57 | `Iterator` | range compression, resume with arbitrary cache schedule and kill points |
| C58, C59 | `Tools` | state machines |
| C61, C62 | `Iterator` | state of the cached objects after a resumed run; the text key of an input as a function of rounded values; refuted where rounding or an all-cached run makes a difference |
| C63 | `Spaces` | the three product tables against the cross product of proxies |
| C64, C65 | `Chaining` | address keyed chain cache with an allocator; numpy equality with broadcasting |
| C66 | `Assembly` | stores mutated by the threshold, over histories of calls |
| C67 | `Assembly`, `Chaining` | block system = chain of gathering matrices + `bmat`; entry by entry |
| C68, C69 | `Customize` | blocks as references to stores, essential boundary conditions, identify rows |
| C70, C71 | `OpCache` | histories of customise / clear / read on a graph of derived matrices |
| C72 | `Metric` | determinant, inverse, metric matrices against Mathlib `Matrix.det` and inverse; in-place scaling on a heap of arrays |
| C73 | `Geometry` | each Jacobian matrix against `HasDerivAt` / `HasFDerivAt` of its mapping over ℝ |
| C74 | `Geometry` | corners, sides, circles, bijectivity by monotonicity and the intermediate value theorem |
| C75 | `Geometry` | region maps and the parametrised sides of multi-region domains |
| C76 | `Geometry` | normals of faces from Jacobian matrices, signs from the determinant |
| C77 | `Geometry` | signatures as functions of the nodes; equal signature ⇒ equal Jacobian matrix |
| C78 | `Mass` | entries as quadrature sums; bilinear form = quadrature of the product of reconstructions |
| C79 | `PoolGM` (`Model3`, `Spec3`, `Props3`) | the same pool with the blocks of hexahedra; places on corners, edges and faces |
| C80 | `PoolGM` (`Structured*`) | places of a structured mesh are in bijection with positions on its axes |
| C81, C82 | `Great` | faces by sorted nodes; the table of neighbours filled pair by pair, against coincidence of faces |
| C83 | `Great` (`Distribute*`) | shares and piles as lists, exceptions as `none`; a partition without empty parts |
| C84 | `Great` (`Reverse*`) | circulation and flux of the test field on straight faces, over ℚ |
| C85 | `Great` (`Pairing`) | pools of the ranks merged by the master rank |
| C86 | `Triangle` | numbering with one collapsed side, loops of the incidence matrices with the shapes of their arrays, bases with the collapsed edge left out; differences, integrals and derivatives of reconstructions |
| C87 | `Reversal` | loops over the reversed faces on matrices, basis functions, dofs; a diagonal matrix of signs |
| C88 | `Reversal` (`Keys`, `KeyProps`) | the module caches as dictionaries, keys as character lists; injectivity of the texts; reads through `OpCache` |
| C89 | `Nonlinear` | einsum as a sum over indices, loops that build the blocks and the right side; derivative of the residual over ℝ (`HasDerivAt`), for terms of any arity |
| C90 | `Nonlinear` (`Fixed`) | iterates of the assembled system with identity rows; induction over the iterates |
| C91 | `Trilinear` | einsum of reconstruction matrices, metric and weights; equality with the quadrature of the pointwise product of the reconstructed fields |
| C92 | `Nonlinear` (`Picard`) | the linear system of an iteration; its residual and its fixed points |
| C93 | `Recon` | reconstruction and reconstruction matrices at one point of an element; both are the transformed values of the reference element |
| C94 | `Funcs` | the wrapper classes of scalars, vectors and tensors in 2d and 3d with their optional derivatives; every operator against the true partial derivatives, up to the error of the partial derivatives it uses; refusals. Convection by class names that do not exist is refuted |
| C95 | `Funcs` | central differences in different variables commute; the composed operators vanish for arbitrary functions |
| C96 | `Funcs` | central difference against the true derivative (mean value inequality thrice); the mesh setter as a function of the points of the elements and the drawn times. Refuted for vectors in 3d, which are checked at points with z = x |
| C97 | `Funcs` | the loop of the time integral is the composite trapezoidal rule; error bound from Mathlib |
| C98 | `Krylov` | `gmres` and `lgmres` as programs of `p` processes over the reals; refinement of the distributed inner loop to a sequential Arnoldi loop; orthonormality, the Krylov space and the normal equations by induction; the cache of old corrections in `lgmres` |
| C99 | `Krylov` | the stop criterion along the outer loop; two distributions refine to the same sequential run |
| C100 | `Krylov` | a turn breaks down exactly if the Krylov vectors are dependent; refuted for small systems |
| C101 | `MgSolver` | the loop over the steps with its record of inputs and outputs, pairing and cleaning; refinement to a machine with a stack of systems; default arguments refuted |
| C102 | `MgSolver` | one two-grid cycle in terms of A, R, P; refuted by the sign of the correction; induction over a scheme that a zero residual gives zero corrections |
| C103 | `MgSolver` | the final call composed with the theorems on `gmres` and `lgmres`; the choice of solver and of the intermediate turns as decision tables |
| C104 | `MgSolver` | recursion over the levels against a sequence of solutions |
| C105 | `DynSys` | parsing, evaluation and customisation over a heap of matrix objects with caches; invariant over histories, refinement to sums of products per element; refuted for bare blocks |
| C106 | `DynSys` | searches for configurations characterised; the specification of C105 contains the prescribed rows; refuted for natural conditions on several sections |
| C107 | `DynSys` | two evaluations compared through C105; refuted by the shared mass matrix |
| C108 | `Params` | registry of scalars as a list, invariants over histories; the parser of factors against the values of expression trees; refuted for sums |
| C109 | `Trf` | triangles as paths of halvings; the elements are the leaves of a forest, by induction over the levels |
| C110 | `Trf` | invariant: bottom edges are halved on both sides; no hanging nodes from it, for aligned base meshes; refuted otherwise and after an exception |
| C111 | `Trf` | keys of vertices against sameness of points; refuted for unaligned cells and four levels |
| C112 | `Trf` | the loop that selects triangles against opposite and boundary triangles |
| C113 | `Trf` | the cache as state of a session; refuted after an exception |
| C114 | `Trf` | areas under the bilinear mapping by induction over halvings; the composed mapping and its derivative |
| C115 | `Trf` | uniform meshes: every triangle has one opposite or is on the boundary; refuted for the predefined meshes |
| C116 | `Reduce` | indices of the arrays of the code against the local numbering; fundamental theorem, Green's and divergence theorems of Mathlib on the rectangles and boxes, applied to the pulled-back fields; on triangles the numbers of the collapsed side, which the code leaves away, are shown to vanish |
| C117 | `Reduce` | edge functions integrated by an exact rule; tensor sums collapse |
| C118 | `Reduce/Regions` | concatenation over the regions against the region of an element; refuted where the loop follows the dictionary |
| C119 | `Norms` | sums of the code as tensor quadrature rules; change of variables of Mathlib for the integral over an element; the mass matrices of `Mass`; refuted for inner products on curved elements and component-wise norms |
| C120 | `Norms` | the same with the distance to the exact solution; refuted for odd powers |
| C121 | `Norms/Residual` | decision logic over the reachable stores of `Cochain` |
| C122 | `Boundary` | the assignments to the dofs of the faces as a fold; a dof not of a face has no trace on it, so the vector is that of the functional; the divergence theorem on an element by that on a rectangle; refuted for 0-forms at corners |
| `Sections` | boundary sections of partial meshes, their faces and dofs, and the elements of a point (`msehtt/static/mesh/partial/{main,boundary_section/main,elements/main}.py`, `tools/miscellaneous/geometries/{m1n1,m2n2}.py`) | rounding; matplotlib's test of a point in a polygon, the inverse of the function of a curve and Python's `round` are parameters; how requests are parsed; the assertion on the great mesh in `find_dofs`; aliasing of the returned dictionaries; indices of elements that are strings |
| `Runner` | the runner that calls a solver for many inputs, its file, its messages (`tools/legacy/serialRunners/_runner_.py`, `.../INSTANCES/matrix3d_input_runner.py`, `tools/legacy/runners/_3d_matrix_inputs/main.py`, `tools/runner.py`) | pandas beyond a list of rows; how numbers and times are formatted (a format that round-trips is a hypothesis; `nan` does not); keyword arguments, whose mismatch is only printed; that Python buffers writes: a crash leaves a prefix of what was written; progress bars, pickled copies; a criterion with a colon in its name |
| `Adaptive` | generations of meshes, spaces and forms, systems for them, renewal of cochains by local interpolation with its caches (`msehtt/adaptive/{main,___func___}.py`, `msehtt/adaptive/{mesh,space,form}/main.py`, `msehtt/adaptive/tools/*.py`, `msehtt/adaptive/form/renew/{main,method_3_local_interpolation}.py`) | what great meshes, spaces and forms consist of; the values an interpolation gives (a function of the old cochain, the elements it is reconstructed in and the new element); `homogenous()` after that; methods 1 and 2 beyond what they return; several ranks |
| `Samples` | manufactured solutions, exact solutions, initial conditions and functions given piece by piece (`tools/samples/{manuSolution_MHD3,manuSolution_Hall_MHD,manuSolution_MHD2,manuSolution_NS2,manuSolution_NS3,manuSolution_Eigen2,manuSolution_L_singularity,manuSolution_PNPNS2}.py`, `tools/samples/iniCond_*.py`, `tools/samples/{conditions_normal_dipole_collision,condition_MHD3_Hu_helicity_test}.py`, `tools/gen_piece_wise.py`) | rounding; checks of given derivatives when a mesh is set (area `Funcs`); the energy of the dipole is a sum over any quadrature; shapes of arrays, further arguments of pieces |
| `Dds` | data at points, region by region, and their files (`tools/dds/{region_wise_structured,region_wise_structured_group}.py`, `tools/{save,read}.py`) | rounding; pictures, interpolation, powers that are not natural numbers; arrays of different shapes that numpy would stretch; the grouped saving of forms (`tools/dds/saving_api.py`), `read_tsf`; pickling |
| `Instant` | cochains at times and local vectors (`msehtt/static/form/cochain/{instant,main}.py`, `msehtt/tools/vector/static/local.py`, `msehtt/static/form/main.py:d`) | rounding; which arrays share memory; dictionaries that the user changes after having given them; components on triangles; automatic cleaning in `Store` (it is in `Cochain`) |
| `Config` | meshes from regions (`msehtt/static/mesh/great/config/msehtt_.py`) on the master rank | rounding of coordinates other than by the format; 3d and 1d (not implemented in the code); the distribution of the elements over ranks (`Great`) |
| `Passing` | correspondence of dofs, passing of cochains and vectors, hierarchies and levels of multigrid (`msehtt/multigrid/mesh/great/*`, `msehtt/multigrid/{form,space}/main.py`) | the geometries of dofs of each kind of element; polygons (shapely) and bodies; tolerances except in the refutations; the projection itself (`Reduce`, `Recon`) |
| `Boxes` | geometric objects of dofs (`findLocalDof_Lambda.py`, `ln_m3n3k*.py`, `ln_m2n2k*.py` for quadrilaterals) and the objects in space with their tests (`tools/miscellaneous/geometries/m3n3.py`) | `StraightSegment3` and the other objects no space uses; the nodes themselves (`Poly`); rounding of floats; group keys in space |
| `MgNodes` | nodes of the levels of a uniform multigrid (`degree_parsers/uniform_multigrid.py`) | the Lobatto nodes themselves and the parsing of the string `MG-N…`; rounding of floats |
| `Integrals` | numbers on parts of meshes: `a(A, B, C)`, integrals, CFL numbers and their files (`msehtt/static/mesh/partial/elements/{compute,cfl}.py`) | reconstruction of the forms; `a_test`; writing of the csv and vtu files |
| `Monitor` | the monitor of an iterator and times as strings (`tools/iterator/monitor.py`, `tools/miscellaneous/timer.py`) | drawing of figures, names, information on the machine; current times |
| `Split` | splitting of meshes and regions (`msehtt/static/mesh/great/main.py:877-1376, 1565-1664`, `config/tqr.py`) | floats; numbers of nodes that are not Python integers; drawing |
| `Slice` | the predefined periodic slice (`msehtt/static/mesh/great/config/specific_meshes/periodic_slice.py`) | floats; layouts that are not integers |
| `Ranking`, `Lines` | the ranking of machines in a file (`tools/miscellaneous/ranking.py`); where lines meet and functions on lines (`tools/functions/space/_2d/line_intersection.py`, `tools/functions/time_space/_2d/wrappers/{scalar,vector}_on_lines.py`) | the clock, the name of the machine, floats and their texts (they are read back as they were written) |
| `MeshPy` | meshes from the library meshpy (`msehtt/static/mesh/great/config/meshpy_.py`) | the library itself; floats |
| `Rename`, `Memo`, `Accepts` | renaming files, keeping values, checking arguments (`tools/miscellaneous/rename_files_in_folder.py`, `tools/decorators/`) | folders in folders; floats as arguments; what errors say |
| `FaceDofs` | local dofs on faces of hexahedra and places of nodes (`msehtt/static/space/find/local_dofs_on_face/Lambda/m3n3k*.py`, `msehtt/static/space/local_dofs/Lambda/`) | caches of results; the mapping of places in three dimensions |
| `Degree`, `Derived` | degrees of spaces; sums, differences and derivatives of forms, values of dofs and functions by region (`msepy/space/degree.py`, `msepy/form/main.py`, `msepy/form/cochain/passive.py`, `msepy/form/cochain/time_instant.py`, `tools/functions/region_wise_wrapper.py`) | truth values as degrees; shapes of cochains; continuous forms of sums; redundant dofs |
| `Regions` | regions of four points and of bounds, dofs by number, numbers of singular modes (`msehtt/static/manifold/predefined/quad.py`, `rectangle.py`, `msehtt/static/form/dofs/main.py`, `msepy/tools/matrix/static/assembled.py`, `msehtt/tools/matrix/static/global_.py`, `local.py`) | rounding in the rank; boundary sections |
| `Folder` | files and folders (`tools/os_.py`) | `rename`; links, permissions, other programs; the barrier before `remove` |
| `Wrapped` | operators that wrap a maker of data; dimensions of scalars, vectors and tensors (`msehtt/tools/nonlinear_system/operator/local_wrapper.py`, `tools/vector_calculus.py`) | makers that override `reduce`; bare arrays as cochains |
| `SideFaces` | faces of boundary sections (`msepy/mesh/boundary_section/faces.py`) | lengths, mappings and signatures of faces |
| `Apply` | from abstract objects to an implementation (`src/fem.py`, `msehtt/static/main.py`) | meshes, spaces and manifolds of implementations; configurations; what is done after all is parsed |
| C123 | `Boundary/Flux` | the component of the reconstruction across a side is made of the dofs of the side; telescoping sums of the incidence matrix |
| C124 | `Sections` | filters of the boundary faces; a specification of lying on a line, segment, curve, in a polygon that does not use the tests; bounds of the distance from the triangle inequality; refuted for curved faces and far lines |
| C125 | `Sections/Dofs` | induction over requests; refuted after a failed request |
| C126 | `Sections/Dofs` | invariants of the dictionary of the elements; the cache is right by induction over calls; refuted after a change of degree |
| C127 | `Sections/Dofs` | the cache is right by induction over calls; refuted for points that differ by less than 1e-6 |
| C128 | `Runner/Crashes` | texts are lists of characters; an invariant of the file, head, complete rows and a tail of one of three kinds, by induction over processes that die anywhere; the last complete word of a row decides whether it is read; refuted with three processes, and generally for a crash between opening and writing back |
| C129 | `Runner/Parallel` | induction over the slots with the messages as a list; the number of slots from the shapes |
| C130 | `Runner/Read` | names between brackets, split at commas; the rows from the invariant of C128; refuted for one output |
| C131 | `Adaptive/Fresh`, `Adaptive/Refuted` | generations as lists, the loops of a renewal one after another, an invariant against an abstract machine that counts renewals; refuted with a space of unknown orientation, a mesh order, two stamps |
| C132 | `Adaptive/Systems` | the invariant of C131 with the cache of the system: it is the one of the first call since the last renewal; refuted with a late condition |
| C133 | `Adaptive/Cochains`, `Adaptive/Refuted` | caches with the addresses of objects as keys: what they hold comes from a call, and addresses that are not reused tell which; the cell is read from the text of an index; refuted with reused addresses |
| C134 | `Samples/Mhd`, `Samples/Exact` | fields as functions of real numbers, derivatives with `deriv`, the classes of functions of the area `Funcs`; the momentum equation and the law of Ohm are written down once, with the derivative as a parameter; refuted at the origin |
| C135 | `Samples/Bc` | faces of a cube as a predicate; sines are zero there |
| C136 | `Samples/Exact`, `Samples/Initial` | the same; polar coordinates with the argument of a complex number |
| C137 | `Samples/PieceThm` | `np.extract` and `np.place` as loops over lists, induction over the masks and over the list of conditions; what differs between versions of numpy is a parameter |
| C138 | `Samples/IonThm` | as C134; positivity with the angle at which the concentration is least |
| C139 | `Dds/OpsThm`, `Dds/Measure`, `Dds/Files` | arrays as a shape and a list of entries, dictionaries as lists; statements about single numbers (component, region, point) |
| C140 | `Dds/Measure` | sums over lists of entries; maxima by induction; refuted on the unit square |
| C141 | `Dds/Region`, `Dds/Reach`, `Dds/Values`, `Dds/StreamEx` | loops over rows and columns with an invariant; passes over the regions with invariants of the pool of corners; reachability through corners as an inductive predicate |
| C142 | `Dds/Files` | a file is the dictionary put into it; reading makes the object again |
| C143 | `Instant/Receive` | gathering matrices per rank as in `Gathering`; acceptance as an equivalence with conditions on elements |
| C144 | `Instant/Receive` | the assembled vector as the value of the last place; homogenous in terms of it |
| C145 | `Instant/Lookup` | look-ups of `Gathering` for every history; gather, sum and broadcast over the ranks |
| C146 | `Instant/Lookup` | slices of a list against the local numbering |
| C147 | `Instant/Arith` | element-wise operations with the stretching of numpy as a branch |
| C148 | `Instant/Store`, `Instant/History` | objects with references to older objects, read by asking again; an invariant of all programs |
| C149 | `Config/Numbering`, `Config/Tiling`, `Config/Mapping` | partial sums of the layout as lines; covering and disjointness by induction over the lines; the chain rule |
| C150 | `Config/Pbc` | numbers in the order of appearance, as positions in a list of keys without repetition |
| C151 | `Config/Pbc` | each pass adds one link; the generated equivalence as the specification |
| C152 | `Config/Nodes`, `Config/Elements` | a characterization of the key of a point by where it is; numbers as in C150 |
| C153 | `Passing/Places`, `Passing/Found` | the dictionary of places as a fold; what is taken before as an invariant of the search |
| C154 | `Passing/Shapes`, `Passing/Pass` | a bijection between the dofs found and their places in the coarse place; sorted segments of full length leave no gap |
| C155 | `Passing/Pass` | decision logic of the answers; local vectors agree with global ones where needed |
| C156 | `Passing/Hierarchy` | induction over the coarse elements |
| C157 | `Passing/Levels` | links between the tables of levels as an invariant over all histories |
| C158 | `Boxes/Dofs` | the column-first numbers are injective and fill their range; consecutive ranges of components exclude each other |
| C159 | `Boxes/Contain` | nearest points between bounds; corners as witnesses |
| C160 | `Boxes/Tiles`, `Boxes/Union` | Lebesgue measure: separate boxes of full measure leave an open null set; measures on a grid are multiples |
| C161 | `MgNodes/Pick`, `MgNodes/Levels`, `MgNodes/Parse` | invariant of the levels: gaps at most 6m/D, second node in the first part, enough nodes beyond each check node |
| C162 | `Integrals/Sums` | sums over ranks are sums over all elements; the code pointwise is the triple product |
| C163 | `Integrals/Quad` | change of variables of a primitive; Fubini for finite sums |
| C164 | `Integrals/Cfl` | maximum of a list; merging dictionaries with different keys |
| C165 | `Integrals/Vtk` | invariant of the table of points; induction over the cells |
| C166 | `Monitor/Save` | induction over the iterations, with the last one saved as invariant |
| C167 | `Monitor/Report` | floors of multiples of a step above one; positions of a filtered list |
| C168 | `Monitor/Timer` | strings as lists of characters: digits, padding and splitting |
| C169 | `Split/Numbers` | names and tuples of nodes determine the corners; numbers by order of appearance |
| C170 | `Split/Plane` | averages do not depend on the order; induction over the splits |
| C171 | `Split/Plane`, `Split/Tqr` | polynomial identities; chain rule |
| C172 | `Split/Plane` | counts of sides, transported by the numbering |
| C173 | `Split/Numbers` | induction over the levels with the dictionary of levels as invariant |
| C174 | `Split/Space`, `Split/Octants` | case analysis of the eight octants |
| C175 | `Split/Tqr` | the same rules with another numbering |
| C176 | `Slice/Props` | the loops in closed form; division with remainder |
| C177 | `Slice/Props` | numbers in mixed radix are determined by the indices modulo the numbers of elements |
| C178 | `Slice/Props`, `Slice/Faces` | congruences axis by axis |
| C179 | `Slice/Faces` | with the theorems on neighbours and boundary faces of `Great` |
| C180 | `Ranking/Props`, `Ranking/Witness` | the text is read back; insertion in order; induction over the tests |
| C181 | `Ranking/Props`, `Ranking/Witness` | the text line by line |
| C182 | `Lines/Meet` | linear algebra in the plane |
| C183 | `Lines/On` | the first line that has the point; with the geometry of `Sections` |
| C184 | `MeshPy/Props`, `MeshPy/Witness` | invariant of the numbering; the law of cosines |
| C185 | `Rename/Props`, `Rename/Witness` | induction over the listing |
| C186 | `Memo/Props`, `Memo/Keys`, `Memo/Witness` | invariant over histories of calls; when printed arguments and keys are equal |
| C187 | `Accepts/Props`, `Accepts/Witness` | decision logic stated outright |
| C188 | `FaceDofs/Props`, `FaceDofs/Comp`, `FaceDofs/Witness` | arithmetic of the numbering; state for views |
| C189 | `FaceDofs/Comp`, `FaceDofs/Witness` | invariant of the loops |
| C190 | `Degree/Props`, `Degree/Witness` | decision logic; differences of nodes |
| C191 | `Derived/Props`, `Derived/Witness` | induction over nested forms |
| C192 | `Derived/Props`, `Derived/Witness` | places of a dof in the gathering matrix of `Chaining` |
| C193 | `Derived/Props`, `Derived/Witness` | induction over regions; counting |
| C194 | `Regions/Props`, `Regions/Witness` | determinant at the middle of two points as a mean of areas at the corners |
| C195 | `Regions/Props`, `Regions/Witness` | induction over elements and places |
| C196 | `Regions/Props`, `Regions/Witness` | rank and kernel |
| C197 | `Folder/Props`, `Folder/Witness` | induction over paths |
| C198 | `Folder/Props`, `Folder/Witness` | by C197 for any order of names |
| C199 | `Folder/Props`, `Folder/Witness` | invariant over histories |
| C200 | `Wrapped/Props`, `Wrapped/Witness` | induction over pairs; counting |
| C201 | `Wrapped/Props`, `Wrapped/Witness` | decision logic |
| C202 | `SideFaces/Props`, `SideFaces/Witness` | induction over regions, sides and axes |
| C203 | `SideFaces/Props`, `SideFaces/Witness` | invariant over histories |
| C204 | `Apply/Props`, `Apply/Witness` | induction over the registry, two passes |
| C205 | `Apply/Props`, `Apply/Witness` | induction over names |

Nothing in the list is considered inexpressible.

## Axioms

`#print axioms` was run over all theorems named in `MANIFEST.json`: each depends on a subset of
`propext`, `Classical.choice`, `Quot.sound`.  `decide` and `decide +kernel` are evaluated by the kernel.
There is no `sorry`, `admit`, `axiom`, `native_decide`, `bv_decide`, `implemented_by`, `unsafe` or
`extern` in the sources.

## What is modelled and what is not

| area | modelled (files in `/repo`) | left out |
|------|------------------------------|----------|
| `Expr`, `LinRepr`, `WeakForm`, `TimeDisc`, `MatrixProxy` | reading of equation texts (`src/pde.py`, `src/wf/main.py`), texts of forms and operators (`src/form/`), rewriting of weak formulations (`src/wf/derive.py`, `src/wf/main.py`, `src/wf/term/`), time discretisation (`src/wf/td.py`, `src/ode/`), matrix proxies and linear systems (`src/wf/mp/`, `src/algebra/`) | LaTeX symbols and pictures, the general examiners of `src/wf/term/pattern.py` beyond the patterns named in C05–C07 |
| `Spaces`, `Registry` | operators on spaces (`src/spaces/`), `src/bc.py`, unknowns of `pde` and `wf` | plotting of spaces, manifolds' text representations |
| `TimeSeq` | `src/time_sequence.py` | printing |
| `Numbering`, `Incidence`, `LocalDofs`, `Mesh`, `Gathering`, `Poly`, `Mass` | the `msepy/space/*` dispatchers, `msepy/mesh/elements/`, `msepy/tools/polynomials.py`, `msehtt/static/space/mass_matrix/` | error norms, plots, sparse storage formats (entries are functions) |
| `PoolGM` | numbering on unstructured msehtt meshes, `GM_m2n2k*.py`, `GM_m3n3k*.py` where stated | partitioning of meshes over ranks |
| `Great` | element map, neighbours, boundary faces, distribution, dof reversal and periodic faces of msehtt great meshes, `mesh/great/elements/main.py`, `mesh/great/main.py`, `config/vtu.py` where stated | curved faces in dof reversal, random test fields, visualisation |
| `Triangle` | forms on triangles of msehtt: local numbering, incidence, basis functions and reconstruction on the reference element (`etype` 5) | the mapping of the reference square to the triangle (in `Geometry`) |
| `Reversal` | reversal of edge dofs in incidence matrices, basis functions, reduction and mass matrices; keys and caches of incidence matrices | the trilinear terms and their caches |
| `Chaining`, `Assembly`, `Customize`, `OpCache`, `Precond`, `Newton`, `Cochain` | local and global matrices and vectors of `msepy/tools` and `msehtt/tools` | scipy and PETSc solvers, rounding, timing and printing |
| `Nonlinear` | multilinear terms and the linear systems of the Newton and Picard methods (`msehtt/tools/nonlinear_system/operator/local_multilinear.py`, `static/main.py`, `static/solve/`), with prescribed dofs | constraints on a single global dof in these methods, the wrappers of the nonlinear systems of `msepy` |
| `Funcs` | wrapper classes of functions of time and space in 2d and 3d, numerical derivatives, checks of given derivatives, the time integral (`tools/functions/time_space/_2d/`, `_3d/`, `tools/numerical/`) | functions of one space dimension, broadcasting over arrays (functions are evaluated point by point), rounding |
| `Krylov` | the iterative solvers `gmres` and `lgmres` with their processes, arrays and stop criterion (`msehtt/tools/linear_system/static/global_/solvers/mpi_py.py`) | rounding (numbers are real; a division by zero ends the run), messages, times, the cache of residuals for plots, the change of the caller's initial guess in place, `scipy_.py` and `pypardiso_.py` |
| `MgSolver` | the multigrid solvers (`msehtt/multigrid/tools/linear_system/static/solvers/multigrid.py`, `direct.py`): steps, their record, cleaning, start, end, choice of solver and turns, for `p` processes | lengths of vectors, splitting and merging of unknowns, the transfers (`pass_.py`) and solvers as such (parameters), messages, times of forms |
| `DynSys` | dynamic linear systems of msehtt: making (`_parse_matrix_block`, `_parse_vector_block`, terms, root arrays), configuring and evaluating (`__call__`), customisation by essential conditions, with aliasing of cached matrices | what mass and incidence matrices, boundary integrals and prescribed dofs are (given functions, see the areas on them); nonlinear arrays as opaque time-dependent matrices and vectors; time indicators and printing; cache keys beyond those of `OpCache`; matrices read at elements outside the mesh |
| `Params` | `src/form/parameters.py` | rounding of floats, `inf`, `nan`, `bool`; symbolic representations of compound scalars |
| `Trf` | triangular refining of msehtt meshes: `_parse_trf`, `TRF`, the levels, element map, pairs, boundary faces and the cache of `mesh/great/config/msehtt_trf.py`, shapes and mappings of the triangles | base cells that are no quadrilaterals; how the base mesh is made; the refining function is an arbitrary function (partial: it may raise); rounding of the coordinates in the keys of vertices; the older `msepy_trf.py` beyond its parser |
| `Reduce` | reduction of functions on lines, quadrilaterals and hexahedra (`msehtt/static/space/reduce/Lambda/Rd_*.py`, `msepy/space/reduce/Lambda.py`), element by element; region-wise functions (`msepy/form/cf.py`) | rounding; the points and weights of the Gauss rules (rules are arbitrary); caches of quadrature data; bundle-valued forms; traces of forms on boundaries |
| `Norms` | norms, masses, errors, inner products and residuals of forms (`msehtt/static/space/{norm,mass,error,inner_product}`, `msehtt/static/form/{main.py:522-653,addons/static.py:82-215}`, `msepy/space/{norm,error}/Lambda.py`, `msepy/form/main.py:405-447`) | rounding; Gauss points and weights (rules are arbitrary); norms on triangles (errors and masses are covered); bundle-valued forms; that charts are right is C74-C77 |
| `Boundary` | boundary integrals with a given function in the plane and the flux over a boundary section (`msehtt/static/form/bi/vc/Lambda/{bi_vc_m2n2k0,bi_vc_m2n2k1}.py`, `msehtt/static/form/addons/static.py:118-165`) | rounding; elements with reversed faces; boundary integrals in space; the caches; the choice of the function by the space and the checks of the arguments |
| `Metric`, `Geometry` | `msepy/mesh/coordinate_transformation.py`, `msepy/manifold/predefined/`, `tools/functions/space/_2d/`, element types of msehtt | vtk/gmsh readers, floating point trigonometry |
| `Iterator`, `ArrayCache`, `Multigrid`, `Tools` | `tools/iterator/main.py`, `tools/miscellaneous/`, `tools/frozen.py`, `msehtt/tools/.../multigrid`, graph, `delete_from_csr` | e-mails, plots, progress output |

Not modelled at all: plotting and LaTeX output, floating point rounding of linear algebra,
scipy/PETSc solvers, vtk and gmsh files, data file formats other than the iterator's cache.

## Where the code disagrees with a property

Every entry is proved on a concrete witness of the model (theorem ending in `_refuted`) unless it is marked
"read", in which case it was only noticed while reading.

* **Expressions** (C01): `a - -b` and `a - +b` are read with another meaning; `-0` is refused.
* **Texts of forms** (C10, C12): `a-(b-c)` and `(a-b)-c` share a text; the output space of projections is not part of
  the text; compound scalars are not bracketed; replacing an operand by a compound form gives a wrong text.
* **Weak formulations** (C04, C05): `split` loses the factor of the term; commuting a restricted duality pairing
  loses the restriction; merging and `td()` lose unknowns (C07).
* **Time discretisation** (C07): differentiating drops the factor and discards an earlier average.
* **Linear systems** (C09): the vector may be another target vector than the unknowns; read: `A.T.T` fails.
* **Spaces** (C13): looked up by a symbol that does not distinguish inner from unknown orientation.
* **Time sequences** (C15), **unknowns** (C16): a failing query advances the sequence; unknowns of a pde are
  replaced silently.
* **Gathering matrices** (C23, C24): an element that is its own neighbour copies uninitialised entries;
  the boundary test of 3d 2-forms never fires.
* **Chaining** (C25, C28, C51, C64, C65): element-by-element chaining is wrong for out-of-order numberings; look-up by
  global dof mixes up (rank, element) with (element, index); the chain cache is keyed by addresses; equality
  broadcasts.
* **Assembly** (C30, C66): fancy-index accumulation counts a repeated dof once; the threshold changes local
  matrices in place.
* **Customisation** (C31, C32, C34, C36, C37, C60, C68): right hand sides lost for repeated dofs; boundary conditions
  after `set_dof` ignored; shared blocks and arrays changed together; repeated rows or columns drop entries;
  negative element numbers wrap.
* **Derived matrices** (C35, C70, C71): stale or shared data for customised operands; joined cache keys collide.
* **Preconditioning** (C39): essential rows are judged per rank.
* **Array cache** (C41): `allclose` keys confuse 100000 with 100001.
* **Cochains** (C44, C45): interpolation beyond the first segment; `newest` after cleaning the newest cochain.
* **Basis functions** (C46): cached under nodes rounded to five decimals.
* **Local dofs** (C48): 1-forms in 3d get the edges perpendicular to the face.
* **Unstructured numbering** (C49, C50): unequal degrees are broadcast.  On periodic meshes (C80), two layers of
  quadrilaterals or one of hexahedra confuse edges with the same nodes; the code only prints a warning.
* **Great meshes** (C81–C85): a face with more than two positions on it is reported as boundary, and with two periodic
  layers side faces are taken for neighbours; an element listed twice loses its boundary faces; 81 elements of a
  structured mesh cannot be distributed to 20 ranks, and an unstructured mesh never to five or more ranks with fewer
  than four elements each; on periodic meshes inner dofs on faces along (1, 2) and outer ones along (2, -1) are
  not compared; a periodic face without element on the first rank is not recognised.
* **Triangles** (C86): the inner gradient and rotation are allocated with the wrong number of edges when the two degrees
  differ: an index error for the greater degree first, superfluous zero rows or columns otherwise.
* **Cache keys** (C88): triangles and quadrilaterals of one degree share the key of their inner 1-form incidence matrix, so
  on mixed meshes one is read for the other.
* **Reconstruction in space** (C93): a local cochain that is too long is taken by `reconstruct` of 1- and 2-forms in 3d, as the third
  component is read from its end (`recon31_long_refuted`).
* **Trilinear data on adaptive meshes** (C91, read, not modelled): the module caches of `T_ABC`, `AB_ip_dC`, `AdB_ip_C` and
  `AdB_ip_dC` are not cleared on renewal (`msehtt/adaptive/main.py:355-357` clears three others); their keys contain the address of
  the space, so old arrays are found only if an address is used again.
* **Nonlinear systems** (C92): a term may have the same form twice, on both sides of the test form; the Newton method then fails,
  the Picard method leaves one of them out if the form has one dof.  Read: the Picard method reads the value of a
  constraint on a single global dof at (rank, element) instead of (element, index); a second `solve` with prescribed dofs fails.
* **Multigrid** (C53): an accepted W cycle leaves the layers.
* **Iterator** (C56, C57, C61, C62): repeated inputs, kills during the write, all-cached resumptions, rounded keys.
* **Graph** (C59): drawing a self loop fails.
* **Metric** (C72): an array that serves as two entries is scaled twice.
* **Geometry** (C73, C74, C76, C77): Jacobian rounded to eight decimals; the chaotic domain ignores its bounds;
  the 3d crazy mapping is inverted at the documented `c = 0.3`; normals of clockwise elements point inward;
  signatures shared by different elements.  Read: the cylinder channel documents a 3d variant which raises;
  `msepy` 1d face mappings always raise.
* **Mass matrices** (C78): msehtt leaves out the off-diagonal blocks on curvilinear hexahedra.  Read: the msepy cache
  ignores `high_accuracy`.
* **Functions of time and space** (C94, C96): the convection of 2d scalars and of 3d scalars and vectors is always
  refused (the class names in the assertions start with a small letter); `vector * scalar` raises although
  `scalar * vector` works; 3d vectors check their given derivatives at points with `x` in place of `z`, so wrong ones are
  accepted; a 3d vector linked to another object calls it without `z`.  Read: in the 3d convection a test for a
  missing derivative is inverted; the check of a z-derivative is relative to the given, not to the numerical one.
* **Iterative solvers** (C100): no test for the exact solution inside a turn: a system with fewer unknowns than `restart` (default 75)
  or whose Krylov vectors are dependent ends in a division by zero, in floating point numbers also by rounding errors; `restart = 1` raises
  an error.  Read: the initial guess given as a gathered vector is overwritten with the solution, and its essential dofs in the
  first seven calls of a session; with `maxiter = 0`, `info = 0` although nothing has converged (`gmres_result`).
* **Multigrid solvers** (C101 - C103): the residual `A x - b` is restricted and the correction computed from it is *added*: a two-grid cycle
  with an exact solver below doubles the error it should remove (the final iterative solution hides it).  With the default `x0=None`
  a scheme that begins with a restriction calls the iterative solver without its initial guess, a TypeError.  `atol` or `maxiter`
  without `inner_m`, `outer_k` or `restart` are refused, and so is `maxiter` as a string.
* **Dynamic systems** (C105 - C107): a block that consists of one mass matrix with sign + and factor 1 *is* the cached mass matrix;
  imposing an essential condition on it changes this matrix for good, in all blocks, right-hand sides and systems that use it.
  A natural condition of one form on several boundary sections contributes the integral over the last section only: the
  `break` ends the inner loop of the search, and there is one vector.
* **Constant scalars** (C108): sums of named scalars, and quotients of them, are refused as factors; `constant_scalar(0.5) + 1` raises as it
  reads the number from `\frac{1}{2}`; the value of a number can be set, which changes the factor of every term with this
  number (for 1 of nearly all terms), and set to an `int` makes them raise.
* **Triangular refining** (C110, C111, C113, C115): vertices on a side of two cells are identified by the position along the side in each
  cell, without regard to the direction in which the cell runs through it: from four levels on, next to a cell that runs the other
  way (possible with given element dictionaries and with predefined meshes whose region nodes are shifted), different points get
  the same number.  The boundary faces kept in a module variable survive a call that raises and are used for the
  next mesh, which gives hanging nodes or raises.  An integer `trf` above 1 raises for all predefined meshes: the refining function
  used for integers gives an array without dimension at a point, which is refused as a number.
* **Region-wise functions** (C118): for forms on a line and 0-forms msepy goes through the dictionary of functions and concatenates what it
  gets, so the rows of the cochain follow the order of the dictionary: `{1: g, 0: f}` is accepted and gives the values of the
  regions interchanged.  Read: the reduction of 0- and 2-forms refuses elements of the type 'unique curvilinear triangle' that
  the reduction of 1-forms accepts.
* **Norms and errors** (C119, C120, C121): the inner product of two 1-forms in the plane evaluates the Jacobian at the points with equal
  coordinates and multiplies every row with it: on an element with the mapping (2x + x^2/2, y) two forms with inner product 4/3 get
  0.  The component-wise norms in space do the same, return the squares of the norms, and raise on elements without constant Jacobian
  for degrees that differ between the directions.  The L^d norms and errors of msepy take powers without absolute values: for odd d
  the norm of -1 is negative (d = 1) or nan.  `norm_residual` of msepy compares times before they are rounded.
* **Boundary integrals of 0-forms** (C122): the vector of an element is assigned, not added, face by face. At a corner between two faces
  of the same element in the section the dof belongs to both of them, and the contribution of the face that comes first is lost: on the
  square with the field (1, 0) and the sides x = 1 and y = 1 the value at the corner is 0 instead of 1.
* **Faces on a line** (C124): a face is looked at in 13 equidistant points, so a face that oscillates between them is taken as lying on
  the line however far it leaves it. The test compares |d1 - d2| with the distance of the two given points with a relative tolerance of
  1e-9, which far from these points accepts faces at a distance of the order of 3e-5 times their distance: with the points (0, 0) and
  (1, 0) a straight face 50 units beside the line is accepted.
* **Polygons from union and intersection** (C124): `Polygon2.union` and `Polygon2.intersection` repeat the first vertex at the end, and
  testing a point that is on no edge against such a polygon fails, since the last edge has no length.
* **Configuring again** (C125): the great mesh is set before the request is looked at, so a mesh whose first request was refused can
  not be configured any more.
* **Dofs after a change of degree** (C126): the cache of `find_dofs` knows the form by its `__repr__`, which does not change when the
  degree does; the old dofs are returned.
* **Elements of near points** (C127): the cache knows a point by six digits, so a point can be told to be in an element it is not in.
* **Results without the end of their line** (C128): such a row is read as complete, the next result is written on the same line,
  and the line is then neither of them: both are computed again by the third process.
* **Crash before writing back** (C128): the file is opened with `'w'` before what was read is written again; a crash in between leaves
  an empty file, all results are lost and every later start fails with an `IndexError`.
* **Second call of a runner** (C128): the pool of computed inputs is kept between calls of `iterate`, the results are not; the
  second call has no results for inputs of the first one.
* **One output** (C130): the name is taken from the text of a tuple, `('d',)`, and read as `d,`.
* **Unknown orientation in the adaptive setting** (C131): a space of unknown orientation gets no generations, but `current_base` asks every
  space for its current one: `IndexError` in every `apply`.
* **Order of adaptive meshes** (C131): `initialize` raises if a mesh includes one that is configured after it.
* **Forms of different generations** (C131): reading a form saved with another stamp renews everything; forms read before that have
  no cochain any more.
* **Late conditions of adaptive systems** (C132): ignored without a message until the next renewal.
* **Addresses as keys** (C133): the caches of the local interpolation have `id()` of lists as keys which they do not keep alive; a mesh that
  changes, stays and changes can get the base cells of the first change.
* **Methods 1 and 2** (C133): method 1 returns `None`, and `'all same' in None` raises; method 2 uses functions that are not defined in its module.
* **`ts=0`** (C133): element indices are numbers or tuples and `___find_base_element_index___` fails.
* **`'all same'` without cochains** (C133): reported although the mesh changed.
* **Third Hall solution** (C134): `ManufacturedSolution_Hall_MHD3_3` has a velocity with the divergence
  `(cos x cos y - cos y cos z - cos x cos z) e^t`, although the equations are those of an incompressible fluid.
* **Loop advection** (C136): the velocity is computed with `arctan(Ly / Lx)`; it points away from the diagonal if `Lx < 0`.
* **Default function of `genpiecewise`** (C137): `np.broadcast_arrays` returns a tuple from numpy 2 on, and `condlist.append` raises.
* **`genpiecewise` with short conditions, integers or no conditions** (C137): the length of the result is that of the conditions; the fill value is
  converted to the type of the arrays; a default function alone gives one entry.
* **Regions of data at points** (C139): the docstring asks for the same keys in all dictionaries, but components may have further regions;
  `maximum` counts them and `L2_norm` raises `KeyError`. `np.allclose` is not symmetric, so that `a + b` may raise where `b + a` does not.
* **Norm of data at points** (C140): `L2_norm` divides the extent in every direction by `coo.shape[0]`; the square of the norm is wrong by the
  factor `m/n` for `n` times `m` points.
* **Stream functions** (C141): corners are compared by the text `'%.7f-%.7f'`, which shows a sign for tiny negative numbers, so that `-1e-12`
  and `0` differ; regions that share a side but no corner are not connected; `np.ones_like(x)` makes an array of integers from integer coordinates;
  a velocity with sources gives values that jump between regions.
* **Names in groups of data** (C142): `saveto` of a group leaves out the names of the variables; after reading they are `'0'`, `'1'`, ….
* **Vectors given to cochains** (C143): numberings are compared by the numbers of local dofs they both have; a vector of a form that has no dofs in
  an element is accepted by a form that has.
* **Value of a dof** (C145): `of_dof` gives the value of the first place that agrees with all to 1.5e-7, the global vector that of the last place.
* **Components of outer 1-forms** (C146): `components` uses the numbers of the inner form for both orientations.
* **Sums of cochains of different forms** (C147): `__add__` and `__sub__` of two cochains do not compare the forms or numberings.
* **Derivatives of forms with cochains** (C148): `f.d()` keeps a method of the cochain objects of `f`; it changes when they are changed in place and
  does not when `f` is given new ones. `c * v` and `-v` are computed when read, `v + w` at once. `f[t].cochain += v` changes the cochain and then raises
  `NotImplementedError` in the setter.
* **Corners at zero** (C150): as for stream functions, the text of a tiny negative number has a sign.
* **Three passes** (C151): `_parse_pbc` goes through the pairs three times; chains of links that are longer, in adverse order, give different numbers for
  one corner. A fan of six squares shows it.
* **Sides known by their ends** (C152): `___parse_2d_element_map___` names a place on a side by the two end labels; two regions that are periodic in
  one direction have bottoms with the same two ends, and places on them are identified.
* **Layouts that do not match** (C152): nothing compares the layouts of regions that share a side; lines closer than 1e-7 are merged.
* **Keys of points at zero** (C153): `"p%.6f" % round(x, 8)` has a sign for tiny negative numbers, so a point that `==` another is in another group and is
  not found; the correspondence becomes incomplete and the passing a projection.
* **First places** (C153): groups are made with the first geometry of each dof. With periodic sides a dof has several, and their order follows that of the elements
  (levels above 0 are renumbered).
* **Ranks without elements** (C155): an empty dictionary counts as "empty", so that such a rank takes another branch than the others.
* **Same space** (C155): both ways of passing raise `NotImplementedError` for forms in the same space.
* **Bounds of boxes** (C158, C159, C160): `OrthogonalHexahedron` sets `_bounds0 = [x0, x0 + dy]`. Containment, volume and the union test use the bounds, so on meshes whose cells are
  not square in x and y, 3-forms are passed between levels with wrong correspondences: a box of 2 by 1 by 1 is taken for a union of its first half.
* **Tolerances of measures** (C160): areas and volumes are compared with an absolute tolerance of 1e-7, while sides down to 1e-4 are accepted: a box of side 0.004 is a union of the empty list.
* **Signs of lengths** (C160): `OrthogonalSegment3.length` keeps its sign although the bounds are sorted; dofs always have positive lengths.
* **Cells of quadrilaterals** (C158): `_find_geo_local_dof_m2n2k2_` accepts `etype` 9, a general quadrilateral, but maps only two opposite corners and completes them to a rectangle along the axes.
- **C163**: `elements.compute.integrate` has a branch for meshes of space, but only accepts functions of the plane and time, which it then calls with
  three coordinates: it fails on each element (`integrate_space_refuted`).
- **C164**: the CFL number is computed from velocities at the middles of 32 intervals in each direction; a velocity that is largest at the border of
  the element, as for velocities that grow linearly, is larger than the number says (`cfl_border_refuted`).
- **C165**: points are identified by their coordinates written with seven digits, and negative numbers that round to zero are written as
  `-0.0000000`: corners `(1e-16, y)` and `(-1e-16, y)` become two points, and the cells are not connected (`vtk_sign_refuted`).
- **C166**: if both attempts to write fail, the time of the last save is set all the same and nothing is tried until the period has passed again
  (`autosave_failed_refuted`). `to_csv` replaces the file in place: a crash while it writes leaves fewer rows than were there before
  (`crash_in_save_refuted`). `run` over an empty range computes nothing and then fails in the report with a division by zero (`run_empty_refuted`).
- **C168**: `seconds2dhmsm` of a negative time counts the fraction twice: `-0.5` is read back as `-1.5` (`dhmsm_negative_refuted`).
- **C169**: indices become texts when an element is split: of two elements with the indices `1` and `'1'` one loses its new elements
  (`names_refuted`).
- **C172**: the middle of a side is named by the two ends of the side: in a periodic strip that is two elements long, two different sides have
  the same ends, hence one middle (`periodic_refuted`).
- **C178**: a periodic slice with one element along two of the axes is accepted, and faces across these axes have the same nodes in the same
  order, hence share their dofs (`one_column_refuted`).
- **C179**: with the default of two levels four side faces have the same set of nodes, and the table of neighbours says "boundary" there
  (`default_levels_refuted`).
- **C180**: a machine that has once dropped out of the file of a ranking does not come back when a machine in it gets slower (`best_refuted`);
  if two machines are tested at the same time, the one that reports first is lost (`shared_refuted`).
- **C181**: `print_ranking` drops the last character of each line, which for the last line is a digit of the cost (`printed_refuted`).
- **C183**: for arrays of integers `scalar_on_lines` and `vector_on_lines` cut off what is after the point (`integers_refuted`).
- **C184**: a triangle with an area, two corners of which agree in nine digits after the point, becomes an element with a node twice
  (`collapsed_refuted`); points with coordinates 0 and -1e-10 are two nodes, as `-0.000000000` has a sign (`minus_zero_refuted`).
- **C185**: a folder with `a.txt` and `f_1.txt` that is listed in this order: with the prefix `f`, `a.txt` replaces `f_1.txt`, whose content is lost
  (`keeps_refuted`).
- **C186**: `memoize1` gives the value of one array with more than a thousand entries for another one that differs in the middle (`memo1_refuted`);
  `memoize2` gives the value for 1 when it is called with `True` (`memo2_refuted`), and the value before an object was changed (`fresh2_refuted`).
- **C187**: `shape=(4,x)` accepts three axes (`more_refuted`), `shape=(4,x,...)` one (`fewer_refuted`), `ndim` after `shape` is ignored
  (`dims_refuted`), and keyword arguments are never checked (`keyword_refuted`).
- **C188**: `component_wise=True` subtracts in place from a view of the numbering that is kept, so that the dofs on y- are afterwards given as those of faces
  across x (`kept_refuted`); on z- and z+ the number of faces across x is subtracted twice and the numbers are negative (`inside_refuted`).
- **C189**: `LDofs_m3n3k0.py` takes `nodes[k]`, an array, for the third coordinate instead of `nodes2[k]` (`places3_refuted`), and raises an error from
  degree three on (`places3_raises`).
- **C190**: 3.0 is a degree, but (3.0, 3.0) is refused (`uniform_refuted`).
- **C194**: four points that are not in convex position are accepted, and the region folds (`quad_refuted`).
- **C196**: for matrices with more columns than rows, `num_singularities` is less than the number of singular modes (`singular_refuted`).
- **C198**: `empty_dir` on a folder with a folder in it raises an error after it has removed the files listed before (`atomic_refuted`).
- **C203**: a negative number of a face is refused unless this face was read before (`item_refuted`).
