{"id": "C01", "title": "Equation strings mean what they say", "statement": "When an equation string such as 'a + b - c = d' is given to ph.pde (or to a weak formulation), the object stores signed left terms and signed right terms. Evaluating (sum of signed left terms) minus (sum of signed right terms) gives the same number as evaluating the text with ordinary arithmetic, left side minus right side, and no term is lost, duplicated or given another sign.", "quantifier": "every expression string over +, -, = and term names, and every assignment of values to the names", "why_tests_cant": "there are infinitely many strings (unary minus, repeated signs, zeros, empty sides); examples only visit a few", "anchors": ["src/pde.py:PartialDifferentialEquations._parse_expression", "src/wf/main.py:WeakFormulation._parse_expression"]}
{"id": "C02", "title": "Rearranging an equation keeps the equation", "statement": "wf.derive.rearrange moves terms between the two sides of chosen equations. For every accepted pattern, each equation keeps exactly its terms and the value of left minus right is unchanged; equations that are not mentioned are untouched; an invalid pattern is rejected.", "quantifier": "every weak formulation, every rearrangement pattern, every valuation of the terms", "why_tests_cant": "patterns are arbitrary index lists with implicit completion of the empty side; tests exercise a few of them", "anchors": ["src/wf/derive.py:WfDerive.rearrange", "src/wf/derive.py:WfDerive._switch_sign"]}
{"id": "C03", "title": "Replacing, deleting or sign switching a term changes the equation by exactly that", "statement": "wf.derive.replace(i, new_terms, signs) changes left-minus-right of the addressed equation by exactly (value of new signed terms, multiplied by the sign of the replaced term) minus (the replaced signed term), on the side where the term was, and nothing else changes; delete is the case of no new terms; switch_sign negates left-minus-right of the chosen equations only.", "quantifier": "every weak formulation, every index, every list of new terms and signs, every valuation", "why_tests_cant": "must hold for all positions, both sides, both signs and any number of new terms", "anchors": ["src/wf/derive.py:WfDerive.replace", "src/wf/derive.py:WfDerive._parse_new_weak_formulation_dict", "src/wf/derive.py:WfDerive.delete", "src/wf/derive.py:WfDerive.switch_sign", "src/wf/main.py:WeakFormulation._parse_index"]}
{"id": "C04", "title": "Splitting a term preserves its value", "statement": "wf.derive.split(i, 'f0'|'f1', components, signs, factors) replaces c*(f, g) by a sum of terms whose value equals c*(f, g) whenever f equals the signed and weighted sum of the components.", "quantifier": "every term with any constant factor, any number of components, signs and factors, every valuation", "why_tests_cant": "the factor of the original term is arbitrary; tests use factor one", "anchors": ["src/wf/term/main.py:_WeakFormulationTerm.split", "src/wf/derive.py:WfDerive.split"]}
{"id": "C05", "title": "Reordering a triple product keeps its value", "statement": "wf.derive.commutation_wrt_inner_and_x rewrites (A x B, C) or (A, B x C), inner product or duality pairing, into the requested order of the three factors with a sign, such that the signed value is unchanged for every alternating trilinear triple product.", "quantifier": "all six orders of the factors, both layouts, every alternating trilinear map over every field", "why_tests_cant": "the claim is about all alternating maps, not about one vector field", "anchors": ["src/wf/term/main.py:L2InnerProductTerm._commutation_wrt_inner_and_x", "src/wf/term/main.py:DualityPairingTerm._commutation_wrt_inner_and_x"]}
{"id": "C06", "title": "Integration by parts and the duality switch are exact rewrites", "statement": "wf.derive.integration_by_parts turns c*(d* a, v) into c*(a, d v) minus the boundary pairing (dropped only for periodic meshes or on request) with the same factor c, and switch_to_duality_pairing turns (star A, B) into <A|B>; given the Green identity and the definition of the duality pairing the value of the equation is unchanged.", "quantifier": "every factor, every bilinear form satisfying the identities, every equation the term occurs in", "why_tests_cant": "must hold for all factors, meshes and valuations", "anchors": ["src/wf/term/main.py:L2InnerProductTerm._integration_by_parts", "src/wf/term/main.py:L2InnerProductTerm._switch_to_duality_pairing"]}
{"id": "C07", "title": "Temporal discretisation keeps sides, signs and factors", "statement": "Discretising an equation with td.differentiate / td.average and calling td() replaces c*(partial_t u, v) by c*((u_k - u_{k-1})/dt, v) and every other term by the average of its values at the requested instants; sides, signs, factors, order of equations and untouched terms are preserved.", "quantifier": "every system of equations, every choice of time nodes, every factor and valuation", "why_tests_cant": "the set of equations, factors and averaging instants is unbounded", "anchors": ["src/ode/discretize.py:OrdinaryDifferentialEquationDiscretize.differentiate", "src/ode/discretize.py:OrdinaryDifferentialEquationDiscretize.average", "src/ode/discretize.py:OrdinaryDifferentialEquationDiscretize.__call__", "src/wf/td.py:TemporalDiscretization.__call__"]}
{"id": "C08", "title": "Block matrices represent the weak formulation", "statement": "After wf.mp() any sequence of mp.parse(vectors) calls moves terms into block matrices without changing the value of any row: (block matrix times vectors) plus remaining terms on each side equals the original signed terms; no term is lost or counted twice, whatever the order of the calls.", "quantifier": "every matrix proxy, every sequence of target lists, every valuation", "why_tests_cant": "the sequence of parse calls is an arbitrary history", "anchors": ["src/wf/mp/main.py:MatrixProxy.parse", "src/wf/mp/main.py:MatrixProxy._test_vector_remover", "src/algebra/linear_system.py:BlockMatrix", "src/algebra/linear_system.py:BlockColVector"]}
{"id": "C09", "title": "The linear system is the weak formulation", "statement": "When mp.ls() succeeds, x solves A x = b if and only if every row of the matrix proxy holds; it refuses when terms on the left are not collected.", "quantifier": "every matrix proxy accepted by ls(), every valuation", "why_tests_cant": "quantifies over all valuations and all block structures", "anchors": ["src/wf/mp/main.py:MatrixProxy._parse_ls", "src/wf/mp/main.py:MatrixProxy.ls", "src/algebra/linear_system.py:LinearSystem"]}
{"id": "C10", "title": "Forms are identified by their linguistic representation", "statement": "Two forms built with the public operators and having the same linguistic representation denote the same expression, because phyem looks forms up and compares them by that string.", "quantifier": "every pair of expressions built from root forms by the operators", "why_tests_cant": "the set of expressions is infinite; a collision needs a specific pair", "anchors": ["src/form/operators.py", "src/form/main.py:Form.__add__", "src/form/main.py:Form.__sub__", "src/form/others.py:_find_form", "src/config.py:_parse_lin_repr"]}
{"id": "C11", "title": "elementary_forms are exactly the root forms that occur", "statement": "f.elementary_forms returns a root form r if and only if r occurs in the expression that built f, for every naming of root forms accepted by the library.", "quantifier": "every expression and every set of registered root names", "why_tests_cant": "names that are substrings of each other are unbounded in number", "anchors": ["src/form/main.py:Form.elementary_forms", "src/config.py:_parse_lin_repr"]}
{"id": "C12", "title": "Substitution in forms is simultaneous textual substitution of whole operands", "statement": "form.replace(old, by) denotes the expression with old replaced by by: evaluating the result equals evaluating the original with old bound to the value of by.", "quantifier": "every expression, every root form, every replacement expression", "why_tests_cant": "operator precedence after substitution depends on the shape of both expressions", "anchors": ["src/form/main.py:Form.replace"]}
{"id": "C13", "title": "Degree and orientation calculus of operators", "statement": "Exterior derivative, codifferential, Hodge star, trace and wedge return spaces whose degree and orientation follow exterior calculus: d raises and d* lowers the degree by one or is refused, star maps k to n-k with the opposite orientation and is an involution, wedge adds degrees and is refused beyond n, and star d star has the same space as d*.", "quantifier": "every space dimension n, degree k and orientation", "why_tests_cant": "dimension and degree are arbitrary", "anchors": ["src/spaces/operators.py"]}
{"id": "C14", "title": "Constant time sequences", "statement": "For a constant time sequence, instant k is at t0 + k*dt, strictly increasing in k, admissible instants are exactly the multiples of 1/factor (to the eight decimals instants are compared with) from one step before the start to one step after the end, and intervals have positive length; out-of-window or non-multiple instants are rejected.", "quantifier": "every t0, t_max, n, factor and every queried instant", "why_tests_cant": "parameters range over all reals/rationals", "anchors": ["src/time_sequence.py:ConstantTimeSequence"]}
{"id": "C15", "title": "Function-defined time sequences are stable under the query history", "statement": "Looking an instant up never changes the time returned for any instant that could be looked up before, times are strictly increasing, and a lookup that raises leaves the sequence unchanged.", "quantifier": "every step-size function and every history of lookups, including failing ones", "why_tests_cant": "depends on the whole history of queries", "anchors": ["src/time_sequence.py:FunctionTimeSequence"]}
{"id": "C16", "title": "Unknowns are fixed once chosen", "statement": "After pde.unknowns (respectively wf.unknowns) has been set, it cannot be silently changed: a second assignment raises and the first choice stays in force.", "quantifier": "every history of assignments", "why_tests_cant": "statement about all histories of calls", "anchors": ["src/pde.py:PartialDifferentialEquations.unknowns", "src/wf/main.py:WeakFormulation.unknowns"]}
{"id": "C17", "title": "Boundary conditions accumulate", "statement": "define_bc records, for every boundary section, exactly the conditions given over all calls, in the order of the calls, and never drops, merges or moves a condition to another section.", "quantifier": "every history of define_bc calls", "why_tests_cant": "history property", "anchors": ["src/bc.py:BoundaryCondition.define_bc"]}
{"id": "C18", "title": "Incidence matrices form a complex", "statement": "On every element the incidence matrices satisfy d(d(.)) = 0: curl of grad and div of curl vanish in 3d, rot of grad in 2d inner, div of rot in 2d outer.", "quantifier": "every polynomial degree in every direction (no bound), both orientations", "why_tests_cant": "degrees are unbounded; tests check a handful of degrees", "anchors": ["msepy/space/incidence_matrix/Lambda.py"]}
{"id": "C19", "title": "Incidence matrices are exact difference operators", "statement": "Applying the incidence matrix to the cochain of a form gives, on every local edge, face or cell, the oriented sum of the values on its boundary (discrete Stokes), every row has entries in {-1,0,1}, and constants are annihilated by the gradient; the kernel of the gradient is exactly the constants.", "quantifier": "all degrees and all cochains", "why_tests_cant": "degrees and cochains are unbounded", "anchors": ["msepy/space/incidence_matrix/Lambda.py", "msepy/space/local_numbering/Lambda.py"]}
{"id": "C20", "title": "Local numbering is a bijection", "statement": "The local numbering of every space assigns to every local degree of freedom a distinct number and uses exactly 0..num_local_dofs-1, component blocks in the documented order.", "quantifier": "all degrees, dimensions and k, both orientations", "why_tests_cant": "degrees are unbounded", "anchors": ["msepy/space/local_numbering/Lambda.py", "msepy/space/num_local_dofs/Lambda.py", "msepy/space/num_local_dof_components/Lambda.py"]}
{"id": "C21", "title": "Element numbering is invertible", "statement": "The mesh numbers elements region after region, axis-0 fastest; element number to (region, indices) and back are mutually inverse and the numbers are exactly 0..num_elements-1.", "quantifier": "every list of regions and every layout in any number of dimensions", "why_tests_cant": "layouts are unbounded", "anchors": ["msepy/mesh/elements/main.py:_generate_element_numbering_from_layout", "msepy/mesh/elements/main.py:_find_region_and_local_indices_of_element"]}
{"id": "C22", "title": "The element map is a symmetric neighbour relation", "statement": "Element e has f as its neighbour across its plus side of an axis if and only if f has e across its minus side of that axis, including through region interfaces and periodic boundaries; sides on the domain boundary have no neighbour.", "quantifier": "every layout and every region map that is itself symmetric", "why_tests_cant": "layouts and region graphs are unbounded", "anchors": ["msepy/mesh/elements/main.py:_generate_element_map_for_structured_regions", "msepy/mesh/elements/main.py:_find_on_layer"]}
{"id": "C23", "title": "Global numbering in 1d: shared nodes and only shared nodes coincide", "statement": "The 0-form gathering matrix of a 1d mesh gives two local dofs the same global number if and only if they sit at the same node (neighbouring element ends), and numbers are exactly 0..num_dofs-1.", "quantifier": "every number of elements, degree, with or without periodicity", "why_tests_cant": "sizes are unbounded", "anchors": ["msepy/space/gathering_matrix/Lambda.py:MsePyGatheringMatrixLambda._m1_n1_k0"]}
{"id": "C24", "title": "Global numbering in 2d and 3d: face dofs", "statement": "The gathering matrix of the face (flux) dofs gives two local dofs the same global number exactly when they are the same geometric dof of a shared face, in 2d (1-forms) and 3d (2-forms).", "quantifier": "every mesh and degree", "why_tests_cant": "meshes and degrees are unbounded", "anchors": ["msepy/space/gathering_matrix/Lambda.py:MsePyGatheringMatrixLambda._m2_n2_k1_outer", "msepy/space/gathering_matrix/Lambda.py:MsePyGatheringMatrixLambda._m3_n3_k2"]}
{"id": "C25", "title": "Chaining gathering matrices (msepy)", "statement": "Concatenating gathering matrices of several unknowns gives a numbering in which dofs coincide if and only if they belong to the same unknown and coincide there, and uses exactly 0..sum(num_dofs)-1.", "quantifier": "every list of gathering matrices (both chaining methods)", "why_tests_cant": "matrices are arbitrary", "anchors": ["msepy/tools/gathering_matrix.py:RegularGatheringMatrix.__init__"]}
{"id": "C26", "title": "Chaining gathering matrices across ranks (msehtt)", "statement": "The chained numbering is independent of nothing but the gathering matrices and the order of ranks: same unknown and same dof get the same number on all ranks, different ones get different numbers, numbers are contiguous, and chaining already chained matrices gives the same numbering as chaining them flat.", "quantifier": "every number of ranks, every distribution of elements, every list of gathering matrices", "why_tests_cant": "parallel distributions are unbounded", "anchors": ["msehtt/tools/gathering_matrix.py:___msehtt_gm_chaining_method_0___", "msehtt/tools/gathering_matrix.py:MseHttGatheringMatrix"]}
{"id": "C27", "title": "Split and merge of gathered vectors are inverse", "statement": "Splitting a global vector of a chained system into its components and merging the components gives the vector back, and the component of unknown i at one of its dofs is the value of the global vector at the chained number of that dof.", "quantifier": "every chained gathering matrix and every vector", "why_tests_cant": "unbounded vectors and matrices", "anchors": ["msehtt/tools/gathering_matrix.py:MseHttGatheringMatrix.split", "msehtt/tools/gathering_matrix.py:MseHttGatheringMatrix.assemble", "msehtt/tools/vector/static/global_gathered.py:MseHttGlobalVectorGathered.split"]}
{"id": "C28", "title": "Looking up where a global dof lives", "statement": "gm.find... returns, for a global dof, exactly the (element, local index) pairs holding it, whatever was looked up before, and the position of the j-th dof of the i-th unknown in the chained system is the chained number of that dof.", "quantifier": "every gathering matrix, every dof, every history of lookups", "why_tests_cant": "history and size are unbounded", "anchors": ["msepy/tools/gathering_matrix.py:RegularGatheringMatrix._find_elements_and_local_indices_of_dofs", "msehtt/tools/gathering_matrix.py:MseHttGatheringMatrix.find_rank_locations_of_global_dofs", "msehtt/tools/gathering_matrix.py:MseHttGatheringMatrix.find_global_numbering_of_ith_composition_global_dof"]}
{"id": "C29", "title": "Matrix assembly is the sum of local contributions", "statement": "Entry (i, j) of the assembled matrix is the sum over elements and local positions numbered (i, j) of the local entries; for csc and csr local storage; assembling is linear and compatible with the local matrix operators.", "quantifier": "every mesh, gathering matrices and local matrices", "why_tests_cant": "unbounded", "anchors": ["msepy/tools/matrix/static/local.py:MsePyStaticLocalMatrixAssemble", "msehtt/tools/matrix/static/local.py:MseHttStaticLocalMatrixAssemble.__call__"]}
{"id": "C30", "title": "Vector assembly is the sum of local contributions", "statement": "Entry i of the assembled vector is the sum over elements and local positions numbered i of the local entries, consistently with matrix assembly.", "quantifier": "every gathering matrix and local vectors", "why_tests_cant": "elements in which one global dof occurs twice are rare in tests", "anchors": ["msepy/tools/vector/static/local.py:MsePyStaticLocalVectorAssemble", "msehtt/tools/vector/static/local.py:MseHttStaticLocalVectorAssemble.__call__"]}
{"id": "C31", "title": "Setting a dof fixes it in the assembled system", "statement": "After linear_system.customize.set_dof(i, value), row i of the assembled matrix is the unit row and entry i of the right hand side is value, all other rows are unchanged, and setting several dofs keeps the earlier ones, for any order of calls.", "quantifier": "every system, every sequence of set_dof calls, every value", "why_tests_cant": "sequences of customisations are histories", "anchors": ["msepy/tools/matrix/static/local.py:_MsePyStaticLocalMatrixCustomize.identify_row", "msepy/tools/linear_system/static/local/customize.py:MsePyStaticLinearSystemCustomize.set_dof", "msepy/tools/vector/static/local.py:MsePyStaticLocalVectorCustomize.set_value"]}
{"id": "C32", "title": "set_dof in parallel", "statement": "With elements distributed over any number of ranks, after set_dof(i, value) on every rank the sum over ranks of row i is the unit row and the sum of entry i of the right hand side is value; other rows are unchanged; the result does not depend on the distribution.", "quantifier": "every number of ranks, distribution, dof and value", "why_tests_cant": "parallel distributions are unbounded and tests run on few ranks", "anchors": ["msehtt/tools/matrix/static/local.py:_Static_LocalMatrix_Customize.identify_row", "msehtt/tools/vector/static/local.py:_MseHtt_StaticVector_Customize.set_value", "msehtt/tools/linear_system/static/local/customize.py:MseHttStaticLinearSystemCustomize.set_dof"]}
{"id": "C33", "title": "Assembly does not depend on the distribution", "statement": "Assembled matrix and vector, summed over ranks, are the same for every distribution of the elements over ranks, and equal the serial assembly.", "quantifier": "every distribution over every number of ranks", "why_tests_cant": "schedules/distributions are unbounded", "anchors": ["msehtt/tools/matrix/static/local.py:MseHttStaticLocalMatrixAssemble.__call__", "msehtt/tools/vector/static/global_distributed.py:MseHttGlobalVectorDistributed.gather", "msehtt/tools/matrix/static/global_.py:MseHttGlobalMatrix.gather"]}
{"id": "C34", "title": "Customisations of blocks and of the whole system compose", "statement": "Essential boundary conditions applied through customize.apply_essential_bc take effect in the assembled system whatever other customisation (set_dof) was done before.", "quantifier": "every history of customisation calls", "why_tests_cant": "order of calls is a history", "anchors": ["msehtt/tools/linear_system/static/local/customize.py:MseHttStaticLinearSystemCustomize.apply_essential_bc", "msehtt/tools/matrix/static/local.py:_MseHttStaticLocalMatrixBmat"]}
{"id": "C35", "title": "Derived local matrices see each element's own data", "statement": "For a local matrix M (possibly customised in some elements), (-M)[e], M.T[e], (c*M)[e], (M+N)[e], (M@N)[e] equal the operation applied to M[e], N[e] for every element e, whatever elements were evaluated before.", "quantifier": "every history of evaluations, customisations and cache keys", "why_tests_cant": "depends on evaluation history and cache content", "anchors": ["msehtt/tools/matrix/static/local.py:MseHttStaticLocalMatrix", "msepy/tools/matrix/static/local.py:MsePyStaticLocalMatrix"]}
{"id": "C36", "title": "Customising a vector does not alter the data it was made from", "statement": "Customising entries of a local vector changes what that vector returns and nothing else: the array it was built from, and other vectors sharing it, keep their values.", "quantifier": "every history of customisations of vectors sharing data", "why_tests_cant": "aliasing histories are unbounded", "anchors": ["msepy/tools/vector/static/local.py:MsePyStaticLocalVectorCustomize.set_value", "msehtt/tools/vector/static/local.py:_MseHtt_StaticVector_Customize.set_value"]}
{"id": "C37", "title": "Setting matrix values sets all of them", "statement": "customize.set_values(i, j, v) on a local matrix makes each listed entry equal to its listed value.", "quantifier": "every list of positions, including repeated rows or columns", "why_tests_cant": "lists with repeated indices are rarely tested", "anchors": ["msepy/tools/matrix/static/local.py:_MsePyStaticLocalMatrixCustomize.set_values"]}
{"id": "C38", "title": "Jacobi preconditioning keeps the solution", "statement": "assemble(preconditioner='Jacobian') returns a system with exactly the same solutions as the unpreconditioned one, for every distribution over ranks.", "quantifier": "every matrix and right hand side, including zero, small and negative diagonals", "why_tests_cant": "all matrices", "anchors": ["msehtt/tools/matrix/static/global_.py:MseHttGlobalMatrix.diagonal", "msehtt/tools/linear_system/static/local/main.py:MseHttStaticLocalLinearSystem.assemble"]}
{"id": "C39", "title": "Essential rows are found correctly in parallel", "statement": "The rows reported as essential are exactly the rows of the total matrix (sum over ranks) that are unit rows, and the reported coefficient is the right hand side entry.", "quantifier": "every distribution of the matrix over ranks", "why_tests_cant": "depends on how rows are split over ranks", "anchors": ["msehtt/tools/matrix/static/global_.py:MseHttGlobalMatrix.___find_essential_rows___"]}
{"id": "C40", "title": "Removing rows and columns", "statement": "delete_from_csr(mat, rows, cols) returns the matrix of the remaining rows and columns in their order, for every list of rows and cols including repeated and negative indices.", "quantifier": "every matrix and index lists", "why_tests_cant": "unbounded", "anchors": ["msepy/tools/remove_rows_columns_of_csr.py:delete_from_csr"]}
{"id": "C41", "title": "The array cache is transparent", "statement": "A function memoised with the array-keyed cache returns for every query the value computed for exactly those arrays (and check string), whatever was queried before.", "quantifier": "every history of queries and insertions", "why_tests_cant": "a collision needs a history and near-equal arrays", "anchors": ["tools/miscellaneous/ndarray_cache.py:ndarray_key_comparer", "tools/miscellaneous/ndarray_cache.py:add_to_ndarray_cache"]}
{"id": "C42", "title": "The array cache is bounded and never mixes entries", "statement": "After any history of insertions the cache holds at most 2*maximum+1 entries, keys are distinct, its contents are the most recently added entries, the newest entry is present, and every hit returns data inserted earlier with a matching key.", "quantifier": "every history of insertions and queries", "why_tests_cant": "history property", "anchors": ["tools/miscellaneous/ndarray_cache.py:add_to_ndarray_cache", "tools/miscellaneous/ndarray_cache.py:ndarray_key_comparer"]}
{"id": "C43", "title": "Cochain store (msepy): last write wins and the newest time is right", "statement": "cochain[t] returns the last cochain set for t (times equal after rounding), cochain.newest is the largest time set, and cleaning keeps exactly the requested number of largest times, for every history of set and clean, with and without auto-cleaning.", "quantifier": "every history of set/clean calls", "why_tests_cant": "history property", "anchors": ["msepy/form/cochain/main.py:MsePyRootFormCochain"]}
{"id": "C44", "title": "Interpolated cochains lie on the piecewise linear interpolant", "statement": "cochain(t) for t between stored instants equals the linear interpolation between the two neighbouring stored instants.", "quantifier": "every set of stored instants and every t within their range", "why_tests_cant": "number of stored instants is unbounded", "anchors": ["msepy/form/cochain/main.py:MsePyRootFormCochain.__call__", "msehtt/static/form/addons/ic.py:MseHtt_From_InterpolateCopy"]}
{"id": "C45", "title": "Cochain store (msehtt): newest is always retrievable", "statement": "After every history of set and clean calls, cochain.newest is the largest stored time (None when empty) and cochain[None] returns the cochain stored there; auto cleaning keeps at most the configured number of cochains and never removes the one just set.", "quantifier": "every history of set/clean calls and every auto-cleaning setting", "why_tests_cant": "history property", "anchors": ["msehtt/static/form/cochain/main.py:MseHttCochain"]}
{"id": "C46", "title": "Nodal and edge basis functions are dual to nodes and edges", "statement": "The Lagrange basis on increasing nodes is 1 at its node and 0 at the others and sums to 1; the integral of edge basis i over the edge between nodes k and k+1 is 1 if k=i and 0 otherwise. In two and three dimensions evaluating (0-forms) or integrating over edges, faces and cells the reconstruction of a cochain gives back the cochain.", "quantifier": "every degree and every increasing set of nodes, at every x", "why_tests_cant": "degrees and node sets are unbounded", "anchors": ["msepy/tools/polynomials.py:_OneDimPolynomial.lagrange_basis", "msepy/tools/polynomials.py:_OneDimPolynomial.edge_basis", "msepy/tools/polynomials.py:_OneDimPolynomial.__derivative_poly_nodes__"]}
{"id": "C47", "title": "Reconstruction commutes with the derivative", "statement": "The derivative of the nodal reconstruction of a cochain is the edge reconstruction of the incidence matrix applied to the cochain, at every point; likewise gradient, rotation, curl and divergence of the reconstructions in two and three dimensions.", "quantifier": "every degree, nodes, cochain and x", "why_tests_cant": "unbounded", "anchors": ["msepy/tools/polynomials.py:_OneDimPolynomial._derivative_poly_", "msepy/space/incidence_matrix/Lambda.py:MsePyIncidenceMatrixLambda._m1_n1_k0"]}
{"id": "C48", "title": "Local dofs on a boundary face", "statement": "The local dofs found on a face of an element are exactly those whose trace lives on that face.", "quantifier": "all degrees, faces, k, dimensions", "why_tests_cant": "degrees are unbounded", "anchors": ["msepy/space/find/local_dofs.py:_MsePySpaceFindLocalDofs"]}
{"id": "C49", "title": "Global numbering on unstructured meshes (msehtt, nodes)", "statement": "Numbering 0-forms on an arbitrary mesh of quadrilaterals and triangles gives the same number to a node shared by elements and, on a shared edge, the same number to the same point of the edge even when the two elements traverse the edge in opposite directions; distinct points get distinct numbers and numbers are contiguous.", "quantifier": "every element-to-node map and degree", "why_tests_cant": "meshes are unbounded", "anchors": ["msehtt/static/space/gathering_matrix/Lambda/GM_m2n2k0.py"]}
{"id": "C50", "title": "Global numbering on unstructured meshes (msehtt, edges)", "statement": "Numbering outer 1-forms on an arbitrary mesh gives the same number to the same segment of an edge shared by two elements, whatever the traversal directions; other dofs get distinct numbers and numbers are contiguous.", "quantifier": "every element-to-node map and degree", "why_tests_cant": "meshes are unbounded", "anchors": ["msehtt/static/space/gathering_matrix/Lambda/GM_m2n2k1.py"]}
{"id": "C51", "title": "Augmented system pins the requested dof", "statement": "The customisation that appends a constraint row and column for dof j of unknown i puts the unit entries at the chained number of that dof.", "quantifier": "every chained system, unknown and dof, every distribution", "why_tests_cant": "unbounded", "anchors": ["msehtt/tools/matrix/static/local.py:MseHttStaticLocalMatrixAssemble.___new_EndZeroRowCol_with_a_one_for_global_dof___", "msehtt/tools/gathering_matrix.py:MseHttGatheringMatrix.find_global_numbering_of_ith_composition_global_dof"]}
{"id": "C52", "title": "Multigrid steps are paired like brackets", "statement": "pairs of an accepted multigrid scheme is defined exactly when the scheme does not climb above the top layer, and it then maps each interpolation step which closes a level change to the restriction step that opened the same level change: it comes earlier, connects the same two layers, every restriction is paired exactly once, and pairs are properly nested.", "quantifier": "every cycle type, number of layers and sequence string that is accepted", "why_tests_cant": "sequences are unbounded", "anchors": ["tools/miscellaneous/multigrid_scheme.py:MultiGridSchemeConfig.pairs"]}
{"id": "C53", "title": "Multigrid schemes stay within the layers", "statement": "Every step of an accepted scheme connects two adjacent existing layers and consecutive steps are connected; V, N, W, FMG end at the top layer.", "quantifier": "every accepted cycle type, number of layers and sequence", "why_tests_cant": "sequences are unbounded", "anchors": ["tools/miscellaneous/multigrid_scheme.py:MultiGridSchemeConfig._parse_V_cycle_", "tools/miscellaneous/multigrid_scheme.py:MultiGridSchemeConfig._parse_W_cycle_", "tools/miscellaneous/multigrid_scheme.py:MultiGridSchemeConfig._parse_FMG_cycle_"]}
{"id": "C54", "title": "Newton iteration terminates and reports truthfully", "statement": "The Newton loop stops after at most max(1, maxiter) iterations for every sequence of residuals; with an integer maxiter the convergence info is 0 exactly when the last update norm is below atol; a forced (string) maxiter n runs exactly max(1, n) iterations; the returned solution is the last iterate and the residual list is complete.", "quantifier": "every sequence of update norms, atol and maxiter", "why_tests_cant": "sequences are infinite", "anchors": ["msehtt/tools/nonlinear_system/static/solve/Newton_Raphson.py:_check_stop_criterion_", "msehtt/tools/nonlinear_system/static/solve/Newton_Raphson.py:MseHttNonlinearSystemNewtonRaphsonSolve.__call__"]}
{"id": "C55", "title": "The iterator remembers exactly the computed inputs", "statement": "After any history of recording and compressing, an input is reported as already computed if and only if it was recorded.", "quantifier": "every history of integer and non-integer inputs", "why_tests_cant": "history property with in-place list surgery", "anchors": ["tools/iterator/main.py:Iterator._update_computed_inputs", "tools/iterator/main.py:Iterator._compress_computed_input_list", "tools/iterator/main.py:Iterator._check_input_cache"]}
{"id": "C56", "title": "Interrupted and resumed runs give the results of an uninterrupted run", "statement": "If a run with caching is killed at any iteration and restarted with the same inputs (any number of times, caches written at any instants), the recorded results equal those of one uninterrupted run.", "quantifier": "every solver, every cache schedule, every sequence of kill points", "why_tests_cant": "crash points and schedules are unbounded", "anchors": ["tools/iterator/main.py:Iterator.run", "tools/iterator/main.py:Iterator._make_inputs_key"]}
{"id": "C57", "title": "A kill while the cache file is written loses no earlier cache", "statement": "Killing the process at any moment, including while the cache file is being written, leaves a cache file from which the run can resume.", "quantifier": "every crash point", "why_tests_cant": "crash point property", "anchors": ["tools/iterator/main.py:Iterator.run"]}
{"id": "C58", "title": "Frozen objects do not grow", "statement": "Once an object is frozen, assigning an attribute that does not exist raises and leaves the object unchanged, existing attributes can still be updated, and melting restores the ability to add attributes, for every history of assignments.", "quantifier": "every history of assignments, freezes and melts", "why_tests_cant": "history property", "anchors": ["tools/frozen.py:Frozen"]}
{"id": "C59", "title": "Undirected graphs stay undirected", "statement": "After any history of add_node/add_edge, edges are symmetric, duplicate free and only between existing nodes, and the drawing/pipe routine visits each edge exactly once.", "quantifier": "every history of insertions including self loops and repeated edges", "why_tests_cant": "history property", "anchors": ["tools/miscellaneous/undirected_graph.py:CoordinatedUndirectedGraph"]}
{"id": "C60", "title": "Addressing a local dof", "statement": "set_local_dof_ij_of_unknown_k_to_value(i, j, k, v) fixes the j-th local dof of element i of unknown k, where negative i and j count from the end as documented by Python convention.", "quantifier": "all elements, local indices (negative too), unknowns", "why_tests_cant": "all index combinations", "anchors": ["msepy/tools/linear_system/static/local/customize.py:MsePyStaticLinearSystemCustomize.set_local_dof_ij_of_unknown_k_to_value", "msepy/tools/linear_system/static/local/customize.py:MsePyStaticLinearSystemCustomize.set_local_dof"]}
{"id": "C61", "title": "Objects after a resumed run", "statement": "After a run with caching has finished, resumed or not, the cached objects are in the state the uninterrupted run leaves them in.", "quantifier": "every solver, cache schedule and sequence of kills", "why_tests_cant": "crash points and schedules are unbounded", "anchors": ["tools/iterator/main.py:Iterator.run", "tools/iterator/main.py:Iterator._decoding_objs_"]}
{"id": "C62", "title": "Different inputs have different cache entries", "statement": "Two different inputs of an iterator never share a cache entry, so no input is served the result of another one.", "quantifier": "every pair of integer or float inputs", "why_tests_cant": "needs two nearby floats; the set of pairs is infinite", "anchors": ["tools/iterator/main.py:Iterator._make_inputs_key"]}
{"id": "C63", "title": "Cross products respect vector proxies", "statement": "Whenever a cross product of two form spaces is accepted, the resulting space is one whose vector proxy is the cross product of the vector proxies of the factors: two spatial vectors give a spatial vector, two plane vectors a normal vector, a normal and a plane vector a plane vector.", "quantifier": "every dimension, pair of degrees and pair of orientations, after every history of space requests", "why_tests_cant": "the product depends on dimension, both degrees and both orientations and on which spaces were registered before", "anchors": ["src/spaces/operators.py:cross_product", "src/spaces/operators.py:Cross_Product", "src/spaces/operators.py:CrossProduct"]}
{"id": "C64", "title": "A chain belongs to the matrices passed", "statement": "Making a chained gathering matrix gives the chain of exactly the matrices passed, whatever was chained before in the process and however the passed matrices were nested.", "quantifier": "every history of chainings, every nesting", "why_tests_cant": "the module-level cache is shared by the whole process", "anchors": ["msehtt/tools/gathering_matrix.py:MseHttGatheringMatrix.__init__"]}
{"id": "C65", "title": "Equal gathering matrices number alike", "statement": "Two gathering matrices compare equal if and only if they number the same elements in the same way.", "quantifier": "every pair of gathering matrices", "why_tests_cant": "pairs of matrices are unbounded; numpy broadcasting makes rows of different length compare equal", "anchors": ["msehtt/tools/gathering_matrix.py:MseHttGatheringMatrix.__eq__"]}
{"id": "C66", "title": "Assembling does not change what is assembled", "statement": "The result of assembling a local matrix depends on its entries and the given threshold only: earlier assemblings, with whatever thresholds, do not change it.", "quantifier": "every history of assemblings with and without thresholds", "why_tests_cant": "histories are unbounded and local matrices are shared through caches", "anchors": ["msehtt/tools/matrix/static/local.py:MseHttStaticLocalMatrixAssemble.__call__"]}
{"id": "C67", "title": "Block systems assemble blockwise", "statement": "The assembled matrix of a block system consists of the assembled blocks: its entry at dof d of unknown k (row) and dof d' of unknown j (column) is entry (d, d') of the assembled block (k, j); likewise the right hand side.", "quantifier": "any number of unknowns, blocks, gathering matrices and distribution over ranks", "why_tests_cant": "all block layouts and distributions", "anchors": ["msehtt/tools/matrix/static/local.py:bmat", "msehtt/tools/vector/static/local.py:concatenate", "msehtt/tools/gathering_matrix.py:MseHttGatheringMatrix"]}
{"id": "C68", "title": "Boundary conditions of one unknown leave the other unknowns alone", "statement": "customize.apply_essential_bc for one unknown changes rows of the assembled system that belong to dofs of this unknown only.", "quantifier": "every block system, including systems in which a local matrix object is used in several blocks", "why_tests_cant": "whether blocks share objects depends on caches filled elsewhere in the program", "anchors": ["msehtt/tools/linear_system/static/local/customize.py:MseHttStaticLinearSystemCustomize.apply_essential_bc", "msehtt/static/implementation_array_parser.py:Parse__M_matrix", "msehtt/tools/linear_system/dynamic/main.py:DynamicBlockEntry"]}
{"id": "C69", "title": "Identifying many rows at once", "statement": "A.customize.identify_diagonal(dofs) makes the rows of all listed dofs unit rows and b.customize.set_values(dofs, values) sets their entries, leaving all other rows and entries as they are.", "quantifier": "every list of dofs (with repetitions), every gathering matrix", "why_tests_cant": "dofs shared by elements in arbitrary patterns", "anchors": ["msepy/tools/matrix/static/local.py:_MsePyStaticLocalMatrixCustomize.identify_diagonal", "msepy/tools/vector/static/local.py:MsePyStaticLocalVectorCustomize.set_values"]}
{"id": "C70", "title": "A block matrix follows the customisation of its blocks", "statement": "bmat([[A, B], ...])[e] is made of what A[e], B[e], ... return at that moment: customisations of blocks made before or after building or evaluating the block matrix, and clearing them, are all seen, in every element.", "quantifier": "every history of evaluations, customisations and clearings of blocks and block matrices", "why_tests_cant": "cached block matrices must notice later changes, in every interleaving", "anchors": ["msehtt/tools/matrix/static/local.py:_MseHttStaticLocalMatrixBmat", "msepy/tools/matrix/static/local.py:_MsePyStaticLocalMatrixBmat"]}
{"id": "C71", "title": "Evaluating a local matrix has no side effects", "statement": "Reading M[e] of any local matrix, however derived, does not change what any later reading of any local matrix in any element returns.", "quantifier": "every history of evaluations, objects and cache keys", "why_tests_cant": "caches are filled by reading; the orders of reading are unbounded", "anchors": ["msehtt/tools/matrix/static/local.py:MseHttStaticLocalMatrix.__getitem__", "msepy/tools/matrix/static/local.py:MsePyStaticLocalMatrix._get_meta_data_from_cache"]}
{"id": "C72", "title": "Metric quantities belong to the mapping", "statement": "The Jacobian, the inverse Jacobian matrix, the metric, the metric matrix and its inverse reported for an element at a point are the determinant, inverse, squared determinant, J^T J and its inverse of the Jacobian matrix of that element at that point.", "quantifier": "every dimension up to 3, every Jacobian matrix (constant or not), every element of every region", "why_tests_cant": "the Jacobian matrix is an arbitrary real matrix at every point; the formulas must hold for all of them", "anchors": ["msepy/mesh/coordinate_transformation.py", "msehtt/static/mesh/great/elements/types/base.py"]}
{"id": "C73", "title": "The Jacobian matrix is the derivative of the mapping", "statement": "For every predefined domain and element type, the Jacobian matrix at a point is the derivative of the mapping at that point.", "quantifier": "every point, all parameters of the domain or element", "why_tests_cant": "a test samples points and parameters; the derivative is a limit", "anchors": ["msepy/manifold/predefined/crazy.py", "msepy/manifold/predefined/_helpers.py", "tools/functions/space/_2d/transfinite.py", "tools/functions/space/_2d/geometrical_functions/", "msehtt/static/mesh/great/elements/types/", "msehtt/static/manifold/predefined/chaotic.py"]}
{"id": "C74", "title": "A mapping realises the requested geometry", "statement": "The mapping of a domain or element is a one-to-one mapping of the reference cube onto the requested shape: boxes have the requested bounds, elements the given nodes as corners and straight sides between them, arcs run on their circle from start to end in the requested direction, transfinite regions have the four given curves as sides.", "quantifier": "every point, all parameters in the documented range", "why_tests_cant": "points and parameters are continuous; a fold anywhere inside is enough to break it", "anchors": ["msepy/manifold/predefined/crazy.py:_MesPyRegionCrazyMapping", "msepy/manifold/predefined/_helpers.py", "tools/functions/space/_2d/", "msehtt/static/manifold/predefined/chaotic.py"]}
{"id": "C75", "title": "Regions of a domain fit together", "statement": "In a predefined domain of several regions, neighbourhood is mutual and two neighbouring regions have, point by point, the same common side; sides without neighbour make up the boundary of the domain.", "quantifier": "every number of regions, every parameter, periodic or not, every point of every side", "why_tests_cant": "continuous parameters and an arbitrary number of regions", "anchors": ["msepy/manifold/predefined/crazy_multi.py:_crazy_multi", "msepy/manifold/predefined/backward_step.py:_backward_step", "msepy/manifold/predefined/cylinder_channel.py:_CylinderChannel"]}
{"id": "C76", "title": "Outward unit normals", "statement": "The outward unit normal vector an element reports at a point of a face has length one, is perpendicular to the face there, and points out of the element.", "quantifier": "every element type, face and point of the face", "why_tests_cant": "faces are curved and nodes arbitrary; the sign must be right for all of them", "anchors": ["msehtt/static/mesh/great/elements/types/", "msehtt/static/mesh/great/elements/types/base.py"]}
{"id": "C77", "title": "Metric data shared between elements is the element's own", "statement": "Elements with equal metric signature share Jacobian data and element matrices; what an element is given is what would have been computed for it, whatever elements were asked before.", "quantifier": "every pair of elements and every history of queries", "why_tests_cant": "a signature collision depends on the exact nodes of two elements and the order in which they are asked", "anchors": ["msehtt/static/mesh/great/elements/types/vtu_5_triangle.py", "msehtt/static/mesh/great/elements/types/vtu_9_quad.py", "msehtt/static/mesh/great/elements/types/orthogonal_rectangle.py"]}
{"id": "C78", "title": "Local mass matrices are those of the inner product", "statement": "For local cochains a and b of the same space, a^T M b of the local mass matrix M is the integral, by the quadrature rule, of the inner product of the reconstructions of a and b on the element. M is symmetric and, where the Jacobian is positive, positive definite.", "quantifier": "every form degree and orientation in 1, 2 and 3 dimensions, every polynomial degree, grid, quadrature rule, mapping and pair of cochains", "why_tests_cant": "the entries depend on arbitrary mappings, degrees and rules; tests compare a few against reference values", "anchors": ["msepy/space/mass_matrix/Lambda.py", "msehtt/static/space/mass_matrix/Lambda/"]}
{"id": "C79", "title": "Global numbering on meshes of hexahedra (msehtt)", "statement": "Numbering 0-, 1-, 2- and 3-forms on a mesh of hexahedra gives the same number to two local dofs exactly when they are the same node, segment, small face or cell of the mesh (the same corner, or the same one of those on a shared edge or face); numbers are contiguous. Meshes whose faces may be met in different ways are refused instead of being numbered wrongly.", "quantifier": "every element-to-node map and every triple of degrees", "why_tests_cant": "meshes and degrees are unbounded", "anchors": ["msehtt/static/space/gathering_matrix/Lambda/GM_m3n3k0.py", "msehtt/static/space/gathering_matrix/Lambda/GM_m3n3k1.py", "msehtt/static/space/gathering_matrix/Lambda/GM_m3n3k2.py", "msehtt/static/space/gathering_matrix/Lambda/GM_m3n3k3.py"]}
{"id": "C80", "title": "Numbering of structured and periodic meshes by position (msehtt)", "statement": "On a structured mesh, each axis of which may close up periodically, two local dofs have the same global number exactly when they are at the same position of the rectangle, box or torus.", "quantifier": "every number of elements per axis, choice of periodic axes, numbering of nodes and elements, and degree", "why_tests_cant": "sizes and degrees are unbounded, and small periodic meshes are where edges with the same nodes are confused", "anchors": ["msehtt/static/space/gathering_matrix/Lambda/GM_m2n2k0.py", "msehtt/static/space/gathering_matrix/Lambda/GM_m2n2k1.py", "msehtt/static/space/gathering_matrix/Lambda/GM_m3n3k0.py", "msehtt/static/mesh/great/main.py:_check_global_element_map_dict"]}
{"id": "C81", "title": "Elements across a face (msehtt)", "statement": "The neighbour reported for a face of an element is the element whose face has the same nodes; neighbourhood is mutual; no neighbour is reported exactly for faces that no other element face coincides with.", "quantifier": "every mesh of triangles, quadrilaterals and hexahedra, every element and face", "why_tests_cant": "meshes are unbounded, and the table is filled in an order that depends on the whole mesh", "anchors": ["msehtt/static/mesh/great/elements/main.py", "msehtt/static/mesh/great/elements/types/base.py:face_setting"]}
{"id": "C82", "title": "Boundary faces of a patch of elements (msehtt)", "statement": "The boundary faces of a set of elements are exactly those of its faces that no other face of the set coincides with, whatever lies outside of the set.", "quantifier": "every mesh and every choice of elements", "why_tests_cant": "meshes and subsets are unbounded", "anchors": ["msehtt/static/mesh/great/elements/main.py:_parse_boundary_faces_of_a_patch_of_elements"]}
{"id": "C83", "title": "Distribution of elements to processes", "statement": "Distributing a mesh gives each element to exactly one process and leaves no process without elements as long as there are enough elements for all.", "quantifier": "every number of elements and of processes, structured and unstructured input", "why_tests_cant": "the numbers are unbounded; the rule switches between several branches depending on both", "anchors": ["msehtt/static/mesh/great/main.py", "msehtt/static/mesh/great/config/vtu.py"]}
{"id": "C84", "title": "Elements agree on the sign of shared dofs (msehtt)", "statement": "Where two elements meet at a face but run along it in opposite directions, exactly one of them reverses the sign of its 1-form dofs there, so that reducing any field gives both elements the same values.", "quantifier": "every mesh of triangles and quadrilaterals, every face, inner and outer 1-forms", "why_tests_cant": "orientations are arbitrary; the decision is taken numerically from one test field, which may be degenerate on some face", "anchors": ["msehtt/static/mesh/great/elements/main.py:_parse_form_face_dof_topology_mismatch"]}
{"id": "C85", "title": "Periodic faces are recognised on every process", "statement": "The faces at which a periodic mesh is closed are recognised, with all positions on them, by every process that has an element there, independently of how elements are distributed.", "quantifier": "every mesh, every distribution to any number of processes", "why_tests_cant": "the distribution is arbitrary and tests run on one process", "anchors": ["msehtt/static/mesh/great/elements/main.py:periodic_face_pairing"]}
{"id": "C86", "title": "Discrete forms on triangles (msehtt)", "statement": "On a triangle (a square with one collapsed side) the nodes and edges are numbered one-to-one, the collapsed side counting as one node without edges; the incidence matrices have one row and column per dof and take differences along edges, so that rot grad and div curl vanish; the reconstructed field of a gradient, rotation, curl or divergence is the derivative of the reconstructed field; the dofs of a reconstructed form are its node values and edge integrals.", "quantifier": "every pair of degrees, every cochain, every point", "why_tests_cant": "degrees and cochains are unbounded; the collapsed side shifts all numbers and is special in every function", "anchors": ["msehtt/static/space/incidence_matrix/Lambda/IM_m2n2k0.py", "msehtt/static/space/incidence_matrix/Lambda/IM_m2n2k1.py", "msehtt/static/space/local_numbering/Lambda/ln_m2n2k0.py", "msehtt/static/space/local_numbering/Lambda/ln_m2n2k1.py", "msehtt/static/mesh/great/elements/types/vtu_5_triangle.py"]}
{"id": "C87", "title": "Reversed faces change signs and nothing else (msehtt)", "statement": "An element whose 1-form dofs are reversed on some faces has the matrices, basis functions, reduced dofs and mass matrix of the unreversed element up to the sign of exactly the dofs on these faces, consistently: reconstructed fields, their derivatives and the exactness of the sequence are the same as without reversal.", "quantifier": "every triangle or quadrilateral, pair of degrees, set of faces, cochain and point; inner and outer", "why_tests_cant": "the sign is applied in a dozen separate places which must agree on which dofs are meant", "anchors": ["msehtt/static/space/find/local_dofs_on_face/Lambda/m2n2k1.py", "msehtt/static/space/incidence_matrix/Lambda/IM_m2n2k0.py", "msehtt/static/space/incidence_matrix/Lambda/IM_m2n2k1.py", "msehtt/static/mesh/great/elements/types/base.py:bf", "msehtt/static/space/reduce/Lambda/Rd_m2n2k1.py", "msehtt/static/space/mass_matrix/Lambda/MM_m2n2k1.py"]}
{"id": "C88", "title": "Shared incidence matrices belong to the element (msehtt)", "statement": "Whatever was asked before, the incidence matrix given for an element is that of its type, degree and reversed faces; two elements with the same cache key have the same matrix, so that evaluating the incidence matrix of a form gives each element its own.", "quantifier": "every history of calls and every mesh of triangles and quadrilaterals, reversed or not", "why_tests_cant": "caches live as long as the program, and keys are texts put together differently for each type", "anchors": ["msehtt/static/space/incidence_matrix/Lambda/IM_m2n2k0.py", "msehtt/static/space/incidence_matrix/Lambda/IM_m2n2k1.py", "msehtt/static/form/main.py:incidence_matrix"]}
{"id": "C89", "title": "Newton's linear system is the linearisation of the nonlinear system", "statement": "In every Newton iteration, the assembled-from blocks of the left-hand side applied to an increment are exactly the directional derivative of the residual (linear part plus signed multilinear terms minus right-hand side) at the current iterate, and the right-hand side is exactly minus the residual there; a term in which a form is neither the test form nor an unknown, or in which the same form at the same time occurs twice, is refused and never silently dropped.", "quantifier": "every nonlinear system: any number of unknowns and rows, any signed multilinear terms with scale factors of any arity and any position of the test form, all iterates and increments", "why_tests_cant": "a wrong Jacobian still converges, only more slowly, so tests on a few problems see nothing; the identity must hold for all terms and all iterates", "anchors": ["msehtt/tools/nonlinear_system/operator/local_multilinear.py:_derivative_contribution", "msehtt/tools/nonlinear_system/static/main.py:evaluate_f", "msehtt/tools/nonlinear_system/static/solve/Newton_Raphson.py:__call__"]}
{"id": "C90", "title": "Prescribed dofs keep their values in nonlinear iterations", "statement": "When dofs of an unknown are prescribed in a nonlinear system, every iterate of the Newton method (after the initial guess is set) and every iterate of the Picard method has the prescribed values there, whatever the other rows of the system are, provided the inner linear solves are exact.", "quantifier": "all systems, sets of prescribed dofs and values, numbers of iterations", "why_tests_cant": "the invariant is over all iterates and all systems; tests look at converged solutions", "anchors": ["msehtt/tools/nonlinear_system/static/solve/Newton_Raphson.py:__call__", "msehtt/tools/nonlinear_system/static/solve/Picard.py:__call__", "msehtt/tools/nonlinear_system/static/customize.py"]}
{"id": "C91", "title": "Trilinear data represent the integral of the product of the reconstructed fields", "statement": "The three-dimensional arrays of trilinear terms, contracted with the local cochains of their forms, equal the quadrature of the pointwise product (dot product with a cross product, dot product, or product) of the reconstructed fields; one- and two-dimensional versions agree with the contraction of the three-dimensional one for every choice of given forms, rows and columns; (A x B, C) changes sign when B and C are exchanged, so it vanishes for B = C.", "quantifier": "all degrees, elements, metrics, quadratures and cochains", "why_tests_cant": "a wrong sign or a swapped index in one component is an identity over all cochains that samples with special fields miss", "anchors": ["msehtt/static/form/addons/nop_data_computer/trilinear_AxB_ip_C.py", "msehtt/static/form/addons/nop_data_computer/trilinear_base.py", "msehtt/static/form/addons/nop_data_computer/trilinear_ABC.py", "msehtt/static/form/addons/nop_data_computer/trilinear_AxB_ip_dC.py"]}
{"id": "C92", "title": "Picard iterations solve the nonlinear system at their fixed points", "statement": "In every Picard iteration the residual of the nonlinear system at the new iterate is the difference of the nonlinear terms at the new and the old iterate; in particular an iterate that the iteration does not change solves the nonlinear system, and a solution is not changed.", "quantifier": "all systems, terms, iterates; exact inner linear solves", "why_tests_cant": "convergence tests only see tolerances; the identity is over all iterates", "anchors": ["msehtt/tools/nonlinear_system/static/solve/Picard.py:__call__", "msehtt/tools/nonlinear_system/static/main.py:_evaluate_nonlinear_terms"]}
{"id": "C93", "title": "The values of a form are the same by reconstruction and by reconstruction matrices", "statement": "For every form of the msehtt implementation with every local cochain, and at every point of an element, the reconstruction matrices times the local cochain give the components that reconstruct gives: the values on the reference element, transformed with the inverse Jacobian matrix (covariantly for inner 1-forms, preserving fluxes for outer ones). The short cuts for scalar zero entries and for orthogonal elements change nothing.", "quantifier": "all degrees, node distributions, local cochains, points, inverse Jacobian matrices; all form degrees in 2d (quadrilaterals and triangles) and 3d", "why_tests_cant": "cochains, points and Jacobian matrices range over infinite sets", "anchors": ["msehtt/static/space/reconstruct/Lambda/Rc_m2n2k1.py", "msehtt/static/space/reconstruct/Lambda/Rc_m3n3k2.py", "msehtt/static/space/reconstruction_matrix/Lambda/RM_m2n2k1.py", "msehtt/static/space/reconstruction_matrix/Lambda/RM_m3n3k2.py"]}
{"id": "C94", "title": "Operators on time-space functions are the operators of vector calculus", "statement": "For functions of time and space given to the library (scalars, vectors and tensors in 2d and 3d), the sum, difference, negative, multiples, products, dot, cross and tensor products, the time derivative, gradient, curl, rot, divergence, Laplacian and convection evaluate at every time and point to the expressions of vector calculus in the values and partial derivatives of the arguments; a partial derivative given by the user is used as given, and one that is not given is replaced by a central difference. Operands of another kind are refused.", "quantifier": "all functions, all choices of given derivatives, all times and points", "why_tests_cant": "functions and points range over infinite sets; every combination of given and missing derivatives takes its own path", "anchors": ["tools/functions/time_space/_2d/wrappers/scalar.py:T2dScalar", "tools/functions/time_space/_2d/wrappers/vector.py:T2dVector", "tools/functions/time_space/_2d/wrappers/tensor.py:T2dTensor", "tools/functions/time_space/_3d/wrappers/scalar.py:T3dScalar", "tools/functions/time_space/_3d/wrappers/vector.py:T3dVector"]}
{"id": "C95", "title": "The identities of vector calculus hold for numerically differentiated functions", "statement": "When no derivatives are given, the rot of a gradient, the divergence of a curl (2d and 3d) and the curl of a gradient (3d) vanish at every time and point, for every function and not only up to a discretisation error; the Laplacian of a vector is the Laplacian of each of its components.", "quantifier": "all functions of time and space, all times and points", "why_tests_cant": "the identity is over all functions, also those that are not smooth", "anchors": ["tools/functions/time_space/_2d/wrappers/scalar.py:gradient", "tools/functions/time_space/_2d/wrappers/vector.py:rot", "tools/functions/time_space/_2d/wrappers/vector.py:Laplacian", "tools/functions/time_space/_3d/wrappers/vector.py:curl", "tools/numerical/derivative.py:derivative"]}
{"id": "C96", "title": "Numerical derivatives are accurate, and given derivatives are checked", "statement": "A numerical partial derivative differs from the true one by at most M h^2/6, with M a bound of the third derivative within the step h, and is exact for functions quadratic in that variable. When a function with given derivatives gets a mesh, given derivatives that are the true ones of smooth functions are accepted, and after acceptance every given derivative is within the tolerance, absolutely or relatively, of the numerical one at every checked point of every element.", "quantifier": "all functions, given derivatives, meshes, drawn times", "why_tests_cant": "functions, meshes and random times range over infinite sets", "anchors": ["tools/numerical/derivative.py:derivative", "tools/numerical/time_space/_2d/partial_derivative.py:NumericalPartialDerivativeTxy", "tools/numerical/time_space/_3d/partial_derivative.py:NumericalPartialDerivativeTxyz", "tools/functions/time_space/_2d/wrappers/scalar.py:mesh", "tools/functions/time_space/_3d/wrappers/vector.py:mesh"]}
{"id": "C97", "title": "The time integral of a vector function is the integral from the given instant", "statement": "The function returned by integral(t0) vanishes at t0, changes sign when the two instants are exchanged, is exact for functions affine in time, and differs from the true integral of a twice continuously differentiable function by at most M h^2 |t - t0| / 12 with M a bound of the second time derivative, for all instants at least 1e-8 apart, before and after t0.", "quantifier": "all vector functions, instants, points and step sizes", "why_tests_cant": "functions and instants range over infinite sets; both directions of time and every rounding of the number of segments matter", "anchors": ["tools/functions/time_space/_2d/wrappers/vector.py:integral", "tools/functions/time_space/_2d/wrappers/vector.py:___compute_integral___"]}
{"id": "C98", "title": "Every turn of the iterative solvers adds the best correction of its space", "statement": "In every turn that gmres completes, the correction added to the approximation is a combination of r, A r, ..., A^(restart-1) r, with r the residual before the turn, and no other such combination leaves a smaller residual; in lgmres the last outer_k corrections are among the vectors combined. So the residual never grows. With as many vectors as unknowns a completed turn on a regular system gives the exact solution.", "quantifier": "all systems, initial guesses, parameters, numbers of processes and distributions over them, turns", "why_tests_cant": "matrices, right hand sides and initial guesses range over infinite sets; a test on a converging system does not show a space that is smaller than promised", "anchors": ["msehtt/tools/linear_system/static/global_/solvers/mpi_py.py:gmres", "msehtt/tools/linear_system/static/global_/solvers/mpi_py.py:lgmres"]}
{"id": "C99", "title": "Iterative solvers stop and report truthfully, on any number of processes", "statement": "gmres and lgmres stop after maxiter turns at the latest. The reported residual is that of the returned vector; info = 0 means that it is below atol, a positive info is the number of turns, and then either maxiter is reached or the last turn has reduced the residual by less than a millionth. Result and report depend on the system only, not on the number of processes, the distribution of the system over them or the contents of uninitialised memory.", "quantifier": "all systems, initial guesses, parameters, numbers of processes, distributions, memory contents", "why_tests_cant": "the distributions of a system over processes cannot be enumerated, and reports are to be right for every run", "anchors": ["msehtt/tools/linear_system/static/global_/solvers/mpi_py.py:gmres", "msehtt/tools/linear_system/static/global_/solvers/mpi_py.py:lgmres", "msepy/tools/nonlinear_system/static/solve/Newton_Raphson.py:_check_stop_criterion_"]}
{"id": "C100", "title": "Iterative solvers complete their turns on every regular system", "statement": "Given a regular system, an initial guess that is not accepted at once and at least one allowed turn, gmres and lgmres complete the turn with a number as result.", "quantifier": "all regular systems, initial guesses and parameters", "why_tests_cant": "breakdowns need special systems, which random tests do not hit", "anchors": ["msehtt/tools/linear_system/static/global_/solvers/mpi_py.py:gmres", "msehtt/tools/linear_system/static/global_/solvers/mpi_py.py:lgmres"]}
{"id": "C101", "title": "A multigrid scheme computes nested corrections, and cleaning is invisible", "statement": "For every accepted scheme that stays within the layers, the solver does with the vectors what its steps say one after the other: a restriction leaves the system at hand and starts the system of a correction on the layer below, whose right hand side is the restricted residual; the interpolation belonging to it takes up the system that was left, with the interpolated correction added; an interpolation with no system waiting improves the interpolated vector on the given system of the layer above. The result is the same with and without cleaning of intermediate data, and for every number of processes and distribution of the systems. The default arguments are accepted.", "quantifier": "all schemes, systems, transfers, solvers, initial guesses, distributions over processes", "why_tests_cant": "schemes nest to any depth; a lost or mixed-up intermediate vector shows in some schemes only", "anchors": ["msehtt/multigrid/tools/linear_system/static/solvers/multigrid.py:_msehtt_multigrid_solver_", "tools/miscellaneous/multigrid_scheme.py:pairs", "msehtt/tools/linear_system/static/global_/solve.py:__call__"]}
{"id": "C102", "title": "A coarse correction removes the residual the coarse layer sees, and keeps solutions", "statement": "In a cycle of two layers with an exact solver below and the lower system R A P, the restricted residual after the correction is zero. A first approximation that solves the top system is handed over unchanged by every scheme that begins with a restriction.", "quantifier": "all systems, transfers, first approximations and schemes", "why_tests_cant": "a correction of the wrong sign is masked by the final iterative solution, so that tests of the result pass", "anchors": ["msehtt/multigrid/tools/linear_system/static/solvers/multigrid.py:_msehtt_multigrid_solver_"]}
{"id": "C103", "title": "The multigrid solver reports truthfully on its final vector", "statement": "Whatever the cycles have done, the residual reported is that of the returned vector on the top system, info = 0 means that it is below the tolerance, and it is not larger than that of the vector at the end of the cycles. Keyword arguments of the iterative solver are passed on; intermediate solutions use between one and five turns, a tenth of maxiter plus one.", "quantifier": "all schemes, systems, arguments, solvers", "why_tests_cant": "schemes and systems range over infinite sets", "anchors": ["msehtt/multigrid/tools/linear_system/static/solvers/multigrid.py:_msehtt_multigrid_solver_", "msehtt/multigrid/tools/linear_system/static/solvers/direct.py:_msehtt_multigrid_direct_linear_system_solver_"]}
{"id": "C104", "title": "The level-by-level multigrid solver climbs and passes down through all levels", "statement": "The multigrid solver called with 'direct' solves the lowest level directly, improves on every level the solution passed up from the level below, and returns what the iterative solver with the given arguments returns on the top level. Afterwards every lower level holds the solution passed down from the level above. With one level the direct solution is returned.", "quantifier": "all numbers of levels, systems, transfers, solvers", "why_tests_cant": "the number of levels is not bounded", "anchors": ["msehtt/multigrid/tools/linear_system/static/solvers/direct.py:_msehtt_multigrid_direct_linear_system_solver_"]}
{"id": "C105", "title": "An evaluated dynamic system is, element by element, the abstract system", "statement": "A linear system made from a matrix proxy can be evaluated any number of times with different times. In every evaluation each block of A is, in each element, the sum of its terms: sign times factor times the product of the matrices of the term; each entry of b likewise; blocks without terms are zero; the rows of prescribed dofs are replaced. What an evaluation returned still reads the same after any later evaluations, configurations and new systems.", "quantifier": "all systems, all worlds of matrices, forms and gathering matrices, all histories of making, configuring and evaluating systems", "why_tests_cant": "systems, matrices and histories range over infinite sets", "anchors": ["msehtt/tools/linear_system/dynamic/main.py:MseHttDynamicLinearSystem.__call__", "msehtt/tools/linear_system/dynamic/main.py:_parse_term", "msehtt/tools/linear_system/dynamic/array_parser.py:msehtt_root_array_parser", "msehtt/tools/matrix/dynamic.py:MseHttDynamicLocalMatrix"]}
{"id": "C106", "title": "Boundary conditions configured for a dynamic system are those imposed", "statement": "An essential condition of the abstract system is imposed with the condition configured last for its section and form, at the time of the unknown; a system with an essential condition for which nothing is configured raises. A natural condition contributes its boundary integral over every section it is set on.", "quantifier": "all systems, sections, histories of configurations", "why_tests_cant": "histories range over infinite sets", "anchors": ["msehtt/tools/linear_system/dynamic/main.py:MseHttDynamicLinearSystem._apply_bc", "msehtt/tools/linear_system/dynamic/config.py:MseHttDynamicLinearSystem_Config", "msehtt/static/implementation_array_parser.py:Parse__trStar_rf0_dp_tr_s1_vector"]}
{"id": "C107", "title": "Evaluations of dynamic systems do not disturb one another", "statement": "Evaluating a system twice with the same arguments and configurations gives the same entries, whatever was evaluated or configured in between, also for other systems that use the same matrices.", "quantifier": "all histories, systems, arguments", "why_tests_cant": "histories range over infinite sets", "anchors": ["msehtt/tools/linear_system/dynamic/main.py:MseHttDynamicLinearSystem.__call__", "msehtt/static/implementation_array_parser.py:Parse__M_matrix", "msehtt/tools/matrix/static/local.py:MseHttStaticLocalMatrix.customize"]}
{"id": "C108", "title": "Constant scalars are unique and factors have the value of their expression", "statement": "Asking for the same number or name again returns the same object and different numbers are different objects; two scalars never share a representation. A number has its value, a named scalar the value set last. A factor built by adding and dividing scalars and numbers evaluates to the value of this expression.", "quantifier": "all histories of making, setting, adding and dividing scalars, all expressions", "why_tests_cant": "histories and expressions range over infinite sets", "anchors": ["src/form/parameters.py:constant_scalar", "src/form/parameters.py:ConstantScalar0Form", "src/form/parameters.py:_factor_parser"]}
{"id": "C109", "title": "A refined mesh covers the base mesh exactly", "statement": "Triangular refining replaces base cells by triangles. In every result each base cell is either kept as one element, or covered by its triangles without overlap; no element occurs twice; after k levels a triangle has been halved less than k times and has the area this gives.", "quantifier": "all base meshes of quadrilaterals, refining functions, methods, lists of thresholds, states left by earlier calls", "why_tests_cant": "levels nest to any depth, and the choice of triangles depends on an arbitrary function", "anchors": ["msehtt/static/mesh/great/config/msehtt_trf.py:_refining_", "msehtt/static/mesh/great/config/msehtt_trf.py:_parse_level_elements_m2n2_"]}
{"id": "C110", "title": "Refined meshes have no hanging nodes, and refining succeeds", "statement": "In a refined mesh no vertex of an element lies inside an edge of another element. None of the internal checks of refining fails when the refining function gives numbers.", "quantifier": "all base meshes, refining functions, methods, lists of thresholds", "why_tests_cant": "closure of the refined triangles is a property of every possible pattern of refinement", "anchors": ["msehtt/static/mesh/great/config/msehtt_trf.py:_refining_", "msehtt/static/mesh/great/config/msehtt_trf.py:_level_high_refining_m2n2_", "msehtt/static/mesh/great/config/msehtt_trf.py:_make_element_map_m2n2_"]}
{"id": "C111", "title": "Vertices of refined meshes are numbered by points", "statement": "In the element map of a refined mesh two vertices have the same number exactly if they are the same point of the mesh, across elements and cells; the numbers are 0 to N-1 and each is used.", "quantifier": "all base meshes, patterns of refinement, pairs of elements and vertices", "why_tests_cant": "different orientations of cells and deep levels are needed to make two points collide", "anchors": ["msehtt/static/mesh/great/config/msehtt_trf.py:_make_element_map_m2n2_"]}
{"id": "C112", "title": "Exactly the elements that reach the threshold are refined, with the triangle opposite", "statement": "A base cell is split into four triangles exactly if its value reaches the first threshold. At every later level a triangle is split exactly if its longest edge is on the boundary and its value reaches the threshold, or there is a triangle on the other side of this edge with the same edge and the value of one of the two reaches the threshold.", "quantifier": "all base meshes, refining functions, methods, thresholds, levels", "why_tests_cant": "the refining function is arbitrary, and the criterion couples elements of different cells", "anchors": ["msehtt/static/mesh/great/config/msehtt_trf.py:_level_one_refining_m2n2_", "msehtt/static/mesh/great/config/msehtt_trf.py:_level_high_refining_m2n2_"]}
{"id": "C113", "title": "Refining is repeatable", "statement": "A call of the refining configurations gives the same mesh whatever was called before in the process.", "quantifier": "all histories of calls, with all base meshes and arguments", "why_tests_cant": "histories range over infinite sets, and the failure needs a call that raises in between", "anchors": ["msehtt/static/mesh/great/config/msehtt_trf.py:___a_cache___", "msehtt/static/mesh/great/config/msehtt_trf.py:_refining_"]}
{"id": "C114", "title": "Triangles of refined meshes are well shaped", "statement": "In convex cells all triangles of a refined mesh are run through counterclockwise, at every level, and the areas of the triangles of a cell add up to the area of the cell. In curved cells the mapping of a triangle maps the square onto the image of the triangle, its sides onto the images of the edges, the Jacobian matrix is the derivative of the mapping, and its determinant is positive where that of the cell is, except at the collapsed vertex.", "quantifier": "all cells, patterns of refinement, levels, mappings, points", "why_tests_cant": "levels, cells and mappings range over infinite sets", "anchors": ["msehtt/static/mesh/great/config/msehtt_trf.py:_finalize_m2n2_", "msehtt/static/mesh/great/elements/types/unique_msepy_curvilinear_triangle.py:MseHtt_GreatMesh_Unique_Msepy_Curvilinear_Triangle_Element", "msehtt/static/mesh/great/elements/types/unique_curvilinear_triangle.py:Unique_Curvilinear_Triangle"]}
{"id": "C115", "title": "An integer as refinement refines every cell that often", "statement": "Refining with trf=0 keeps the base mesh, trf=k replaces every cell by its 4*2^(k-1) triangles of level k, a negative integer is refused. A list of thresholds is accepted exactly if it increases strictly.", "quantifier": "all base meshes, all integers, all lists of thresholds", "why_tests_cant": "the number of levels is not bounded", "anchors": ["msehtt/static/mesh/great/config/msepy_trf.py:_parse_trf", "msehtt/static/mesh/great/config/msehtt_trf.py:MseHtt_Static_PreDefined_Trf_Config", "msehtt/static/mesh/great/config/trf.py:TRF"]}
{"id": "C116", "title": "Reduction gives the integrals and commutes with differentiation", "statement": "Reducing a continuous form to a cochain gives its values at the nodes (0-forms), circulations along the edges, fluxes through the edges or faces and integrals over the cells of the element, in the order of the local numbering, by the quadrature rule. Reducing a form and applying the incidence matrix gives the reduction of its derivative, up to the errors of the quadrature, and exactly if the quadrature is exact for the integrands.", "quantifier": "all smooth mappings of elements and their Jacobian matrices, all smooth functions, degrees, nodes, quadrature rules, local dofs", "why_tests_cant": "functions and mappings range over infinite sets, and tests compare up to a tolerance on straight elements", "anchors": ["msehtt/static/space/reduce/Lambda/Rd_m2n2k1.py", "msehtt/static/space/reduce/Lambda/Rd_m2n2k2.py", "msehtt/static/space/reduce/Lambda/Rd_m3n3k1.py", "msehtt/static/space/reduce/Lambda/Rd_m3n3k2.py", "msehtt/static/space/reduce/Lambda/Rd_m3n3k3.py", "msepy/space/reduce/Lambda.py:MsePySpaceReduceLambda"]}
{"id": "C117", "title": "Reducing a reconstruction gives the cochain back", "statement": "On every element, for every cochain, reducing the function that reconstruction makes of the cochain gives the same cochain, with a quadrature exact for polynomials of one degree less than that of the basis.", "quantifier": "all mappings with their inverse Jacobian matrices, degrees, nodes, cochains, quadrature rules", "why_tests_cant": "cochains, mappings and degrees range over infinite sets", "anchors": ["msehtt/static/space/reduce/Lambda/Rd_m2n2k1.py", "msehtt/static/space/reconstruct/Lambda/Rc_m2n2k1.py", "msehtt/static/space/reduce/Lambda/Rd_m3n3k2.py", "msehtt/static/space/reconstruct/Lambda/Rc_m3n3k2.py", "msepy/space/reduce/Lambda.py:MsePySpaceReduceLambda"]}
{"id": "C118", "title": "Functions given region by region are used in their regions", "statement": "When the function of a form is given as a dictionary from regions to functions, every element is reduced with (and its error computed with) the function of the region it is in, whatever the order of the dictionary.", "quantifier": "all meshes, all dictionaries accepted, all orders of the keys", "why_tests_cant": "the order in which a dictionary is written is not visible in tests that write it in the natural order", "anchors": ["msepy/form/cf.py:MsePyContinuousForm", "msepy/space/reduce/Lambda.py:MsePySpaceReduceLambda", "msepy/space/error/Lambda.py:MsePySpaceErrorLambda", "msepy/mesh/elements/main.py:MsePyMeshElements._elements_in_region"]}
{"id": "C119", "title": "Norms, masses and inner products of forms are those of the functions", "statement": "The L2 norm of a form is a number: the root of the integral of the square of the reconstructed form over all elements of all ranks, up to the error of the quadrature; it is a norm (zero only for the zero cochain, homogeneous, triangle inequality) and does not depend on how the elements are distributed over the ranks. The mass of a scalar form is its integral, the inner product of two forms on an element the integral of their product, the component-wise norm the norm of the components.", "quantifier": "all meshes of quadrilaterals or hexahedra, mappings, degrees, quadrature rules, cochains, distributions of elements", "why_tests_cant": "mappings, degrees and cochains range over infinite sets; tests use straight elements and a few functions", "anchors": ["msehtt/static/space/norm/Lambda", "msehtt/static/space/mass/Lambda", "msehtt/static/space/inner_product/Lambda_Lambda/IP_LL_m2n2k1.py", "msepy/space/norm/Lambda.py:MsePySpaceNormLambda", "msehtt/static/form/addons/static.py"]}
{"id": "C120", "title": "Errors of forms are the distances to the exact solution", "statement": "The L2 error of a form is a number: the root of the integral of the squared distance between the reconstructed form and the exact solution over all elements, up to the error of the quadrature, and zero if they agree. The H1 error is the root of the sum of the squares of the L2 errors of the form and of its derivative. The L^d error and norm of msepy are, for every d, the d-th roots of the integrals of the d-th powers of the absolute values. Other types of errors are refused.", "quantifier": "all meshes, mappings, degrees, quadrature rules, cochains, exact solutions, d", "why_tests_cant": "the exact solution is an arbitrary function, and tests compare orders of convergence only", "anchors": ["msehtt/static/space/error/Lambda", "msepy/space/error/Lambda.py:MsePySpaceErrorLambda", "msepy/space/norm/Lambda.py:MsePySpaceNormLambda", "msehtt/static/form/addons/static.py:MseHttFormStaticCopy.error"]}
{"id": "C121", "title": "The residual between two time instants is the norm of the change", "statement": "norm_residual gives the norm of the difference of the cochains at two times: those given, by default the newest and the second newest stored one. It is nan if nothing is stored, or if the two times are the same, in particular if one cochain is stored only; a time without cochain raises.", "quantifier": "all histories of cochains, all times given or not", "why_tests_cant": "histories and times range over infinite sets", "anchors": ["msehtt/static/form/main.py:MseHttForm.norm_residual", "msepy/form/main.py:MsePyRootForm.norm_residual"]}
{"id": "C122", "title": "Boundary integrals of forms with a given function are boundary integrals", "statement": "bi.with_vc_over_boundary_section returns, for every element with faces in the section, the vector that, applied to the dofs of any form on the element, gives the integral over these faces of the given function times the normal (outer) or tangential (inner) component of the form, for 1-forms, or of the normal or tangential component of the given field times the form, for 0-forms, with the outward unit normal vector, computed by quadrature. Over the whole boundary of an element the integral is the term of the integration by parts. Faces an element has not are refused.", "quantifier": "all elements with a smooth invertible mapping, degrees, quadrature rules, functions, sections", "why_tests_cant": "mappings, functions and sections range over infinite sets; tests use a straight side", "anchors": ["msehtt/static/form/bi/main.py:MseHttStaticForm_Boundary_Integrate", "msehtt/static/form/bi/vc/Lambda/bi_vc_m2n2k0.py", "msehtt/static/form/bi/vc/Lambda/bi_vc_m2n2k1.py"]}
{"id": "C123", "title": "The flux over a boundary section is the sum of the dofs of its faces", "statement": "The flux of an outer 1-form over a boundary section is the sum of its dofs on the faces of the section with the sign of the outward direction, whatever the shape of the elements and the distribution of the faces over the ranks, provided the rule is exact for the degrees of the form; over the boundary of a mesh it is the sum of the dofs of the divergence of the form. Cochains that do not fit and faces an element has not are refused.", "quantifier": "all meshes, mappings, degrees, cochains, sections, distributions over ranks", "why_tests_cant": "must hold for every mesh, cochain and distribution", "anchors": ["msehtt/static/form/addons/static.py:MseHttFormStaticCopy.flux_over_boundary_section", "msehtt/static/space/reconstruct_on_element_face/Lambda/RConEF_m2n2k1.py"]}
{"id": "C124", "title": "A boundary section has the boundary faces that lie where it was asked for", "statement": "A partial mesh configured as a boundary section of a mesh of elements has, in each rank, the boundary faces of the elements of that rank that lie on one of the given straight lines, segments or curves, in one of the given polygons, or whose outward unit normal vector is one of the given ones, each once, and no other face; the section asked for with 'except' has all the others. The faces of all ranks together do not depend on the distribution of the elements. Points too close to each other and faces whose kind is not known are refused.", "quantifier": "all meshes, mappings of the faces, lines, polygons, curves and vectors, distributions over ranks", "why_tests_cant": "mappings, lines and curves range over infinite sets; a face is looked at in 13 points with a tolerance", "anchors": ["msehtt/static/mesh/partial/main.py:MseHttMeshPartial._perform_configuration", "msehtt/static/mesh/partial/elements/main.py:MseHttElementsPartialMesh._get_local_boundary_faces", "tools/miscellaneous/geometries/m2n2.py:whether_point_on_straight_line"]}
{"id": "C125", "title": "A partial mesh is configured once", "statement": "A partial mesh is what the first successful request makes it; further requests are refused and change nothing; a request that is refused leaves the mesh as it was.", "quantifier": "all histories of requests", "why_tests_cant": "quantifies over histories of requests, including failed ones", "anchors": ["msehtt/static/mesh/partial/main.py:MseHttMeshPartial._config"]}
{"id": "C126", "title": "The dofs found on a boundary section are the dofs on its faces", "statement": "find_dofs gives, with local=True, in each rank the elements with faces in the section and for each of them the strictly increasing list of the local dofs on these faces; with local=False, in all ranks the same strictly increasing list of the global numbers of all these dofs, whatever the distribution over ranks. Every call gives the answer for the form it is given, whatever was asked before.", "quantifier": "all sections, forms, gathering matrices, distributions over ranks, histories of calls", "why_tests_cant": "must hold for every mesh, form, distribution and history of calls", "anchors": ["msehtt/static/mesh/partial/boundary_section/main.py:MseHttBoundarySectionPartialMesh.find_dofs"]}
{"id": "C127", "title": "The elements of a point are the elements that have it", "statement": "Looking up in which elements a point is gives, in all ranks, exactly the elements of all ranks that have the point, whatever was asked before.", "quantifier": "all meshes, points, distributions over ranks, histories of calls", "why_tests_cant": "must hold for every point and history of calls", "anchors": ["msehtt/static/mesh/partial/elements/main.py:MseHttElementsPartialMesh._find_in_which_elements_"]}
{"id": "C128", "title": "A runner that is started again after a crash goes on from its file with right results", "statement": "A runner calls a solver for many inputs and appends each result to a file. If the process dies at any character of any result and the runner is started again, any number of times and for any inputs, then: the file is accepted; the results, those read from the file and the new ones, are numbered consecutively, have no input twice and have the outputs of the solver; every input asked for is among them; and the solver is called exactly once, in the order asked for, for each input that was not read. If all rows of the file are complete, then nothing that was written completely is computed again. Disagreements: a result whose line lacks only its end is read, but the next result is glued to it and both are lost for the third process; a process that dies between opening the file and writing back what it has read leaves an empty file which is never accepted again; a second call in the same process has no results for what the first one computed.", "quantifier": "all inputs, solvers, number formats that round-trip, all histories of processes and all characters at which they die", "why_tests_cant": "a test kills the process at some points; what must hold is about every character at which a process can die and every history of such deaths", "anchors": ["tools/legacy/serialRunners/_runner_.py:RunnerBase.___readcontents___", "tools/legacy/serialRunners/_runner_.py:RunnerBase.___prepare_write_file___", "tools/legacy/serialRunners/INSTANCES/matrix3d_input_runner.py:Matrix3dInputRunner.iterate"]}
{"id": "C129", "title": "All ranks of a runner call the solver with the same inputs in the same order", "statement": "The matrices given to a runner are accepted exactly if the first two have the same shape, and what is asked for is each pair of numbers at the same place with each number of the third list, where a place can be left out. With several processes, the others call the solver with exactly the inputs of the master in its order, and receive exactly the messages that it sends, whatever has been computed before; so nobody waits for a message that does not come.", "quantifier": "all matrices, all files that were read, all inputs that were computed before", "why_tests_cant": "a deadlock or a different order appears for particular patterns of left out and already computed inputs, which tests sample", "anchors": ["tools/legacy/serialRunners/INSTANCES/matrix3d_input_runner.py:Matrix3dInputRunner.iterate", "tools/legacy/runners/_3d_matrix_inputs/main.py:ParallelMatrix3dInputRunner.iterate"]}
{"id": "C130", "title": "A file of results is read back with its names and rows", "statement": "A file of results, also one that a process left behind that died while it wrote, is read without the runner that wrote it: with the names of the inputs and of the outputs and with the complete rows, which are right and which are those a new process starts with. Disagreement: if there is exactly one output, its name is read with a comma at its end.", "quantifier": "all reachable files, names without commas and quotes", "why_tests_cant": "tests read files that a finished run wrote with particular names", "anchors": ["tools/legacy/serialRunners/_runner_.py:RunnerBase.readfile", "tools/runner.py"]}
{"id": "C131", "title": "In the adaptive setting everything that is current belongs to the newest mesh", "statement": "After any calls of initialize, renew, reading of saved forms, setting of analytic fields and current_base: all current meshes, spaces and forms belong to the newest great mesh and refer to objects of the newest generation only; the generation before is kept unchanged; analytic fields are carried from generation to generation and are the same for a form and its forms at time instants; forms at time instants belong to the current form; reading forms that were saved together makes at most one new generation and all of them are there afterwards; current_base returns the current objects. Disagreements: with a space of unknown orientation (the product of forms of opposite orientations has one) current_base raises; a mesh that includes a mesh which is configured later makes initialize raise; reading forms that were saved in different generations loses the first ones.", "quantifier": "all setups in which meshes include meshes configured before them, all histories of calls", "why_tests_cant": "stale references appear after particular histories of renewals, reads and field changes; tests run a few of them", "anchors": ["msehtt/adaptive/main.py:renew", "msehtt/adaptive/main.py:current_base", "msehtt/adaptive/___func___.py:___func_renew___", "msehtt/adaptive/form/main.py:MseHtt_Adaptive_TopForm"]}
{"id": "C132", "title": "An adaptive system is made for the newest generation with the conditions that were configured", "statement": "apply of an adaptive linear or nonlinear system returns the system of the newest generation, with all conditions configured so far on the current meshes and forms, if it was not called since the last renewal; if it was, it returns the system it returned then. It raises before the first renewal and nowhere else. Disagreement: conditions that are configured after apply was called are silently left out until the next renewal.", "quantifier": "all histories of renewals, reads, configurations and applications", "why_tests_cant": "the result is cached by generation; whether the cache is right depends on the history of calls", "anchors": ["msehtt/adaptive/tools/linear_system.py:MseHtt_Adaptive_Linear_System.apply", "msehtt/adaptive/tools/nonlinear_system.py:MseHtt_Adaptive_NonLinear_System.apply"]}
{"id": "C133", "title": "Renewing cochains keeps them where the mesh did not change and reports whether it did", "statement": "renew with local interpolation gives every element of the new mesh a cochain: the one it had, if no element of its base cell is new, and otherwise one interpolated from the old elements of base cells in which something is new; it reports whether the elements are the same as before. Disagreements: what was found out about meshes is remembered by the addresses of objects that may not be there any more, so after some renewals it may raise or interpolate where nothing changed; methods 1 and 2 always raise, after everything was renewed, if a form has cochains; without triangle splitting a changed mesh makes it raise; if no form with cochains is asked for it reports that all is the same although the mesh changed; renew before initialize raises.", "quantifier": "all sequences of renewals, meshes, element indices and cochains, all addresses of objects", "why_tests_cant": "whether an address is used again depends on the memory of the process, which tests cannot control", "anchors": ["msehtt/adaptive/main.py:renew", "msehtt/adaptive/form/renew/main.py:MseHtt_Adaptive_TopForm_CochainRenew", "msehtt/adaptive/form/renew/method_3_local_interpolation.py:compare_two_meshes"]}
{"id": "C134", "title": "Manufactured solutions of magnetohydrodynamics fulfil the equations whose sources they give", "statement": "For every manufactured MHD solution, in the plane and in space, with and without the Hall effect: velocity and magnetic field are free of divergence, the magnetic field changes by minus the curl of the electric field, a vorticity that is given is the curl of the velocity, and body force and electric source are what the momentum equation and the law of Ohm leave over for these fields (with difference quotients in the place of derivatives), for all Reynolds and coupling numbers; a Reynolds number zero is refused. Disagreement: the velocity of the third Hall solution is not free of divergence.", "quantifier": "all points and times, all Reynolds and coupling numbers, all six solutions in space and the one in the plane", "why_tests_cant": "an identity between functions cannot be settled by evaluating it at points; a wrong sign in a source lowers the order of convergence only in some tests", "anchors": ["tools/samples/manuSolution_MHD3.py", "tools/samples/manuSolution_Hall_MHD.py", "tools/samples/manuSolution_MHD2.py"]}
{"id": "C135", "title": "Manufactured solutions have the boundary values, periods and equilibria they are made for", "statement": "The Hall solutions 1, 2, 3 and 4 have the boundary values their names say on every face of their cubes at all times; solution 0 has the period of its cube; initial conditions of the conservation tests are free of divergence, have their boundary values, and an electric field that fulfils the law of Ohm; the test with null points begins in equilibrium just if the coupling number is 1. Not periodic: the first solution without the Hall effect.", "quantifier": "all points of all faces, all times, all numbers", "why_tests_cant": "boundary values on a face are infinitely many; a test samples them", "anchors": ["tools/samples/manuSolution_Hall_MHD.py", "tools/samples/condition_MHD3_Hu_helicity_test.py", "tools/samples/manuSolution_MHD3.py"]}
{"id": "C136", "title": "Exact solutions and initial conditions that samples offer are what they are named after", "statement": "The Taylor-Green vortex fulfils the Navier-Stokes equations without force, for every Reynolds number and an infinite one, and is periodic; Eigen2 fulfils the linear port-Hamiltonian equations; the fields of the Orszag-Tang vortex are curls of their potentials and free of divergence; the normal dipole has the energy asked for, exactly if it can; the shear layer is free of divergence and continuous; the corner singularity is zero on the edges of the corner and positive inside; polar and Cartesian coordinates are inverse to each other. Disagreement: the velocity of the loop advection is along the diagonal only if the first side is positive.", "quantifier": "all points and times, all parameters", "why_tests_cant": "identities between functions, and parameters of every sign", "anchors": ["tools/samples/manuSolution_NS2.py", "tools/samples/manuSolution_NS3.py", "tools/samples/manuSolution_Eigen2.py", "tools/samples/iniCond_Orszag_Tang_vortex.py", "tools/samples/iniCond_loop_advection.py", "tools/samples/iniCond_shear_layer_rollup.py", "tools/samples/conditions_normal_dipole_collision.py", "tools/samples/manuSolution_L_singularity.py"]}
{"id": "C137", "title": "A function given piece by piece has at every point the value of its piece", "statement": "genpiecewise gives every point the value of the last function whose condition holds there; without one, the fill value, or the value of the default function if there is one more function than conditions; wrong numbers of functions are refused. The discontinuous concentrations that are made with it are one in their corner and 1e-6 everywhere else. Disagreements: with numpy 2 a default function always raises; conditions shorter than the arrays give a result that is too short; with integer arrays the fill value is cut off to an integer; a default function without conditions gives one value only.", "quantifier": "all arrays, conditions, functions and fill values, both generations of numpy", "why_tests_cant": "overlapping and missing conditions are too many to enumerate; what np.place and np.extract do depends on their order", "anchors": ["tools/gen_piece_wise.py:genpiecewise", "tools/samples/iniCond_PNPNS_InitialDiscontinuousConcentrations.py"]}
{"id": "C138", "title": "The manufactured solution for ions in a fluid fulfils the Poisson-Nernst-Planck-Navier-Stokes equations with its sources", "statement": "All derivatives that are given are the derivatives; the fluid is incompressible and the computed divergence is exactly zero; the negative ions fulfil the Poisson equation; both concentrations are positive everywhere exactly if the shift is larger than 1 and than sqrt(1+4 epsilon^2), so that the potentials exist; all fields have the period of the domain; potentials, pressures and vorticity are what their names say; fluxes are diffusion plus drift; the three sources are the left sides of the three equations (with difference quotients in the place of the outer derivatives).", "quantifier": "all points and times, all epsilon and shifts", "why_tests_cant": "identities and inequalities between functions on the whole plane at all times", "anchors": ["tools/samples/manuSolution_PNPNS2.py:Manufactured_Solution_PNPNS_2D_PeriodicDomain1"]}
{"id": "C139", "title": "Computing with data at points is computing with each number, and data on other points are refused", "statement": "Data are accepted exactly if all coordinates are for the same regions and in each region all arrays are there with one shape. Sums, differences, multiples, powers, dot products, cross products and lengths of vectors exist exactly if the points agree (up to the tolerance of allclose) and the components match; the result is on the points of the first operand and each of its numbers is the operation on the numbers there. Disagreements: components may have regions without coordinates, which the maximum counts and the norm fails on; a + b may be refused where b + a is not.", "quantifier": "all regions, shapes, numbers of components and numbers", "why_tests_cant": "shapes, regions and mismatches of points are too many to enumerate; a swapped component is not seen with symmetric data", "anchors": ["tools/dds/region_wise_structured.py:DDSRegionWiseStructured"]}
{"id": "C140", "title": "The maximum and the norm of data at points are those of the data", "statement": "The maximum of a component is the largest absolute number of the component in all regions. The norm of a constant on rectangles is the constant times the root of the area if there are equally many points in both directions. Disagreement: with n times m points the square of the norm is m/n times what it should be, because the number of points of the first direction is used for all directions.", "quantifier": "all regions, rectangles, numbers of points, constants", "why_tests_cant": "tests that use equally many points in both directions cannot see the error", "anchors": ["tools/dds/region_wise_structured.py:DDSRegionWiseStructured.maximum", "tools/dds/region_wise_structured.py:DDSRegionWiseStructured.L2_norm"]}
{"id": "C141", "title": "The stream function of a vector field is found in all regions, up to one constant, without regard to the order of the regions", "statement": "In one region, from any corner, the result is the flow through the edges of one way from the corner to each point, and the corner keeps its value. It exists for all regions exactly if one comes to every region by going from corner to corner, from the first region or from a region that has the given point as a corner; otherwise an exception is raised. If the velocity comes from a stream function whose changes along edges are the trapezoidal flow (in particular if the velocity is linear in the coordinates, on any points), the result is that stream function plus one constant in all regions, and the constant is the one that was asked for. Disagreements: regions that share a side but no corner raise; corners at -1e-12 and 0 are different corners; for other velocities the result jumps between regions; with integer coordinates it is cut to integers.", "quantifier": "all numbers of regions and points, all coordinates and values, all starting points and values", "why_tests_cant": "orders of discovery of regions are too many to enumerate; a path-dependent error is not seen in one region", "anchors": ["tools/dds/region_wise_structured.py:DDSRegionWiseStructured.streamfunction"]}
{"id": "C142", "title": "Data at points, groups of them and saved objects come back from their files as they were", "statement": "An object that was saved is read back equal. A group gives each variable by number and by name; after reading it gives each variable by its number. ph.save keeps for each key the last object given with it and ph.read gives back exactly these; the key named key is refused. Disagreement: the names of the variables of a group are not saved, so that a variable is not found under its name after reading, or another one is found if the names are numbers.", "quantifier": "all data, groups, names and lists of objects", "why_tests_cant": "names that look like numbers, and repeated keys, are cases tests do not think of", "anchors": ["tools/dds/region_wise_structured_group.py:DDS_RegionWiseStructured_Group", "tools/dds/region_wise_structured.py", "tools/save.py:save", "tools/read.py:read"]}
{"id": "C143", "title": "A cochain at a time accepts what fits the form and gives back what it was given", "statement": "A dictionary is accepted exactly if its elements are elements of the rank, each with as many values as dofs, and the elements that are left out have no dofs; then these are the values that are read. A local vector or a global vector of the same numbering is accepted and each dof gets its value; of another numbering, or a global vector without one, it is refused. Disagreement: vectors are compared by numbering only, so that a vector of another form in which an element has no dofs is accepted, and the element has too few values.", "quantifier": "all meshes, distributions over ranks, numberings, dictionaries and vectors", "why_tests_cant": "distributions and numberings are too many; the failure needs elements without dofs", "anchors": ["msehtt/static/form/cochain/instant.py:MseHttTimeInstantCochain._receive", "msehtt/static/form/cochain/instant.py:MseHttTimeInstantCochain.__getitem__", "msehtt/tools/gathering_matrix.py:MseHttGatheringMatrix.__eq__"]}
{"id": "C144", "title": "homogenous makes all values of a global dof the same, and the global vector of a cochain is its values", "statement": "The global vector exists exactly if all elements have as many values as dofs; it has at each number the value of the last place with this number, zero if there is none. After homogenous() all local dofs with the same number have the same value, the one of the last place; a cochain whose values agree is not changed. From a global vector to a cochain and back nothing changes.", "quantifier": "all meshes, distributions, numberings and values", "why_tests_cant": "which place is the last depends on the distribution over ranks", "anchors": ["msehtt/static/form/cochain/instant.py:MseHttTimeInstantCochain.homogenous", "msehtt/static/form/cochain/instant.py:MseHttTimeInstantCochain.gathered_global_vector"]}
{"id": "C145", "title": "The value of a dof of a cochain is found on all ranks", "statement": "of_dof gives on all ranks the same value: that of a place of the dof, if all places agree up to 1.5e-7, and an error otherwise or if there is no place; negative numbers count from the end; this does not depend on what was looked up before. of_local_dof gives the value in the element, whichever rank has it. Merging gives the values of all elements of all ranks. Disagreement: where places differ a little, of_dof and the global vector give different values.", "quantifier": "all meshes, distributions, numberings, values and earlier look-ups", "why_tests_cant": "depends on distribution, on the cache of look-ups and on the order of elements", "anchors": ["msehtt/static/form/cochain/instant.py:MseHttTimeInstantCochain.of_dof", "msehtt/static/form/cochain/instant.py:MseHttTimeInstantCochain.of_local_dof", "msehtt/static/form/cochain/instant.py:MseHttTimeInstantCochain._merge_to"]}
{"id": "C146", "title": "The components of the cochain of a 1-form are its components", "statement": "components(e) cuts the values of an inner 1-form in 2d into those of dx and those of dy, for all degrees. Disagreement: for an outer 1-form it does so exactly if the degrees in both directions are the same, because the numbers of the inner form are used.", "quantifier": "all degrees and values", "why_tests_cant": "tests with equal degrees in both directions cannot see it", "anchors": ["msehtt/static/form/cochain/instant.py:MseHttTimeInstantCochain.components", "msehtt/static/space/num_local_dofs/Lambda/num_local_dofs_m2n2k1.py", "msehtt/static/space/local_numbering/Lambda/ln_m2n2k1.py"]}
{"id": "C147", "title": "Sums, differences and multiples of cochains at times are those of their values, and += keeps them consistent", "statement": "The sum and difference of cochains, and the sum with vectors, are element by element those of the values; a multiple multiplies every value. += with a vector of the same numbering, or a global vector of the right length, adds to every dof the value of its number, and a cochain whose values agree still agrees with itself; other operands are refused. Disagreement: cochains of different forms are added without complaint, even with different numbers of values, where a single value is added to all.", "quantifier": "all meshes, distributions, numberings, values and operands", "why_tests_cant": "needs operands of wrong shape that numpy stretches silently", "anchors": ["msehtt/static/form/cochain/instant.py:MseHttTimeInstantCochain.__add__", "msehtt/static/form/cochain/instant.py:MseHttTimeInstantCochain.__iadd__", "msehtt/static/form/cochain/instant.py:MseHttTimeInstantCochain.__rmul__"]}
{"id": "C148", "title": "What cochains, derivatives and vectors give after any history is determined by which objects were changed in place", "statement": "After any program, an operation changes what an existing cochain or vector gives only if it changes in place (+=, homogenous, customize, renewed data) that object or one it refers to. f.d() gives, after any operations that give neither form a new cochain, the derivative of what f gives now; if nothing is changed in place it gives the derivative of what f gave when d was taken. c * v and -v follow later changes of v, v + w does not; a cochain that was given a vector follows the vector. Disagreements: f.d() is neither a copy nor always the derivative of f: it follows changes in place but not new cochains; 2 * v and v + v differ after v is customized; f[t].cochain += v always raises after having changed the cochain.", "quantifier": "all programs of assignments, derivatives, changes in place, scalings, sums, customizations; all values", "why_tests_cant": "sharing shows only in particular histories, which are unbounded", "anchors": ["msehtt/static/form/main.py:MseHttForm.d", "msehtt/static/form/cochain/main.py:MseHttCochain._set", "msehtt/static/form/cochain/main.py:MseHttCochain.static_vec", "msehtt/tools/vector/static/local.py:MseHttStaticLocalVector", "msehtt/static/form/addons/static.py", "msehtt/static/form/cochain/vector/static.py:MseHttStaticCochainVector.override"]}
{"id": "C149", "title": "A layout gives each region the elements it says, and they fill the region", "statement": "A layout is accepted exactly if every region named exists and has in each direction a positive integer or a non-empty sequence of positive sizes. The sizes are then proportional to those given and add up to one. The elements of a region are as many as the product of the numbers in both directions; they come line by line, have the sizes of the layout, cover the unit square and overlap only on their sides. The mapping of an element takes the reference square to its part of the region, different points to different points, the same points on a shared line, and its Jacobian matrix consists of its derivatives.", "quantifier": "all layouts, regions and mappings", "why_tests_cant": "layouts are arbitrary sequences of rational sizes, mappings arbitrary functions", "anchors": ["msehtt/static/mesh/great/config/msehtt_.py:_study_element_layout_", "msehtt/static/mesh/great/config/msehtt_.py:_parse_elements_", "msehtt/static/mesh/great/config/msehtt_.py:_RegionElementCT_2d_"]}
{"id": "C150", "title": "Regions share a corner exactly if it is the same point", "statement": "Without a given map of the regions, every region gets four numbers in the order of its corners; corners at the same point have the same number, corners with the same number are at most 1e-7 apart, and numbers are contiguous. Disagreement: corners 1e-9 apart on different sides of zero are not recognized, elsewhere they are.", "quantifier": "all lists of regions and mappings", "why_tests_cant": "needs coordinates just below zero from rounding", "anchors": ["msehtt/static/mesh/great/config/msehtt_.py:_parse_regions"]}
{"id": "C151", "title": "Periodic sides make exactly the glued corners the same", "statement": "A periodic setting is accepted exactly if all corners it names exist and no side is put on one with which it shares the corresponding corner. Corners become the same only if the glued sides lead from one to the other; they do become the same if at most three pairs of glued corners lead from each to the smallest of them. Disagreement: the search for links stops after three passes, so that of six squares glued to a fan around one corner four share it and two have another one, depending on the order of the pairs.", "quantifier": "all maps of regions and all periodic settings", "why_tests_cant": "needs chains of links longer than any test, in an adverse order", "anchors": ["msehtt/static/mesh/great/config/msehtt_.py:_parse_pbc"]}
{"id": "C152", "title": "Corners of elements have the same number exactly if they are the same place", "statement": "The elements are made exactly if every region has a layout and four different corners. Two corners of elements have the same number exactly if they are the same corner of regions, divide sides between the same two corners in the same way, or are the same place of one region (to seven decimals). In one region this means at most 1e-7 apart. Disagreements: sides are known only by their two ends, so that two squares that are periodic in one direction have the middles of their bottoms identified; layouts that divide a shared side differently are accepted and leave corners in the middle of sides; lines 1e-8 apart are merged.", "quantifier": "all regions, maps, periodic settings and layouts", "why_tests_cant": "numbers of elements and layouts are unbounded; failures need few periodic regions or non-matching layouts", "anchors": ["msehtt/static/mesh/great/config/msehtt_.py:_parse_elements_", "msehtt/static/mesh/great/config/msehtt_.py:___parse_2d_element_map___", "msehtt/static/mesh/great/config/msehtt_.py:MseHtt_Static_PreDefined_Config"]}
{"id": "C153", "title": "Dofs of a coarse grid correspond to the dofs of the fine grid that are part of them", "statement": "For each dof of the coarse form, the dofs found are exactly those of the fine form with a place that is a part of one of its places, with the same key of groups, and that were not found for a dof before, each once. No fine dof corresponds to two coarse dofs. With one place for each dof the groups leave nothing out. It is complete exactly if every coarse dof has some and its first place is the union of some of their places. Disagreements: points within the tolerance on different sides of zero have different keys and are not found; with periodic sides only the first place counts, so that the order of the elements decides.", "quantifier": "all distributions of dofs and places over ranks, all kinds of geometries", "why_tests_cant": "numbers of dofs and ranks are unbounded; failures need rounding around zero or periodic sides with another order", "anchors": ["msehtt/multigrid/mesh/great/dof_correspondence/global_.py:_globalDofCorresponding__msehtt_static_form_", "msehtt/multigrid/mesh/great/dof_correspondence/main.py:global_correspondence", "tools/miscellaneous/geometries/m2n2.py:Point2", "tools/miscellaneous/geometries/m2n2.py:StraightSegment2"]}
{"id": "C154", "title": "Passing a reduction to a coarser grid gives the reduction there", "statement": "If the correspondence is complete and the values of the fine form are those of a quantity that adds up over unions, different fine dofs are at different places and have one place in each coarse place, then the values passed are those of the quantity at the coarse dofs. For points this needs only that every coarse point is a fine point. For segments the test of lengths suffices: the parts cover the segment without gap or overlap, so differences between ends are passed exactly.", "quantifier": "all grids, all quantities", "why_tests_cant": "quantities are arbitrary functions, grids arbitrary", "anchors": ["msehtt/multigrid/mesh/great/pass_.py:cochain", "tools/miscellaneous/geometries/m2n2.py:StraightSegment2.is_equal_to_a_union_of_a_part_of_separate_geometries_of_same_type"]}
{"id": "C155", "title": "Passing on a rank needs only what is there, and ranks agree on how it is done", "statement": "On a rank the correspondence fails exactly if a dof that corresponds to one of the rank is elsewhere. Otherwise, where it is complete, passing local cochains or the global vector gives the sums over all corresponding dofs; where it is not, or the target is finer, the form is projected, or it fails if only complete ones are wanted. Disagreements: a rank without elements finds nothing and projects or fails while the others pass values; passing to a form in the same space always fails.", "quantifier": "all distributions over ranks, all cochains", "why_tests_cant": "needs all distributions, with ranks without elements", "anchors": ["msehtt/multigrid/mesh/great/pass_.py:cochain", "msehtt/multigrid/mesh/great/pass_.py:vector_through_cochain", "msehtt/multigrid/mesh/great/dof_correspondence/main.py:global_correspondence"]}
{"id": "C156", "title": "Every element of a fine mesh belongs to one element of the coarse mesh", "statement": "The hierarchy is accepted exactly if every center of the fine mesh is in some element of the coarse one. Each coarse element then has, in their order, the fine elements whose centers are in it and in no element before it; every fine element is in exactly one list.", "quantifier": "all meshes and all tests of being inside", "why_tests_cant": "numbers of elements are unbounded, elements arbitrary", "anchors": ["msehtt/multigrid/mesh/great/hierarchy.py:_make_hierarchy_between_uniform_levels_"]}
{"id": "C157", "title": "Levels of meshes, spaces and forms fit together in whatever order they are asked for", "statement": "After any requests a level is given exactly if it is 0 or below the maximal number of levels, and always the same object. A form on a level is on the great mesh of the level, its partial mesh and its space on the level, and these on the same great mesh; a form at a time is on those of its base form on the level. The level of a form is found.", "quantifier": "all histories of requests", "why_tests_cant": "histories are unbounded, and objects are made in whatever order they are asked for", "anchors": ["msehtt/multigrid/form/main.py:get_level", "msehtt/multigrid/space/main.py:get_level", "msehtt/multigrid/mesh/partial/main.py:get_level", "msehtt/multigrid/mesh/great/main.py:get_level", "msehtt/multigrid/mesh/great/main.py:find_level"]}
{"id": "C158", "title": "Every dof on rectangles and boxes has its place, and no two dofs have the same", "statement": "The geometric object of a local dof is the node, edge, face or cell at its place in the numbering, components in their order and x first, for all degrees and nodes; numbers that are no dofs give errors; different dofs of an element have different objects. Disagreements: the cell of a 3-form is given with the side along y as its side along x, so it has its bounds only if the two agree; edges and faces with a side of 0.0001 or less give an error; the polygon of a 2-form in the plane is that of the cell only on rectangles along the axes.", "quantifier": "all degrees, nodes, elements and dof numbers", "why_tests_cant": "degrees and nodes are arbitrary, and tests use cubes of equal sides", "anchors": ["msehtt/static/space/find/dof_geometry/main.py:local_dof", "msehtt/static/space/find/dof_geometry/local/findLocalDof_Lambda.py:_find_geo_local_dof_m3n3k3_", "msehtt/static/space/local_numbering/Lambda/ln_m3n3k1.py:local_numbering_Lambda__m3n3k1", "tools/miscellaneous/geometries/m3n3.py:OrthogonalHexahedron"]}
{"id": "C159", "title": "One object contains another exactly if every point of the other is near a point of it", "statement": "A segment along an axis, rectangle across an axis or box has the points between its origin and the opposite corner, whatever the signs of its sides, and is made exactly if its sides are longer than 0.0001. It contains another of its kind exactly if each point of the other is within 1e-8 of one of its points in every coordinate. Segments and rectangles are equal exactly if they contain each other. Disagreements: boxes have the right points only if the sides along x and y agree, otherwise a box may lack its own half or contain one outside; equal boxes need not contain each other.", "quantifier": "all segments, rectangles and boxes", "why_tests_cant": "objects have arbitrary coordinates, the tests compare with tolerances in several branches", "anchors": ["tools/miscellaneous/geometries/m3n3.py:OrthogonalSegment3", "tools/miscellaneous/geometries/m3n3.py:PerpRectangle", "tools/miscellaneous/geometries/m3n3.py:OrthogonalHexahedron"]}
{"id": "C160", "title": "Comparing measures tells whether separate parts make up the whole", "statement": "For objects with coordinates on a common grid that is not too fine, and separate candidates, an object is said to be a union of some of the candidates exactly if some of the candidates on its line or in its plane together have exactly its points. Without a grid, what is left uncovered holds no rectangle of area above the tolerance and the margin of the containment. A point is a union of points exactly if one is within 1e-8 of it, with an error for repeated points. Disagreements: rectangles and boxes of measure below 1e-7 are unions of nothing; a long box is a union of its half; a segment given from its other end is not a union of itself.", "quantifier": "all objects and all lists of candidates", "why_tests_cant": "numbers of candidates are unbounded; that equal measures imply covering is a theorem on all points", "anchors": ["tools/miscellaneous/geometries/m3n3.py:is_equal_to_a_union_of_a_part_of_separate_geometries_of_same_type"]}
{"id": "C161", "title": "All levels of a uniform multigrid get conforming nodes", "statement": "For a degree N of at least three and finest nodes that are increasing from -1 to 1, symmetric and not too far apart, as Lobatto nodes are, every level of a multigrid of any depth gets N + 1 nodes, increasing from -1 to 1 and symmetric; every node of a level is a node of one of the two halves of its element on the next finer level, and so of one of the 2^t parts on the finest level. The finest level gets the given nodes. Other refinements than by two, smaller degrees and levels that are not there are refused. Without any hypothesis, what is returned is within 1e-12 of nodes of the halves.", "quantifier": "all degrees, depths, levels and finest nodes", "why_tests_cant": "depth and degree are unbounded: that the search finds enough nodes on each level is an invariant from level to level", "anchors": ["msehtt/static/mesh/great/elements/types/degree_parsers/uniform_multigrid.py:___parse_uniform_multigrid_degree___", "msehtt/static/mesh/great/elements/types/degree_parsers/uniform_multigrid.py:split_into_parts_according_to_distribution"]}
{"id": "C162", "title": "The trilinear number a(A, B, C) is the integral of (A x B) . C and skew in the last two forms", "statement": "On a part of a mesh, the number computed for three forms is the quadrature of (A x B) . C over the elements of all ranks, with a scalar A normal to the plane in two dimensions. It changes its sign if the last two forms are exchanged and is zero if they are equal, for every quadrature. It does not depend on how the elements are distributed over ranks, and in an element it is the contraction of the array of the nonlinear term with the three cochains. Forms with other numbers of components are refused.", "quantifier": "all forms, quadratures, elements and distributions over ranks", "why_tests_cant": "the values of the fields are arbitrary and the elements are distributed by the number of ranks", "anchors": ["msehtt/static/mesh/partial/elements/compute.py:PartialMesh_Elements_Compute.a"]}
{"id": "C163", "title": "Integrals of functions over a part of a mesh are exact for polynomials, linear, monotone and additive", "statement": "The integral of a function of time and the plane over a part of a mesh of orthogonal rectangles is exact for products of polynomials of degrees for which the rule is exact. On all meshes it is linear in the function, monotone if weights and Jacobians are not negative, additive over disjoint parts, and independent of the distribution over ranks. It also works on meshes of space.", "quantifier": "all functions, parts, rules and distributions over ranks", "why_tests_cant": "functions and meshes are arbitrary", "anchors": ["msehtt/static/mesh/partial/elements/compute.py:PartialMesh_Elements_Compute.integrate"]}
{"id": "C164", "title": "CFL numbers bound the part of an element passed in a time step", "statement": "The exported CFL number of an element is the largest part of a side that a velocity sampled in the element passes in the time step: none passes more, one passes this, so it is at most one exactly if none passes more than a side. It is proportional to the step. The table has each element of each rank once, with its own number; other forms, dimensions and elements are refused. It bounds the velocity in the whole element.", "quantifier": "all velocities, sides, steps, elements and ranks", "why_tests_cant": "velocities are arbitrary functions, and the sample is finite", "anchors": ["msehtt/static/mesh/partial/elements/cfl.py:MseHtt_PartialMesh_Elements_CFL_condition"]}
{"id": "C165", "title": "The file of CFL numbers has the cells of the mesh with shared corners", "statement": "In the exported unstructured grid the cells are those of the elements in order, the i-th ends at offset 4(i+1), its entries are the numbers of points whose coordinates agree with those of its corners after rounding to seven digits, and the numbers are in the same order. Every point of the file is a corner of a cell and no two points have the same rounded coordinates. Corners that are the same up to rounding of floats are one point.", "quantifier": "all meshes of orthogonal rectangles and distributions over ranks", "why_tests_cant": "whether neighbouring corners become one point depends on all coordinates", "anchors": ["msehtt/static/mesh/partial/elements/cfl.py:MseHtt_PartialMesh_Elements_CFL_condition", "msehtt/static/mesh/great/elements/types/orthogonal_rectangle.py:MseHttGreatMeshOrthogonalRectangleElement"]}
{"id": "C166", "title": "What a crash of an iterator can lose of the file of results", "statement": "While an iterator runs, its table of results is written to a file. Whichever writes fail, the file holds the initial values and the results of the first iterations, or what was there before. If each save succeeds at one of its two attempts, all iterations are in it but those that ended less than 600 (1 - factor) seconds after the last one in it; with factor one, all iterations that have ended. After the run all are in it, if one of the last attempts succeeds within a minute. The table has one row for each iteration. This also holds when writes fail, when the process ends during a write, and for a run over an empty range.", "quantifier": "all histories of iterations, clocks, failing writes and crash points between saves", "why_tests_cant": "crash points, clocks and failures are arbitrary", "anchors": ["tools/iterator/monitor.py:IteratorMonitor._measure_end", "tools/iterator/monitor.py:IteratorMonitor.save", "tools/iterator/main.py:Iterator.run"]}
{"id": "C167", "title": "Reports of an iterator show the right rows, times and progress", "statement": "A report shows different rows in order, at most the given number, the first and all of the last ones among them, and all if there are few. At most one iteration is left out of the plot of times: the longest, if it is more than twice the average and no other is above nine tenths of it. The estimated remaining time is in proportion to the iterations that remain and zero at the end, and the percentage is between 0 and 100, and 100 only at the end.", "quantifier": "all numbers of rows, limits and lists of times", "why_tests_cant": "lengths and times are arbitrary", "anchors": ["tools/iterator/monitor.py:IteratorMonitor._select_reasonable_amount_of_data", "tools/iterator/monitor.py:IteratorMonitor._filter_extreme_time", "tools/iterator/monitor.py:IteratorMonitor._estimated_remaining_time_"]}
{"id": "C168", "title": "Times written as strings are read back", "statement": "A number of seconds written as hours, minutes and seconds, with or without days, is read back as the seconds rounded down; with milliseconds it is read back within a millisecond. The strings in reports are those without milliseconds.", "quantifier": "all numbers of seconds, of any sign and size", "why_tests_cant": "the number of hours or days is unbounded", "anchors": ["tools/miscellaneous/timer.py:MyTimer.seconds2hms", "tools/miscellaneous/timer.py:MyTimer.dhms2seconds", "tools/miscellaneous/timer.py:MyTimer.dhmsm2seconds"]}
{"id": "C169", "title": "Splitting a mesh gives consistent names and numbers on all ranks", "statement": "Splitting all elements of a mesh (ts) gives, for each element, exactly the new elements of the rule for its type, all with different indices. There is one numbering of nodes for all ranks: old nodes keep their numbers, and two corners get the same number exactly if they are the same old node, the middle between the same old nodes or the centre of the same element. A mesh can be split exactly if it has an element and all have a type with a rule and maps of the right length. This holds for all different indices.", "quantifier": "all meshes, types, maps, indices and distributions over ranks", "why_tests_cant": "meshes, ranks and numbers are unbounded", "anchors": ["msehtt/static/mesh/great/main.py:MseHttGreatMesh.___ts___"]}
{"id": "C170", "title": "Nodes of a split mesh are where the elements say they are", "statement": "If every node of a mesh of triangles, quadrilaterals and rectangles has one place, then so it has after any number of splits: old nodes stay, and new nodes are at the average of the ends of their side or of the corners of their element, whichever element and rank one asks.", "quantifier": "all meshes with straight sides and all numbers of splits", "why_tests_cant": "the number of splits and of elements is unbounded", "anchors": ["msehtt/static/mesh/great/main.py:MseHttGreatMesh.___ts___"]}
{"id": "C171", "title": "Split elements make up the element", "statement": "The new elements of an element have its area together, after any number of splits; those of convex elements are convex with the same sense; those of quadrilaterals, rectangles and curvilinear quads are its four quarters, with its mapping on a quarter of the reference square and the Jacobian matrix of it.", "quantifier": "all corners, mappings and numbers of splits", "why_tests_cant": "coordinates and mappings are arbitrary", "anchors": ["msehtt/static/mesh/great/main.py:MseHttGreatMesh.___ts___", "msehtt/static/mesh/great/main.py:___TSH_UCQ___"]}
{"id": "C172", "title": "Sides of a split mesh are shared as before", "statement": "In a split mesh in the plane each old side is two sides, from its ends to its middle, and each belongs to as many elements as before: inner sides stay inner sides and the boundary stays the boundary. All other sides are inside an old element and belong to two new ones. Different sides have different halves.", "quantifier": "all meshes in the plane, with straight or curved elements", "why_tests_cant": "meshes are unbounded", "anchors": ["msehtt/static/mesh/great/main.py:MseHttGreatMesh.___ts___"]}
{"id": "C173", "title": "ts splits a mesh that many times and keeps all levels", "statement": "With ts = t the mesh is split t times, ts(j) is the mesh split j times for every j below t, and there are no others. If the first split is possible then all are. The first split makes three elements of a triangle, four of another element in the plane and eight of a box, and each later one four or eight of each.", "quantifier": "all meshes and all t", "why_tests_cant": "t is unbounded", "anchors": ["msehtt/static/mesh/great/main.py:MseHttGreatMesh._parse_ts_", "msehtt/static/mesh/great/main.py:MseHttGreatMesh.ts"]}
{"id": "C174", "title": "Split boxes", "statement": "The new elements of an orthogonal hexahedron or voxel are its eight octants: boxes with half the edges that cover it and do not overlap. If every node has one place, then so it has after any number of splits; the middles of edges and faces are the same node exactly if the edges or faces have the same nodes.", "quantifier": "all meshes of boxes and all numbers of splits", "why_tests_cant": "meshes and splits are unbounded", "anchors": ["msehtt/static/mesh/great/main.py:MseHttGreatMesh.___ts___", "msehtt/static/mesh/great/elements/types/vtu_11_voxel.py:Vtu_11_Voxel"]}
{"id": "C175", "title": "Meshes of triangular and quadrilateral regions", "statement": "Regions that pass the check give a mesh with the regions as elements and their vertices at the given places. Splitting them gives the same elements under the same indices as splitting the mesh, with the same corners coinciding, nodes numbered from zero without gaps, and one place for each node after any number of splits.", "quantifier": "all regions, vertices and numbers of splits", "why_tests_cant": "regions and splits are unbounded", "anchors": ["msehtt/static/mesh/great/config/tqr.py:TriQuadRegions", "msehtt/static/mesh/great/config/tqr.py:MseHtt_TQR_config"]}
{"id": "C176", "title": "The elements of a periodic slice fill the domain", "statement": "A periodic slice is made exactly for two positive numbers of elements, a positive number of levels, a positive thickness and bounds in order. Its elements are numbered from zero on, have all the same size, and every point of the domain is in exactly one of them.", "quantifier": "all bounds, thicknesses, layouts and numbers of levels", "why_tests_cant": "layouts are unbounded and points are arbitrary", "anchors": ["msehtt/static/mesh/great/config/specific_meshes/periodic_slice.py:periodic_slice"]}
{"id": "C177", "title": "The nodes of a periodic slice are the places of the periodic domain", "statement": "Two corners of elements of a periodic slice have the same node exactly if their coordinates differ by multiples of the lengths of the domain. The nodes are numbered from zero on without gaps, as many as there are elements.", "quantifier": "all layouts, elements and corners", "why_tests_cant": "layouts are unbounded", "anchors": ["msehtt/static/mesh/great/config/specific_meshes/periodic_slice.py:periodic_slice"]}
{"id": "C178", "title": "Edges and faces of a periodic slice are identified by their nodes", "statement": "Two edges (faces) of elements of a periodic slice have the same nodes in the same order, by which the dofs on them are numbered, exactly if they are the same edge (face) of the periodic domain.", "quantifier": "all layouts, elements, edges and faces", "why_tests_cant": "layouts are unbounded", "anchors": ["msehtt/static/mesh/great/config/specific_meshes/periodic_slice.py:periodic_slice", "msehtt/static/space/gathering_matrix/Lambda/GM_m3n3k2.py:gathering_matrix_Lambda__m3n3k2"]}
{"id": "C179", "title": "A periodic slice has no boundary and each face has a neighbour", "statement": "No face of a periodic slice is a boundary face, and the table of neighbours of the mesh gives at each face of each element the one other element that has this face in the periodic domain.", "quantifier": "all layouts, elements and faces", "why_tests_cant": "layouts are unbounded", "anchors": ["msehtt/static/mesh/great/config/specific_meshes/periodic_slice.py:periodic_slice", "msehtt/static/mesh/great/elements/main.py:MseHttGreatMeshElements.global_neighbors"]}
{"id": "C180", "title": "The file of a ranking is a ranking after any tests", "statement": "After any tests of machines one after the other, the file of a Ranking holds at most top_how_much machines, each once, with the cost of its last test, the cheapest first. A test changes no record of another machine, puts the machine at the place its cost gives it and reports that place.", "quantifier": "all machines, sizes, costs, limits and histories of tests", "why_tests_cant": "histories are unbounded", "anchors": ["tools/miscellaneous/ranking.py:Ranking.start_ranking", "tools/miscellaneous/ranking.py:Ranking.report_ranking"]}
{"id": "C181", "title": "A ranking is printed as it is in the file", "statement": "Ranking.print_ranking prints for each machine of the file, from top to bottom, its name, the number of ranks and the cost that were written.", "quantifier": "all rankings", "why_tests_cant": "rankings are unbounded", "anchors": ["tools/miscellaneous/ranking.py:Ranking.print_ranking"]}
{"id": "C182", "title": "The intersection of two lines", "statement": "find_line_intersection gives a point exactly if it is the only one on both lines, and None exactly if they are parallel. The order of the lines and of the points on them does not matter.", "quantifier": "all four points", "why_tests_cant": "coordinates are arbitrary", "anchors": ["tools/functions/space/_2d/line_intersection.py:find_line_intersection"]}
{"id": "C183", "title": "Functions that are given line by line", "statement": "scalar_on_lines and vector_on_lines give at a point of a line that is on no line before it the value of the function given for that line, and zero away from all lines, for numbers and entry by entry for arrays. Components of a vector are the scalars with the component functions.", "quantifier": "all lists of lines and functions, times, points and arrays", "why_tests_cant": "lists and arrays are unbounded and points are arbitrary", "anchors": ["tools/functions/time_space/_2d/wrappers/scalar_on_lines.py:scalar_on_lines", "tools/functions/time_space/_2d/wrappers/vector_on_lines.py:vector_on_lines"]}
{"id": "C184", "title": "Meshes of triangles are taken over as they are", "statement": "For outline points, the facets given to the triangulation go once around them. Of the triangles it gives, exactly those with an area become elements, in order, with nodes at their corners; nodes are at different places. If the points are more than 1e-9 apart, nothing is renumbered.", "quantifier": "all outlines, points and triangles", "why_tests_cant": "meshes are unbounded and coordinates arbitrary", "anchors": ["msehtt/static/mesh/great/config/meshpy_.py:MseHtt_API_2_MeshPy", "msehtt/static/mesh/great/config/meshpy_.py:___round_trip_connect___"]}
{"id": "C185", "title": "Renaming the files of a folder loses nothing and names them as asked", "statement": "Files with the chosen extensions are afterwards found, unchanged, under the prefix, an underscore, their number in the listing and their own extension; the other files keep their names; no file is lost; prefixes with special characters are refused before anything is renamed.", "quantifier": "all folders, listings, prefixes and extensions", "why_tests_cant": "the order of a listing is arbitrary, and so are the names that are there", "anchors": ["tools/miscellaneous/rename_files_in_folder.py:rename_files_in_folder", "tools/miscellaneous/rename_files_in_folder.py:contains_special_characters"]}
{"id": "C186", "title": "Functions and methods whose values are kept give what they would give without", "statement": "In any history of calls, a decorated function or method gives what it would give when it is not decorated, and it is run once for equal arguments; objects and methods do not share values, and an error is not kept.", "quantifier": "all functions, objects, arguments and histories of calls", "why_tests_cant": "histories are unbounded", "anchors": ["tools/decorators/memoize/memoize_1.py:memoize1", "tools/decorators/memoize/memoize_2.py:memoize2", "tools/decorators/memoize/memoize_3.py:memoize3", "tools/decorators/memoize/memoize_4.py:memoize4", "tools/decorators/memoize/memoize_5.py:memoize5"]}
{"id": "C187", "title": "A function with requirements is called with arguments that meet them only", "statement": "A decorated function is called iff each argument meets its requirement: a kind of integers, one of several classes or names of classes, a shape, a number of axes.", "quantifier": "all requirements and arguments", "why_tests_cant": "requirements and shapes are unbounded", "anchors": ["tools/decorators/accepts.py:accepts"]}
{"id": "C188", "title": "The dofs on the faces of a hexahedron are those that are there", "statement": "For every degree and each of the six faces, the local dofs on it are exactly the nodes, edges or faces of the reference grid that are in it, in increasing order, so that opposite faces fit. By component, they are numbered within the component, and asking does not change what is given later.", "quantifier": "all degrees, faces and kinds of forms", "why_tests_cant": "degrees are unbounded", "anchors": ["msehtt/static/space/find/local_dofs_on_face/Lambda/m3n3k0.py:find_local_dofs_on_face__m3n3k0", "msehtt/static/space/find/local_dofs_on_face/Lambda/m3n3k1.py:find_local_dofs_on_face__m3n3k1", "msehtt/static/space/find/local_dofs_on_face/Lambda/m3n3k2.py:find_local_dofs_on_face__m3n3k2", "msehtt/static/space/local_numbering/Lambda/ln_m3n3k2.py"]}
{"id": "C189", "title": "The place that is given for a dof of a node is that of its node", "statement": "For rectangles and hexahedra of every degree, the place of each local dof of a 0-form in the reference element is its node, and in the domain what this is mapped to.", "quantifier": "all degrees, nodes and mappings", "why_tests_cant": "degrees are unbounded", "anchors": ["msehtt/static/space/local_dofs/Lambda/LDofs_m2n2k0.py:LDofs_Lambda__m2n2k0", "msehtt/static/space/local_dofs/Lambda/LDofs_m3n3k0.py:LDofs_Lambda__m3n3k0"]}
{"id": "C190", "title": "A degree is accepted iff it is a positive integer or has one positive integer for each place", "statement": "For every dimension and every value given as a degree: it is accepted for a space of forms iff it is a positive integer or a list of one positive integer for each axis, and for bundle-valued forms iff it is a positive integer or a square matrix of positive integers. A number that is accepted alone is accepted for each axis. Along each axis there are one node more than the degree and as many edges, which are the distances of neighbouring nodes.", "quantifier": "all dimensions, values and degrees", "why_tests_cant": "values and degrees are unbounded", "anchors": ["msepy/space/degree.py:PySpaceDegree", "tools/quadrature.py:Quadrature"]}
{"id": "C191", "title": "Sums, differences and derivatives of forms follow the forms they are made of", "statement": "For all forms made of others by +, - and d, nested in any way, and all cochains: at a time they have a cochain iff all forms they are made of have one at this time, and it is the sum, the difference or the incidence matrix times the cochain. Without a time, their common newest time is taken. A cochain that is set later is seen at once, and changes nothing at other times or in other forms.", "quantifier": "all nested forms, cochains and times", "why_tests_cant": "nesting and histories are unbounded", "anchors": ["msepy/form/main.py:MsePyRootForm.d", "msepy/form/main.py:MsePyRootForm.__sub__", "msepy/form/main.py:MsePyRootForm.__add__", "msepy/form/cochain/passive.py:MsePyRootFormCochainPassive", "msepy/form/cochain/time_instant.py:_CochainAtOneTime.local"]}
{"id": "C192", "title": "The value of a dof is the mean over all places where it is", "statement": "For every gathering matrix, local cochain and dof, the value that is given for the dof is the mean of the values at all places where the dof is, and the entry of the global vector if the cochain comes from one. Negative numbers count from the end.", "quantifier": "all gathering matrices, cochains and dofs", "why_tests_cant": "sizes are unbounded", "anchors": ["msepy/form/cochain/time_instant.py:_CochainAtOneTime.of_dof", "msepy/tools/gathering_matrix.py:RegularGatheringMatrix._find_elements_and_local_indices_of_dofs"]}
{"id": "C193", "title": "Functions by region are combined region by region", "statement": "For all functions that are given by region: two of them are added or subtracted iff they are given for the same regions, and then region by region; the negative is taken in each region.", "quantifier": "all sets of regions and functions", "why_tests_cant": "the number of regions is unbounded", "anchors": ["tools/functions/region_wise_wrapper.py:RegionWiseFunctionWrapper"]}
{"id": "C194", "title": "Regions made of four points or of bounds have these corners and straight sides, and do not fold", "statement": "For all four points and all bounds: the corners of the reference region are mapped to the points in order, and its sides to the straight lines between them. If the points are the corners of a convex quadrilateral in anticlockwise order, different points of the reference region are mapped to different points. Bounds are accepted iff they are increasing; then the map is one to one onto the rectangle, and its Jacobian matrix has its derivatives.", "quantifier": "all points, bounds and points of the reference region", "why_tests_cant": "points are real numbers", "anchors": ["msehtt/static/manifold/predefined/quad.py:quad", "msehtt/static/manifold/predefined/rectangle.py:rectangle"]}
{"id": "C195", "title": "What is known of dofs by number is what the elements know of them", "statement": "For every gathering matrix and all local knowledge of dofs: the table by number has exactly the dofs of the rank, what it says of a dof is what one of its elements says, and if elements that share a dof agree, it is what each of them says.", "quantifier": "all gathering matrices and local knowledge", "why_tests_cant": "sizes are unbounded", "anchors": ["msehtt/static/form/dofs/main.py:MseHtt_StaticForm_Dofs"]}
{"id": "C196", "title": "The number of singularities of a matrix is its number of singular modes", "statement": "For every matrix, num_singularities is the dimension of the space of vectors that the matrix maps to zero. For square matrices it is zero iff the matrix is regular.", "quantifier": "all shapes and matrices", "why_tests_cant": "shapes and entries are unbounded", "anchors": ["msepy/tools/matrix/static/assembled.py:MsePyStaticAssembledMatrix.num_singularities", "msehtt/tools/matrix/static/global_.py", "msehtt/tools/matrix/static/local.py"]}
{"id": "C197", "title": "Removing files removes those that are given, in order, up to the first that cannot be", "statement": "For all files and folders and all paths given: files are removed one after the other up to the first path that is not a file any more; nothing else is removed. There is no error iff all paths are different files.", "quantifier": "all states of the file system and lists of paths", "why_tests_cant": "states and lists are unbounded", "anchors": ["tools/os_.py:remove"]}
{"id": "C198", "title": "Emptying a folder removes the files in it and nothing else", "statement": "For all files and folders, every folder and every order in which its names are listed: wherever it ends, nothing but files directly in the folder is removed. It ends without an error iff the path is a folder without folders in it, and then nothing is left in it. If there is an error, nothing has changed.", "quantifier": "all states of the file system, folders and orders", "why_tests_cant": "states are unbounded, and an error may end the loop at any place", "anchors": ["tools/os_.py:empty_dir", "tools/os_.py:listdir"]}
{"id": "C199", "title": "Folders are made and removed without loss of files", "statement": "For all histories of making folders, removing folders, emptying folders and removing files, with or without errors and by any ranks: all that is there is in folders, and only the master rank has an effect. Making a folder changes nothing else, and nothing at all if it is there already. Removing folders never removes a file or a folder that is not given; a folder is removed iff it is empty.", "quantifier": "all histories, ranks and states of the file system", "why_tests_cant": "histories are unbounded", "anchors": ["tools/os_.py:mkdir", "tools/os_.py:rmdir"]}
{"id": "C200", "title": "A wrapped operator gets the cochains given last for its forms, one being left open", "statement": "For every operator that wraps a maker of data and all pairs of forms and cochains: it is made iff no form is repeated. It gives a value iff every pair has a form and a cochain and exactly one of its forms has no cochain; the maker then gets for each form the cochain that was given last. The order of pairs of different forms makes no difference, and neither do pairs of other forms. A number times the operator gives the number times the value.", "quantifier": "all operators, pairs of forms and cochains, and numbers", "why_tests_cant": "the numbers of forms and pairs are unbounded", "anchors": ["msehtt/tools/nonlinear_system/operator/local_wrapper.py:MseHttStatic_Local_Wrapper_NonlinearOperator", "msehtt/tools/nonlinear_system/operator/local_wrapper.py:MseHttStatic_Local_Wrapper_NonlinearOperator_DataMaker"]}
{"id": "C201", "title": "Scalars, vectors and tensors have the dimension of their functions", "statement": "For every function, method or number: a scalar of dimension n is made iff a function of time and n coordinates is given, a method of these, or 0 in a space of dimension n, where n is 1, 2 or 3 and not 1 for 0. A vector of dimension n is made iff n functions are given, and a tensor iff n times n are, where n is 2 or 3.", "quantifier": "all numbers of arguments and functions, and dimensions", "why_tests_cant": "numbers of arguments are unbounded", "anchors": ["tools/vector_calculus.py:scalar", "tools/vector_calculus.py:vector", "tools/vector_calculus.py:tensor"]}
{"id": "C202", "title": "A boundary section has the faces of elements on the sides of regions that it covers", "statement": "For every mesh of boxes of elements and every section of its boundary in two or three dimensions: the faces of the section are exactly the sides of elements that are on a side of a region that the section covers, each once. It is an error iff a covered side is not on the boundary of the mesh or the dimension is another.", "quantifier": "all regions, shapes, numberings and sections", "why_tests_cant": "numbers of regions and elements are unbounded", "anchors": ["msepy/mesh/boundary_section/faces.py:MsePyBoundarySectionFaces._initialize_elements"]}
{"id": "C203", "title": "The same face read through different sections is the same object", "statement": "For all histories of reading faces by number through sections of one mesh: the same side of the same element is always the same object, and different ones are different objects. What a number gives does not depend on what was read before.", "quantifier": "all histories, sections and numbers", "why_tests_cant": "histories are unbounded", "anchors": ["msepy/mesh/boundary_section/faces.py:MsePyBoundarySectionFaces.__getitem__"]}
{"id": "C204", "title": "All root-forms are implemented, and forms at time instants belong to their base forms", "statement": "For all registered root-forms, in whatever order they were registered: if all have a degree, each has one counterpart, which is made of it; a form at a time instant belongs to the counterpart of its base form, and the forms at time instants that a form knows are exactly those of which it is the base form. If one has no degree, an error is raised.", "quantifier": "all sets and orders of root-forms", "why_tests_cant": "the number of forms is unbounded, and forms may be registered before their base forms", "anchors": ["msehtt/static/main.py:_parse_root_forms", "src/fem.py:apply"]}
{"id": "C205", "title": "apply gives the names of objects that have counterparts, with these", "statement": "For every implementation and all named objects: apply gives exactly the names of objects that have a counterpart in the implementation, each with its own counterpart; other objects are ignored. An error is raised iff a manifold or a mesh is given that the implementation does not have.", "quantifier": "all implementations and named objects", "why_tests_cant": "the number of objects is unbounded", "anchors": ["src/fem.py:apply", "src/fem.py:_parse_obj"]}
