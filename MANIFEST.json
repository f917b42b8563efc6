{
 "claims": [
  {
   "property": "C01",
   "status": "partial",
   "theorems": [
    "Phyem.Expr.meaning_partial",
    "Phyem.Expr.reading",
    "Phyem.Expr.text_decomposes",
    "Phyem.Expr.wrong_count_refused",
    "Phyem.Expr.system_in_order",
    "Phyem.Expr.index_of_term",
    "Phyem.Expr.double_minus_refuted",
    "Phyem.Expr.minus_plus_refuted"
   ],
   "note": "Exact for every text in which a minus is the last sign in front of its term; false for \"a - -b\" and \"a - +b\", which are accepted with another meaning."
  },
  {
   "property": "C02",
   "status": "proved",
   "theorems": [
    "Phyem.WeakForm.rearrange_pattern",
    "Phyem.WeakForm.rearrange_terms",
    "Phyem.WeakForm.rearrange_keeps",
    "Phyem.WeakForm.rearrange_refuses",
    "Phyem.WeakForm.rearrange_list"
   ],
   "note": "every weak formulation and every pattern text; accepted patterns are characterised exactly"
  },
  {
   "property": "C03",
   "status": "proved",
   "theorems": [
    "Phyem.WeakForm.replace_accepts",
    "Phyem.WeakForm.replace_changes",
    "Phyem.WeakForm.delete_changes",
    "Phyem.WeakForm.switch_sign_changes",
    "Phyem.WeakForm.merge_keeps"
   ],
   "note": "every weak formulation, term and list of new terms; acceptance is characterised exactly"
  },
  {
   "property": "C04",
   "status": "partial",
   "theorems": [
    "Phyem.WeakForm.split_keeps_partial",
    "Phyem.WeakForm.split_value",
    "Phyem.WeakForm.split_factor_refuted"
   ],
   "note": "Proved for terms with factor 1; the factor of the split term is lost (refuted otherwise)."
  },
  {
   "property": "C05",
   "status": "partial",
   "theorems": [
    "Phyem.WeakForm.commute_value_partial",
    "Phyem.WeakForm.commute_requested",
    "Phyem.WeakForm.commute_keeps_partial",
    "Phyem.WeakForm.commute_restricted_refuted"
   ],
   "note": "Proved for unrestricted terms whose forms are identified by their texts (C10); a restricted duality pairing loses its restriction (refuted)."
  },
  {
   "property": "C06",
   "status": "partial",
   "theorems": [
    "Phyem.WeakForm.int_by_parts_terms_partial",
    "Phyem.WeakForm.int_by_parts_keeps_partial",
    "Phyem.WeakForm.int_by_parts_drop_partial",
    "Phyem.WeakForm.int_by_parts_convect_partial",
    "Phyem.WeakForm.switch_duality_value_partial",
    "Phyem.WeakForm.switch_duality_keeps_partial"
   ],
   "note": "Proved for terms whose forms are identified by their texts (C10), for the patterns (d* a, v) and (A . grad b, c); the Green identity and the definition of the duality pairing are hypotheses on the interpretation."
  },
  {
   "property": "C07",
   "status": "partial",
   "theorems": [
    "Phyem.TimeDisc.discretise_partial",
    "Phyem.TimeDisc.untouched",
    "Phyem.TimeDisc.differentiate_value",
    "Phyem.TimeDisc.average_value",
    "Phyem.TimeDisc.differentiate_refuses",
    "Phyem.TimeDisc.differentiate_factor_refuted",
    "Phyem.TimeDisc.differentiate_after_average_refuted",
    "Phyem.TimeDisc.unknowns_refuted"
   ],
   "note": "Proved for every history of accepted requests in which differentiated terms have factor 1 and a form averaged over several instants is not inside an operator. Refuted: the factor of a differentiated term and the unknowns are lost, and differentiating discards an earlier average of the same term."
  },
  {
   "property": "C08",
   "status": "proved",
   "theorems": [
    "Phyem.MatrixProxy.parse_keeps_terms",
    "Phyem.MatrixProxy.parse_keeps_value"
   ],
   "note": ""
  },
  {
   "property": "C09",
   "status": "proved",
   "theorems": [
    "Phyem.MatrixProxy.ls_exact",
    "Phyem.MatrixProxy.nls_exact",
    "Phyem.MatrixProxy.ls_collected",
    "Phyem.MatrixProxy.ls_unknowns_refuted",
    "Phyem.MatrixProxy.ls_fits"
   ],
   "note": "ls_unknowns_refuted records that the vector of the returned system can be another target vector than the unknowns when the unknowns occur only on the right side."
  },
  {
   "property": "C10",
   "status": "partial",
   "theorems": [
    "Phyem.LinRepr.same_text_same_value_partial",
    "Phyem.LinRepr.same_text_same_form",
    "Phyem.LinRepr.find_form_partial",
    "Phyem.LinRepr.find_upon_partial",
    "Phyem.LinRepr.under_hodge_partial",
    "Phyem.LinRepr.split_cross_partial",
    "Phyem.LinRepr.grouped_minus_refuted",
    "Phyem.LinRepr.output_space_refuted",
    "Phyem.LinRepr.compound_scalar_refuted"
   ],
   "note": "Same text implies same value for expressions without output spaces, without compound scalars and without subtracted sums, and the finders by text return a form of the right value; false in general (three refutations)."
  },
  {
   "property": "C11",
   "status": "proved",
   "theorems": [
    "Phyem.LinRepr.elementary_forms_exact"
   ],
   "note": "every expression and every set of accepted names"
  },
  {
   "property": "C12",
   "status": "partial",
   "theorems": [
    "Phyem.LinRepr.replace_root",
    "Phyem.LinRepr.replace_value_partial",
    "Phyem.LinRepr.replace_operand_refuted"
   ],
   "note": "Proved for a root form replaced everywhere by a root form, or by any form where it occurs only as a summand; false for compound replacements of operands. Replacing chosen occurrences and compound forms is not modelled."
  },
  {
   "property": "C13",
   "status": "partial",
   "theorems": [
    "Phyem.Spaces.degrees",
    "Phyem.Spaces.refusals",
    "Phyem.Spaces.orientations_partial",
    "Phyem.Spaces.star_star_partial",
    "Phyem.Spaces.star_d_star_partial",
    "Phyem.Spaces.vc_names",
    "Phyem.Spaces.mixed_orientation_refuted",
    "Phyem.Spaces.unknown_orientation_refuted",
    "Phyem.Spaces.short_name_refuted",
    "Phyem.Spaces.vc_sign",
    "Phyem.Spaces.new_orientation"
   ],
   "note": "degrees proved for every history; orientations proved for histories without mixed orientations, refuted with them (spaces are looked up by a symbol that does not distinguish inner from unknown)"
  },
  {
   "property": "C14",
   "status": "proved",
   "theorems": [
    "Phyem.TimeSeq.const_spec",
    "Phyem.TimeSeq.const_fields",
    "Phyem.TimeSeq.const_lookup",
    "Phyem.TimeSeq.const_multiples",
    "Phyem.TimeSeq.const_strict"
   ],
   "note": "exact rational arithmetic; every t0, t_max, n, factor and instant"
  },
  {
   "property": "C15",
   "status": "partial",
   "theorems": [
    "Phyem.TimeSeq.fun_lookup_partial",
    "Phyem.TimeSeq.fun_consistent_partial",
    "Phyem.TimeSeq.fun_stays_available_partial",
    "Phyem.TimeSeq.fun_raising_lookup_refuted",
    "Phyem.TimeSeq.fun_bad_step_refuted"
   ],
   "note": "consistent and increasing for positive step sizes; refuted: a raising look-up advances the sequence and a non-positive step size damages it"
  },
  {
   "property": "C16",
   "status": "partial",
   "theorems": [
    "Phyem.Registry.wf_unknowns_fixed",
    "Phyem.Registry.wf_unknowns_valid",
    "Phyem.Registry.pde_unknowns_refuted",
    "Phyem.Registry.pde_unknowns_partial"
   ],
   "note": "proved for weak formulations; refuted for pde objects, whose unknowns can be replaced silently"
  },
  {
   "property": "C17",
   "status": "proved",
   "theorems": [
    "Phyem.Registry.bc_accumulate",
    "Phyem.Registry.bc_accepted"
   ],
   "note": "every history of calls, including calls that stop with an exception"
  },
  {
   "property": "C18",
   "status": "proved",
   "theorems": [
    "Phyem.Incidence.curl_grad_zero",
    "Phyem.Incidence.div_curl_zero",
    "Phyem.Incidence.rot_grad_zero",
    "Phyem.Incidence.div_curl_outer_zero",
    "Phyem.Incidence.incidence_complex"
   ],
   "note": "all degrees; on all cochains over any commutative ring and as matrix products"
  },
  {
   "property": "C19",
   "status": "proved",
   "theorems": [
    "Phyem.Incidence.grad3_differences",
    "Phyem.Incidence.curl3_circulation",
    "Phyem.Incidence.div3_outflow",
    "Phyem.Incidence.inner2_differences",
    "Phyem.Incidence.outer2_differences",
    "Phyem.Incidence.grad1_differences",
    "Phyem.Incidence.entries_unit",
    "Phyem.Incidence.assignments_in_range",
    "Phyem.Incidence.grad3_kernel",
    "Phyem.Incidence.grad2_grad1_kernel"
   ],
   "note": "differences, circulation and outflow, entries, kernels"
  },
  {
   "property": "C20",
   "status": "proved",
   "theorems": [
    "Phyem.Numbering.local_numbering_bijective",
    "Phyem.Numbering.local_numbering_order",
    "Phyem.Numbering.local_numbering_counts"
   ],
   "note": "all degrees, all ten spaces"
  },
  {
   "property": "C21",
   "status": "proved",
   "theorems": [
    "Phyem.Mesh.find_sound",
    "Phyem.Mesh.find_num",
    "Phyem.Mesh.find_refused",
    "Phyem.Mesh.num_order"
   ],
   "note": "any number of regions and dimensions"
  },
  {
   "property": "C22",
   "status": "proved",
   "theorems": [
    "Phyem.Mesh.element_map_spec",
    "Phyem.Mesh.element_map_symmetric",
    "Phyem.Mesh.element_map_exists",
    "Phyem.Mesh.element_map_bounds",
    "Phyem.Mesh.element_map_no_self"
   ],
   "note": "any dimension and region map; layouts that do not match are refused by numpy"
  },
  {
   "property": "C23",
   "status": "partial",
   "theorems": [
    "Phyem.Gathering.nodes_1d_partial",
    "Phyem.Gathering.nodes_line",
    "Phyem.Gathering.nodes_ring_partial",
    "Phyem.Gathering.single_periodic_refuted"
   ],
   "note": "proved for every 1d mesh without a self-neighbouring element, and by position on lines and rings; refuted for a single periodic element (entries -1)"
  },
  {
   "property": "C24",
   "status": "partial",
   "theorems": [
    "Phyem.Gathering.faces_2d_outer_partial",
    "Phyem.Gathering.faces_2d_inner_partial",
    "Phyem.Gathering.single_periodic_2d_refuted",
    "Phyem.Gathering.faces_3d_partial",
    "Phyem.Gathering.boundary_3d_refuted",
    "Phyem.Gathering.two_elements_3d_refuted",
    "Phyem.Gathering.top_forms"
   ],
   "note": "2d: every mesh without self-neighbouring elements; 3d: every such mesh without boundary, refuted with a boundary (the boundary test never fires)"
  },
  {
   "property": "C25",
   "status": "partial",
   "theorems": [
    "Phyem.Chaining.chain1_spec",
    "Phyem.Chaining.chain0_partial",
    "Phyem.Chaining.chain0_refuted"
   ],
   "note": "offset chaining proved for every list of contiguous matrices; element-by-element chaining proved for matrices numbered in order and refuted otherwise"
  },
  {
   "property": "C26",
   "status": "proved",
   "theorems": [
    "Phyem.Chaining.chain_success",
    "Phyem.Chaining.chain_spec",
    "Phyem.Chaining.nested_flat"
   ],
   "note": "every number of ranks, distribution and list of matrices; success characterised exactly"
  },
  {
   "property": "C27",
   "status": "proved",
   "theorems": [
    "Phyem.Chaining.split_spec",
    "Phyem.Chaining.split_merge",
    "Phyem.Chaining.merge_split"
   ],
   "note": "every chain and vector"
  },
  {
   "property": "C28",
   "status": "partial",
   "theorems": [
    "Phyem.Chaining.locate_spec",
    "Phyem.Chaining.find_history_partial",
    "Phyem.Chaining.find_history_refuted",
    "Phyem.Chaining.find_rank_partial",
    "Phyem.Chaining.number_of_local",
    "Phyem.Chaining.number_of_global_refuted"
   ],
   "note": "msepy: below 100000 dofs, refuted above; msehtt: without hash collisions; the variant by global dof is refuted"
  },
  {
   "property": "C29",
   "status": "proved",
   "theorems": [
    "Phyem.Assembly.assemble_spec",
    "Phyem.Assembly.assemble_linear",
    "Phyem.Assembly.assemble_transpose"
   ],
   "note": "csr and csc storage, any order of stored numbers, any gathering matrices"
  },
  {
   "property": "C30",
   "status": "partial",
   "theorems": [
    "Phyem.Assembly.vassemble_partial",
    "Phyem.Assembly.assemble_matvec_partial",
    "Phyem.Assembly.vassemble_refuted"
   ],
   "note": "proved if no dof occurs twice in one element; refuted otherwise (numpy counts the last occurrence only)"
  },
  {
   "property": "C31",
   "status": "partial",
   "theorems": [
    "Phyem.Customize.set_dof_matrix",
    "Phyem.Customize.set_dof_rhs_partial",
    "Phyem.Customize.set_dof_rhs_refuted",
    "Phyem.Customize.set_dof_range"
   ],
   "note": "matrix proved in full; right hand side proved if no dof occurs twice in one element, refuted otherwise"
  },
  {
   "property": "C32",
   "status": "partial",
   "theorems": [
    "Phyem.Customize.set_dof_parallel_matrix",
    "Phyem.Customize.set_dof_parallel_rhs_partial",
    "Phyem.Customize.set_dof_parallel_rhs_refuted",
    "Phyem.Customize.set_dof_parallel_range",
    "Phyem.Customize.zero_row_parallel",
    "Phyem.Customize.block_set_dof_partial"
   ],
   "note": "matrix proved in full for every distribution; right hand side proved if no dof occurs twice in one element, refuted otherwise"
  },
  {
   "property": "C33",
   "status": "proved",
   "theorems": [
    "Phyem.Assembly.distribution_matrix",
    "Phyem.Assembly.distribution_vector"
   ],
   "note": "every distribution over every number of ranks, matrices (with threshold) and vectors"
  },
  {
   "property": "C34",
   "status": "partial",
   "theorems": [
    "Phyem.Customize.essential_bc_matrix_partial",
    "Phyem.Customize.essential_bc_rhs_partial",
    "Phyem.Customize.bc_after_set_dof_refuted",
    "Phyem.Customize.set_dof_of_blocks"
   ],
   "note": "any sequence of boundary conditions followed by any sequence of set_dof, on blocks that are objects of their own; refuted for set_dof before a boundary condition in the same element"
  },
  {
   "property": "C35",
   "status": "partial",
   "theorems": [
    "Phyem.OpCache.read_value_partial",
    "Phyem.OpCache.read_derived_partial",
    "Phyem.OpCache.msepy_read_partial",
    "Phyem.OpCache.customised_operand_refuted",
    "Phyem.OpCache.stale_operand_refuted",
    "Phyem.OpCache.matmul_keys_refuted",
    "Phyem.OpCache.keys_unary",
    "Phyem.OpCache.keys_binary",
    "Phyem.OpCache.neg_matrix",
    "Phyem.OpCache.scale_matrix",
    "Phyem.OpCache.add_matrix",
    "Phyem.OpCache.transpose_matrix",
    "Phyem.OpCache.mul_matrix",
    "Phyem.OpCache.read_neg_partial",
    "Phyem.OpCache.read_transpose_partial",
    "Phyem.OpCache.read_scale_partial",
    "Phyem.OpCache.read_add_partial",
    "Phyem.OpCache.read_matmul_partial"
   ],
   "note": "proved for every history if no operand of a unary operation, sum or product is customised and cache keys identify data; for msepy successful reads are characterised without that condition; refuted for customised operands (msehtt) and for keys joined ambiguously"
  },
  {
   "property": "C36",
   "status": "partial",
   "theorems": [
    "Phyem.Customize.Alias.customize_copy",
    "Phyem.Customize.Alias.customize_unshared_partial",
    "Phyem.Customize.Alias.customize_shared_refuted"
   ],
   "note": "proved for msehtt (copies) however data are shared, and for msepy vectors that share no data; refuted for msepy vectors made from an array"
  },
  {
   "property": "C37",
   "status": "partial",
   "theorems": [
    "Phyem.Customize.set_values_matrix_partial",
    "Phyem.Customize.set_values_success",
    "Phyem.Customize.set_values_zero_rest_partial",
    "Phyem.Customize.set_zero",
    "Phyem.Customize.set_values_matrix_refuted",
    "Phyem.Customize.set_values_shift_refuted"
   ],
   "note": "proved for lists without repeated rows or columns, with the exact condition of success; refuted for repetitions (entries dropped or shifted)"
  },
  {
   "property": "C38",
   "status": "proved",
   "theorems": [
    "Phyem.Precond.jacobi_solutions",
    "Phyem.Precond.jacobi_diagonal",
    "Phyem.Precond.jacobi_shape"
   ],
   "note": "every matrix, right hand side and distribution; exact arithmetic"
  },
  {
   "property": "C39",
   "status": "partial",
   "theorems": [
    "Phyem.Precond.essential_rows_partial",
    "Phyem.Precond.essential_coefficients",
    "Phyem.Precond.mem_findEssential",
    "Phyem.Precond.essential_rows_missed_refuted",
    "Phyem.Precond.essential_rows_wrong_refuted"
   ],
   "note": "proved for rows whose stored entries are on one rank, with an exact description of what is reported; refuted both ways for rows stored on several ranks"
  },
  {
   "property": "C40",
   "status": "proved",
   "theorems": [
    "Phyem.Delete.delete_from_csr_spec"
   ],
   "note": "every matrix and every index argument, including the failing calls"
  },
  {
   "property": "C41",
   "status": "partial",
   "theorems": [
    "Phyem.ArrayCache.memo_close_partial",
    "Phyem.ArrayCache.memo_exact_partial",
    "Phyem.ArrayCache.memo_exact_refuted"
   ],
   "note": "exact when different arrays are never numerically close; refuted for 100000 and 100001"
  },
  {
   "property": "C42",
   "status": "proved",
   "theorems": [
    "Phyem.ArrayCache.contents_suffix",
    "Phyem.ArrayCache.bounded",
    "Phyem.ArrayCache.newest_present",
    "Phyem.ArrayCache.query_sound"
   ],
   "note": "every history of queries and insertions"
  },
  {
   "property": "C43",
   "status": "proved",
   "theorems": [
    "Phyem.Cochain.msepy_lookup",
    "Phyem.Cochain.msepy_no_loss",
    "Phyem.Cochain.msepy_clean",
    "Phyem.Cochain.msepy_set",
    "Phyem.Cochain.msepy_bounded"
   ],
   "note": "every history of set and clean calls of an unlocked base form, any auto cleaning setting"
  },
  {
   "property": "C44",
   "status": "partial",
   "theorems": [
    "Phyem.Cochain.msehtt_interpolation",
    "Phyem.Cochain.msehtt_interpolation_range",
    "Phyem.Cochain.msepy_interpolation_partial",
    "Phyem.Cochain.msepy_interpolation_refuted",
    "Phyem.Cochain.runPy_wf",
    "Phyem.Cochain.runHtt_wf"
   ],
   "note": "msehtt interpolation proved; msepy interpolation is right on the first segment only and refuted beyond it"
  },
  {
   "property": "C45",
   "status": "partial",
   "theorems": [
    "Phyem.Cochain.msehtt_lookup",
    "Phyem.Cochain.msehtt_auto_cleaning",
    "Phyem.Cochain.msehtt_newest_partial",
    "Phyem.Cochain.msehtt_newest_refuted",
    "Phyem.Cochain.msehtt_clean"
   ],
   "note": "newest is truthful unless the newest cochain itself is cleaned by time; refuted in that case"
  },
  {
   "property": "C46",
   "status": "partial",
   "theorems": [
    "Phyem.Poly.lagrange_kronecker",
    "Phyem.Poly.lagrange_partition_of_unity",
    "Phyem.Poly.edge_kronecker",
    "Phyem.Poly.dofs20",
    "Phyem.Poly.dofs21i",
    "Phyem.Poly.dofs21o",
    "Phyem.Poly.dofs22",
    "Phyem.Poly.dofs30",
    "Phyem.Poly.dofs31",
    "Phyem.Poly.dofs32",
    "Phyem.Poly.dofs33",
    "Phyem.Poly.cached_basis_partial",
    "Phyem.Poly.cached_basis_refuted"
   ],
   "note": "Exact arithmetic. The formulas are proved for every set of distinct nodes, in one, two and three dimensions. Values are cached under the nodes rounded to five decimals: a history of evaluations is right when different node sets differ there, and refuted otherwise."
  },
  {
   "property": "C47",
   "status": "proved",
   "theorems": [
    "Phyem.Poly.derivative1",
    "Phyem.Poly.grad2",
    "Phyem.Poly.rot2",
    "Phyem.Poly.curl2",
    "Phyem.Poly.div2",
    "Phyem.Poly.grad3",
    "Phyem.Poly.curl3",
    "Phyem.Poly.div3",
    "Phyem.Poly.derivative1_mapped",
    "Phyem.Poly.grad2_mapped",
    "Phyem.Poly.grad3_mapped",
    "Phyem.Poly.curl2_mapped",
    "Phyem.Poly.rot2_mapped",
    "Phyem.Poly.div2_mapped",
    "Phyem.Poly.curl3_mapped",
    "Phyem.Poly.div3_mapped"
   ],
   "note": "Exact arithmetic. In 1d, 2d (inner and outer) and 3d on the reference element; on curvilinear elements (mapping with equal mixed second derivatives) for gradient, rotation, curl and divergence."
  },
  {
   "property": "C48",
   "status": "partial",
   "theorems": [
    "Phyem.LocalDofs.face10",
    "Phyem.LocalDofs.face20_x",
    "Phyem.LocalDofs.face20_y",
    "Phyem.LocalDofs.face21i_x",
    "Phyem.LocalDofs.face21i_y",
    "Phyem.LocalDofs.face21o_x",
    "Phyem.LocalDofs.face21o_y",
    "Phyem.LocalDofs.face30_x",
    "Phyem.LocalDofs.face30_y",
    "Phyem.LocalDofs.face30_z",
    "Phyem.LocalDofs.face32_x",
    "Phyem.LocalDofs.face32_y",
    "Phyem.LocalDofs.face32_z",
    "Phyem.LocalDofs.found",
    "Phyem.LocalDofs.found_nodup",
    "Phyem.LocalDofs.face2b_partition",
    "Phyem.LocalDofs.face31_none",
    "Phyem.LocalDofs.face31_refuted"
   ],
   "note": "Proved for 0-forms in 1d, 2d and 3d, inner and outer 1-forms in 2d and 2-forms in 3d, every degree. Refuted for 1-forms in 3d: the dofs returned are those of the edges perpendicular to the face, none of which has a trace there."
  },
  {
   "property": "C49",
   "status": "partial",
   "theorems": [
    "Phyem.PoolGM.nodes_right",
    "Phyem.PoolGM.nodes_refused",
    "Phyem.PoolGM.nodes_right_refuted"
   ],
   "note": "Every mesh, any numbering of its nodes and elements, all degrees for which every edge has one degree (always when the degrees are equal). Refuted otherwise: an edge with one inner node in one element and several in the next is broadcast."
  },
  {
   "property": "C50",
   "status": "partial",
   "theorems": [
    "Phyem.PoolGM.edges_outer_right",
    "Phyem.PoolGM.edges_inner_right",
    "Phyem.PoolGM.cells_right",
    "Phyem.PoolGM.edges_outer_right_refuted"
   ],
   "note": "As C49, for outer and inner 1-forms and for 2-forms."
  },
  {
   "property": "C51",
   "status": "partial",
   "theorems": [
    "Phyem.Chaining.augmented_partial",
    "Phyem.Chaining.number_of_global_refuted"
   ],
   "note": "variant by local dof proved; variant by global dof refuted (see C28)"
  },
  {
   "property": "C52",
   "status": "proved",
   "theorems": [
    "Phyem.Multigrid.accepted_path",
    "Phyem.Multigrid.pairs_proper",
    "Phyem.Multigrid.pairs_defined_iff"
   ],
   "note": "every accepted scheme"
  },
  {
   "property": "C53",
   "status": "partial",
   "theorems": [
    "Phyem.Multigrid.vn_within_layers",
    "Phyem.Multigrid.w_fmg_within_layers_partial",
    "Phyem.Multigrid.within_layers_refuted"
   ],
   "note": "V and N stay within the layers; W and FMG exactly when their turning layers do; refuted: an accepted W leaves the layers"
  },
  {
   "property": "C54",
   "status": "proved",
   "theorems": [
    "Phyem.Newton.newton_terminates",
    "Phyem.Newton.newton_truthful",
    "Phyem.Newton.newton_first_success",
    "Phyem.Newton.newton_verdict",
    "Phyem.Newton.newton_forced",
    "Phyem.Newton.returns_unique"
   ],
   "note": "every sequence of residuals; integer and forced maxiter"
  },
  {
   "property": "C55",
   "status": "proved",
   "theorems": [
    "Phyem.Iterator.computed_inputs_exact",
    "Phyem.Iterator.intKey_injective"
   ],
   "note": "any history of recordings and compressions"
  },
  {
   "property": "C56",
   "status": "partial",
   "theorems": [
    "Phyem.Iterator.resume_partial",
    "Phyem.Iterator.killed_rows_prefix",
    "Phyem.Iterator.resume_refuted_repeated_input"
   ],
   "note": "holds for inputs with pairwise different keys; refuted for a repeated input"
  },
  {
   "property": "C57",
   "status": "partial",
   "theorems": [
    "Phyem.Iterator.survives_kills_partial",
    "Phyem.Iterator.survives_kills_refuted"
   ],
   "note": "holds for kills outside the write block; refuted inside it"
  },
  {
   "property": "C58",
   "status": "proved",
   "theorems": [
    "Phyem.Frozen.is_frozen_spec",
    "Phyem.Frozen.frozen_rejects_new",
    "Phyem.Frozen.existing_updates",
    "Phyem.Frozen.melted_accepts_new",
    "Phyem.Frozen.frozen_period_no_growth",
    "Phyem.Frozen.class_attribute_updates",
    "Phyem.Frozen.readonly_raises"
   ],
   "note": "every history of assignments, freezes and melts"
  },
  {
   "property": "C59",
   "status": "partial",
   "theorems": [
    "Phyem.Graph.graph_undirected",
    "Phyem.Graph.graph_edges_exact",
    "Phyem.Graph.draw_visits_once",
    "Phyem.Graph.draw_completes_iff_partial",
    "Phyem.Graph.draw_self_loop_refuted",
    "Phyem.Graph.add_node_spec",
    "Phyem.Graph.nodes_nodup",
    "Phyem.Graph.add_edge_accepted"
   ],
   "note": "graph part holds for every history; drawing visits each edge once and completes exactly when there is no self loop; refuted with a self loop"
  },
  {
   "property": "C60",
   "status": "partial",
   "theorems": [
    "Phyem.Customize.set_local_ij_partial",
    "Phyem.Customize.set_local_ij_refuted",
    "Phyem.Customize.set_local_dof_partial",
    "Phyem.Customize.set_local_dof_refuted"
   ],
   "note": "proved for non-negative elements (negative local index and unknown allowed); refuted for negative elements; set_local_dof proved in range and refuted for local indices out of range"
  },
  {
   "property": "C61",
   "status": "partial",
   "theorems": [
    "Phyem.Iterator.objects_final_partial",
    "Phyem.Iterator.objects_final_refuted"
   ],
   "note": "holds when at least one iteration is computed; refuted when all iterations come from the file"
  },
  {
   "property": "C62",
   "status": "partial",
   "theorems": [
    "Phyem.Iterator.float_keys_distinguish_partial",
    "Phyem.Iterator.float_keys_distinguish_refuted"
   ],
   "note": "refuted for floats that agree to five decimals; holds for inputs with at most five decimals"
  },
  {
   "property": "C63",
   "status": "proved",
   "theorems": [
    "Phyem.Spaces.cross_proxies",
    "Phyem.Spaces.cross_spaces",
    "Phyem.Spaces.cross_keeps_second"
   ],
   "note": "the three product tables and every history without mixed orientations"
  },
  {
   "property": "C64",
   "status": "partial",
   "theorems": [
    "Phyem.Chaining.chain_cache_partial",
    "Phyem.Chaining.chain_history_partial",
    "Phyem.Chaining.chain_cache_refuted"
   ],
   "note": "proved as long as no address is reused; refuted with reuse"
  },
  {
   "property": "C65",
   "status": "partial",
   "theorems": [
    "Phyem.Chaining.eq_partial",
    "Phyem.Chaining.eq_refuted"
   ],
   "note": "proved for equal numbers of local dofs; refuted otherwise"
  },
  {
   "property": "C66",
   "status": "partial",
   "theorems": [
    "Phyem.Assembly.threshold_history_partial",
    "Phyem.Assembly.threshold_history_refuted"
   ],
   "note": "proved for histories of weaker thresholds; refuted otherwise: the threshold is applied in place"
  },
  {
   "property": "C67",
   "status": "partial",
   "theorems": [
    "Phyem.Customize.block_matrix",
    "Phyem.Customize.block_vector_partial"
   ],
   "note": "matrix proved in full, right hand side if no dof occurs twice in one element"
  },
  {
   "property": "C68",
   "status": "partial",
   "theorems": [
    "Phyem.Customize.bc_other_unknowns_partial",
    "Phyem.Customize.bc_shared_block_refuted"
   ],
   "note": "proved if the blocks of the row are objects of their own; refuted for shared blocks"
  },
  {
   "property": "C69",
   "status": "partial",
   "theorems": [
    "Phyem.Customize.identify_diagonal",
    "Phyem.Customize.set_values_vector_partial"
   ],
   "note": "matrix proved in full; right hand side proved if no dof occurs twice in one element"
  },
  {
   "property": "C70",
   "status": "partial",
   "theorems": [
    "Phyem.OpCache.read_value_partial",
    "Phyem.OpCache.read_derived_partial"
   ],
   "note": "every history of customising, clearing and reading blocks; operands of unary operations, sums and products must not be customised, and cache keys must identify data"
  },
  {
   "property": "C71",
   "status": "partial",
   "theorems": [
    "Phyem.OpCache.read_repeatable_partial"
   ],
   "note": "same conditions as C35"
  },
  {
   "property": "C72",
   "status": "partial",
   "theorems": [
    "Phyem.Metric.jacobian_is_det",
    "Phyem.Metric.jacobian_raises",
    "Phyem.Metric.inverse_is_inverse",
    "Phyem.Metric.inverse_jacobian_is_reciprocal",
    "Phyem.Metric.metric_matrix_is_JtJ",
    "Phyem.Metric.metric_is_det_of_metric_matrix",
    "Phyem.Metric.inverse_metric_matrix_is_inverse",
    "Phyem.Metric.orth2_agrees",
    "Phyem.Metric.orth3_agrees",
    "Phyem.Metric.element_entry_partial",
    "Phyem.Metric.element_entry_refuted"
   ],
   "note": "Exact arithmetic. Proved for every Jacobian matrix in dimensions 1 to 3, and for the shortcuts of orthogonal elements. Scaling the region Jacobian to the element is right when the region returns a separate array for each entry; refuted when one array serves as two entries, which is then scaled twice in place."
  },
  {
   "property": "C73",
   "status": "partial",
   "theorems": [
    "Phyem.Geometry.crazy1_jacobian",
    "Phyem.Geometry.crazy2_jacobian",
    "Phyem.Geometry.crazy3_jacobian",
    "Phyem.Geometry.linear_jacobian",
    "Phyem.Geometry.straightLine_derivative",
    "Phyem.Geometry.arcOf_derivative",
    "Phyem.Geometry.arc_derivative",
    "Phyem.Geometry.transfinite_jacobian",
    "Phyem.Geometry.quad_jacobian",
    "Phyem.Geometry.triangle_jacobian",
    "Phyem.Geometry.rectangle_jacobian_partial",
    "Phyem.Geometry.hexahedron_jacobian_partial",
    "Phyem.Geometry.rectangle_jacobian_refuted",
    "Phyem.Geometry.element2_jacobian",
    "Phyem.Geometry.element3_jacobian",
    "Phyem.Geometry.curvilinear_triangle_jacobian",
    "Phyem.Geometry.chaos_jacobian",
    "Phyem.Geometry.single_jacobian"
   ],
   "note": "Real arithmetic. Proved for all predefined msepy regions, curves, transfinite mappings, quadrilaterals, triangles, curvilinear elements and chaotic regions. For orthogonal rectangles and hexahedra the stored entries are rounded to eight decimals: proved when rounding does not change them, refuted otherwise (zero for very small elements)."
  },
  {
   "property": "C74",
   "status": "partial",
   "theorems": [
    "Phyem.Geometry.crazy1_valid",
    "Phyem.Geometry.crazy2_valid",
    "Phyem.Geometry.crazy3_valid_partial",
    "Phyem.Geometry.crazy3_valid_refuted",
    "Phyem.Geometry.crazy2_sides",
    "Phyem.Geometry.crazy3_sides",
    "Phyem.Geometry.angle_spec",
    "Phyem.Geometry.arc_geometry",
    "Phyem.Geometry.arc_direction",
    "Phyem.Geometry.straightLine_geometry",
    "Phyem.Geometry.transfinite_sides",
    "Phyem.Geometry.quad_corners",
    "Phyem.Geometry.triangle_corners",
    "Phyem.Geometry.rect_corners",
    "Phyem.Geometry.linear_box",
    "Phyem.Geometry.chaos_bounds_partial",
    "Phyem.Geometry.chaos_bounds_refuted",
    "Phyem.Geometry.chaos_lower_refuted"
   ],
   "note": "Real arithmetic. One-to-one and onto for the crazy mapping in one and two dimensions in the documented range, in three dimensions for c up to 0.225; refuted in three dimensions at the documented c = 0.3 (negative Jacobian). Corners, sides, circles and directions proved for curves, transfinite mappings and elements. Refuted for the chaotic domain, which ignores its bounds. Missing: injectivity of transfinite mappings."
  },
  {
   "property": "C75",
   "status": "proved",
   "theorems": [
    "Phyem.Geometry.crazy_multi1_conforming",
    "Phyem.Geometry.crazy_multi2_conforming",
    "Phyem.Geometry.crazy_multi3_conforming",
    "Phyem.Geometry.backward_step2_conforming",
    "Phyem.Geometry.backward_step3_conforming",
    "Phyem.Geometry.cylinder_conforming",
    "Phyem.Geometry.cylinder_layout_matches",
    "Phyem.Geometry.cylinder_layout_counts"
   ],
   "note": "Real arithmetic. Multi-crazy domains in 1, 2 and 3 dimensions, backward step in 2 and 3, cylinder channel in 2 (the code raises in 3)."
  },
  {
   "property": "C76",
   "status": "partial",
   "theorems": [
    "Phyem.Geometry.normal2_outward",
    "Phyem.Geometry.normal2_faces",
    "Phyem.Geometry.normal3_outward",
    "Phyem.Geometry.triangle_normal_outward",
    "Phyem.Geometry.quad_normal_outward",
    "Phyem.Geometry.normal_clockwise_refuted"
   ],
   "note": "Real arithmetic. Unit, perpendicular and outward for 2d and 3d elements with positive Jacobian, triangles and quadrilaterals numbered anticlockwise. Refuted for elements numbered clockwise, which the code accepts: their normals point inward."
  },
  {
   "property": "C77",
   "status": "partial",
   "theorems": [
    "Phyem.Geometry.triangle_from_signature",
    "Phyem.Geometry.triangle_translate",
    "Phyem.Geometry.triangle_shared_partial",
    "Phyem.Geometry.triangle_shared_refuted",
    "Phyem.Geometry.quad_shared_partial",
    "Phyem.Geometry.quad_shared_refuted",
    "Phyem.Geometry.rectangle_shared_partial",
    "Phyem.Geometry.rectangle_shared_refuted"
   ],
   "note": "Anticlockwise triangles with unrounded signatures share only with their translates. Refuted for mirror images of triangles, for quadrilaterals (whose signature does not determine the shape) and for rectangles that differ by less than the rounding."
  },
  {
   "property": "C78",
   "status": "partial",
   "theorems": [
    "Phyem.Mass.mass10_inner_product",
    "Phyem.Mass.mass11_inner_product",
    "Phyem.Mass.mass20_inner_product",
    "Phyem.Mass.mass21i_inner_product",
    "Phyem.Mass.mass21o_inner_product",
    "Phyem.Mass.mass22_inner_product",
    "Phyem.Mass.mass30_inner_product",
    "Phyem.Mass.mass31_inner_product",
    "Phyem.Mass.mass32_inner_product",
    "Phyem.Mass.mass33_inner_product",
    "Phyem.Mass.mass10_posDef",
    "Phyem.Mass.mass11_posDef",
    "Phyem.Mass.mass20_posDef",
    "Phyem.Mass.mass21i_posDef",
    "Phyem.Mass.mass21o_posDef",
    "Phyem.Mass.mass22_posDef",
    "Phyem.Mass.mass30_posDef",
    "Phyem.Mass.mass31_posDef",
    "Phyem.Mass.mass32_posDef",
    "Phyem.Mass.mass33_posDef",
    "Phyem.Mass.mass0_symm",
    "Phyem.Mass.massTop_symm",
    "Phyem.Mass.mass21i_symm",
    "Phyem.Mass.mass21o_symm",
    "Phyem.Mass.mass31_symm",
    "Phyem.Mass.mass32_symm",
    "Phyem.Mass.mass31_curvilinear_refuted",
    "Phyem.Mass.mass32_curvilinear_refuted"
   ],
   "note": "Exact arithmetic over any field (definiteness: any ordered field). Proved for all forms in 1, 2 and 3 dimensions, with the blocks off the diagonal left out only where the Jacobian matrix is diagonal. Refuted for 1- and 2-forms on curvilinear hexahedra of msehtt, where they are left out too."
  },
  {
   "property": "C79",
   "status": "proved",
   "theorems": [
    "Phyem.PoolGM.hex_nodes_right",
    "Phyem.PoolGM.hex_segments_right",
    "Phyem.PoolGM.hex_faces_right",
    "Phyem.PoolGM.hex_cells_right",
    "Phyem.PoolGM.hex_refused"
   ],
   "note": "Every mesh of hexahedra, all degrees for which every edge and face has one degree."
  },
  {
   "property": "C80",
   "status": "partial",
   "theorems": [
    "Phyem.PoolGM.rect_nodes_right",
    "Phyem.PoolGM.rect_edges_outer_right",
    "Phyem.PoolGM.rect_edges_inner_right",
    "Phyem.PoolGM.box_nodes_right",
    "Phyem.PoolGM.box_segments_right",
    "Phyem.PoolGM.box_faces_right",
    "Phyem.PoolGM.box_cells_right",
    "Phyem.PoolGM.rect_nodes_right_refuted",
    "Phyem.PoolGM.rect_edges_outer_right_refuted",
    "Phyem.PoolGM.box_segments_right_refuted"
   ],
   "note": "Every structured mesh of quadrilaterals whose periodic axes have at least three elements, and of hexahedra whose periodic axes have at least two; all degrees. Refuted for two periodic layers of quadrilaterals and one of hexahedra."
  },
  {
   "property": "C81",
   "status": "partial",
   "theorems": [
    "Phyem.Great.faces_are_sides",
    "Phyem.Great.neighbors_total",
    "Phyem.Great.neighbors_right",
    "Phyem.Great.neighbors_mutual",
    "Phyem.Great.no_neighbor_iff",
    "Phyem.Great.no_neighbor_iff_refuted",
    "Phyem.Great.two_layers_refuted"
   ],
   "note": "All meshes. \"No neighbour\" means no coinciding face only where at most two positions share a face; refuted otherwise, and neighbours on meshes periodic with two layers are refuted."
  },
  {
   "property": "C82",
   "status": "partial",
   "theorems": [
    "Phyem.Great.boundary_faces_right",
    "Phyem.Great.boundary_faces_missing",
    "Phyem.Great.boundary_iff_no_neighbor",
    "Phyem.Great.boundary_faces_repeated_refuted"
   ],
   "note": "All meshes and all lists of distinct elements; refuted when an element is listed twice."
  },
  {
   "property": "C83",
   "status": "partial",
   "theorems": [
    "Phyem.Great.distribute_right",
    "Phyem.Great.distribute_iff",
    "Phyem.Great.distribute_many",
    "Phyem.Great.distribute_total_refuted",
    "Phyem.Great.distributeVtu_right",
    "Phyem.Great.masterDistribute_last",
    "Phyem.Great.distributeVtu_crowded",
    "Phyem.Great.distributeVtu_total_refuted"
   ],
   "note": "Each element once and no process empty whenever a distribution is returned; when one is returned is characterised. Refuted that one always is."
  },
  {
   "property": "C84",
   "status": "partial",
   "theorems": [
    "Phyem.Great.mismatch_right",
    "Phyem.Great.mismatch_three",
    "Phyem.Great.inner_agrees",
    "Phyem.Great.outer_agrees",
    "Phyem.Great.meet_iff",
    "Phyem.Great.inner_agrees_refuted",
    "Phyem.Great.outer_agrees_refuted",
    "Phyem.Great.priority_none"
   ],
   "note": "All faces on which the test field does not vanish, in exact arithmetic; refuted for faces on which it does."
  },
  {
   "property": "C85",
   "status": "partial",
   "theorems": [
    "Phyem.Great.pairing_partial",
    "Phyem.Great.allOn_right",
    "Phyem.Great.pairing_one_rank",
    "Phyem.Great.pairing_refuted"
   ],
   "note": "Every distribution: exactly the periodic faces that the first process has an element at are found. Refuted for the others."
  },
  {
   "property": "C86",
   "status": "partial",
   "theorems": [
    "Phyem.Triangle.nodes_numbered",
    "Phyem.Triangle.edges_numbered",
    "Phyem.Triangle.inner_differences",
    "Phyem.Triangle.outer_differences",
    "Phyem.Triangle.rot_grad_zero",
    "Phyem.Triangle.div_curl_zero",
    "Phyem.Triangle.products_zero",
    "Phyem.Triangle.outer_shapes",
    "Phyem.Triangle.inner_shapes_partial",
    "Phyem.Triangle.inner_shapes",
    "Phyem.Triangle.inner_shapes_refuted",
    "Phyem.Triangle.grad",
    "Phyem.Triangle.rot",
    "Phyem.Triangle.curl",
    "Phyem.Triangle.div",
    "Phyem.Triangle.collapsed",
    "Phyem.Triangle.dofs0",
    "Phyem.Triangle.dofs1i",
    "Phyem.Triangle.dofs1o"
   ],
   "note": "Reference triangle, exact arithmetic, all pairs of degrees. The shapes of the inner incidence matrices are right when the degrees are equal; refuted when they differ (index error or superfluous rows and columns)."
  },
  {
   "property": "C87",
   "status": "proved",
   "theorems": [
    "Phyem.Reversal.face_dofs",
    "Phyem.Reversal.rows_sign",
    "Phyem.Reversal.cols_sign",
    "Phyem.Reversal.basis_sign",
    "Phyem.Reversal.basis_lengths",
    "Phyem.Reversal.cochain_sign",
    "Phyem.Reversal.refused",
    "Phyem.Reversal.field_sign",
    "Phyem.Reversal.reduction_unchanged",
    "Phyem.Reversal.derivative_unchanged",
    "Phyem.Reversal.rotation_unchanged",
    "Phyem.Reversal.complex",
    "Phyem.Reversal.mass_sign",
    "Phyem.Reversal.gradient_right",
    "Phyem.Reversal.curl_right"
   ],
   "note": "Triangles and quadrilaterals, all degrees from 1, all lists of distinct faces; exact arithmetic."
  },
  {
   "property": "C88",
   "status": "partial",
   "theorems": [
    "Phyem.Reversal.cached_right",
    "Phyem.Reversal.matrix_signs",
    "Phyem.Reversal.keys_identify_partial",
    "Phyem.Reversal.keys_identify_refuted",
    "Phyem.Reversal.read_incidence_partial",
    "Phyem.Reversal.read_incidence_refuted"
   ],
   "note": "All histories and all elements. Refuted for the rotation of inner 1-forms on meshes with triangles and quadrilaterals of one degree, which share a key."
  },
  {
   "property": "C89",
   "status": "proved",
   "theorems": [
    "Phyem.Nonlinear.newton_rhs",
    "Phyem.Nonlinear.newton_lhs",
    "Phyem.Nonlinear.newton_refuses",
    "Phyem.Nonlinear.derivative_none",
    "Phyem.Nonlinear.derivative_absent",
    "Phyem.Nonlinear.array_as_vector"
   ],
   "note": "All systems of multilinear terms in a test form and different unknowns, all iterates, over any commutative ring (the derivative over the reals); a repeated form or a form that is neither test form nor unknown is refused."
  },
  {
   "property": "C90",
   "status": "partial",
   "theorems": [
    "Phyem.Nonlinear.newton_keeps_prescribed_partial",
    "Phyem.Nonlinear.newton_start_keeps",
    "Phyem.Nonlinear.picard_keeps_prescribed_partial"
   ],
   "note": "All histories of iterations, any number of prescribed dofs. Systems are solved exactly; constraints on a single global dof are not included."
  },
  {
   "property": "C91",
   "status": "proved",
   "theorems": [
    "Phyem.Trilinear.cross_is_integral",
    "Phyem.Trilinear.cross_accepts",
    "Phyem.Trilinear.prod_is_integral",
    "Phyem.Trilinear.prod_accepts",
    "Phyem.Trilinear.field_derivative",
    "Phyem.Trilinear.cross_self",
    "Phyem.Trilinear.cross_skew",
    "Phyem.Trilinear.generate_each",
    "Phyem.Trilinear.vector_is_contraction",
    "Phyem.Trilinear.vector_refuses",
    "Phyem.Trilinear.matrix_is_contraction",
    "Phyem.Trilinear.matrix_refuses",
    "Phyem.Trilinear.field_is_reconstruction"
   ],
   "note": "Exact arithmetic over any field, for all numbers of dofs, points and cochains. The quadrature itself is a list of weighted points."
  },
  {
   "property": "C92",
   "status": "partial",
   "theorems": [
    "Phyem.Nonlinear.picard_rhs",
    "Phyem.Nonlinear.picard_residual",
    "Phyem.Nonlinear.picard_fixed_iff",
    "Phyem.Nonlinear.newton_zero_iff",
    "Phyem.Nonlinear.newton_quadratic",
    "Phyem.Nonlinear.picard_repeated_refuted"
   ],
   "note": "All systems of multilinear terms in a test form and different unknowns; all numberings and sets of free rows. Refuted for a term with one form twice: the Picard method then leaves one occurrence out if the form has one dof."
  },
  {
   "property": "C93",
   "status": "proved",
   "theorems": [
    "Phyem.Recon.recon20",
    "Phyem.Recon.recon21i",
    "Phyem.Recon.recon21o",
    "Phyem.Recon.recon22",
    "Phyem.Recon.recon30",
    "Phyem.Recon.recon31",
    "Phyem.Recon.recon32",
    "Phyem.Recon.recon33",
    "Phyem.Recon.reconT1i",
    "Phyem.Recon.reconT1o",
    "Phyem.Recon.recon21i_refuses",
    "Phyem.Recon.recon21o_refuses",
    "Phyem.Recon.recon31_long_refuted",
    "Phyem.Recon.inner_covariant",
    "Phyem.Recon.outer_flux"
   ],
   "note": "Exact arithmetic over any field. A cochain that is too long is refused in 2d and by the matrices, but in 3d not by reconstruct (recon31_long_refuted). The caches of the matrices are not in this model."
  },
  {
   "property": "C94",
   "status": "partial",
   "theorems": [
    "Phyem.Funcs.make_given",
    "Phyem.Funcs.make_given_vector",
    "Phyem.Funcs.make_given_scalar3",
    "Phyem.Funcs.mesh2",
    "Phyem.Funcs.call2",
    "Phyem.Funcs.gradient2",
    "Phyem.Funcs.curl2",
    "Phyem.Funcs.timeDerivative2",
    "Phyem.Funcs.laplacian2_given",
    "Phyem.Funcs.laplacian2_first",
    "Phyem.Funcs.laplacian2_numerical",
    "Phyem.Funcs.vTimeDerivative2",
    "Phyem.Funcs.divergence2",
    "Phyem.Funcs.rot2",
    "Phyem.Funcs.vGradient2",
    "Phyem.Funcs.vCurl2",
    "Phyem.Funcs.convection2",
    "Phyem.Funcs.tensor2",
    "Phyem.Funcs.tTimeDerivative2",
    "Phyem.Funcs.convection2_scalar_refuted",
    "Phyem.Funcs.algebra2_scalar",
    "Phyem.Funcs.algebra2_vector",
    "Phyem.Funcs.products2",
    "Phyem.Funcs.cross2",
    "Phyem.Funcs.refused2",
    "Phyem.Funcs.vector_times_scalar_refuted",
    "Phyem.Funcs.real2",
    "Phyem.Funcs.setMesh3_fields",
    "Phyem.Funcs.make3_zero",
    "Phyem.Funcs.gradient3",
    "Phyem.Funcs.timeDerivative3",
    "Phyem.Funcs.divergence3",
    "Phyem.Funcs.curl3",
    "Phyem.Funcs.vTimeDerivative3",
    "Phyem.Funcs.tTimeDerivative3",
    "Phyem.Funcs.convection3_refuted",
    "Phyem.Funcs.algebra3_scalar",
    "Phyem.Funcs.algebra3_vector",
    "Phyem.Funcs.call3",
    "Phyem.Funcs.linked3_refuted",
    "Phyem.Funcs.refused3",
    "Phyem.Funcs.make_given",
    "Phyem.Funcs.make_refuses"
   ],
   "note": "Real arithmetic, all functions, points and times, with any subset of the derivatives given. Refuted for the convection of scalars in 2d and of scalars and vectors in 3d (always refused), the product vector * scalar, and vectors in 3d linked to another object (called without z). Scalars of one space dimension are not included."
  },
  {
   "property": "C95",
   "status": "proved",
   "theorems": [
    "Phyem.Funcs.rot_gradient2",
    "Phyem.Funcs.div_curl2",
    "Phyem.Funcs.rot_gradient_div_curl_vector2",
    "Phyem.Funcs.laplacian_vector2",
    "Phyem.Funcs.curl_gradient3",
    "Phyem.Funcs.div_curl3",
    "Phyem.Funcs.rot_gradient2_given"
   ],
   "note": "Arbitrary functions without given derivatives, over any field; with given derivatives the composition differentiates the given functions (rot_gradient2_given)."
  },
  {
   "property": "C96",
   "status": "partial",
   "theorems": [
    "Phyem.Funcs.central_error",
    "Phyem.Funcs.second_central_error",
    "Phyem.Funcs.numerical2",
    "Phyem.Funcs.numerical3",
    "Phyem.Funcs.derivative_exact",
    "Phyem.Funcs.setMesh_scalar2",
    "Phyem.Funcs.setMesh_vector2",
    "Phyem.Funcs.setMesh_scalar3",
    "Phyem.Funcs.setMesh_vector3_partial",
    "Phyem.Funcs.setMesh_vector3_refuted",
    "Phyem.Funcs.agreed_close",
    "Phyem.Funcs.true_accepted2",
    "Phyem.Funcs.make_plain"
   ],
   "note": "Real arithmetic, all meshes and all drawn times. Vectors in 3d are checked at points with x in place of z; refuted that wrong derivatives are noticed there."
  },
  {
   "property": "C97",
   "status": "proved",
   "theorems": [
    "Phyem.Funcs.integral_start",
    "Phyem.Funcs.integral_is_trapezoidal",
    "Phyem.Funcs.integral_backwards",
    "Phyem.Funcs.integral_linear",
    "Phyem.Funcs.integral_affine",
    "Phyem.Funcs.integral_error",
    "Phyem.Funcs.integral_error_start",
    "Phyem.Funcs.integral_vector"
   ],
   "note": "Real arithmetic, all steps and times."
  },
  {
   "property": "C98",
   "status": "proved",
   "theorems": [
    "Phyem.Krylov.gmres_best",
    "Phyem.Krylov.gmres_residuals",
    "Phyem.Krylov.gmres_exact",
    "Phyem.Krylov.gmres_solves",
    "Phyem.Krylov.lgmres_best",
    "Phyem.Krylov.lgmres_residuals",
    "Phyem.Krylov.lgmres_gmres"
   ],
   "note": "Real arithmetic; parallel runs with any number of processes. lgmres_best is about runs all of whose turns so far are complete."
  },
  {
   "property": "C99",
   "status": "proved",
   "theorems": [
    "Phyem.Krylov.gmres_result",
    "Phyem.Krylov.gmres_converged",
    "Phyem.Krylov.gmres_forced",
    "Phyem.Krylov.gmres_stops",
    "Phyem.Krylov.gmres_distribution",
    "Phyem.Krylov.lgmres_result",
    "Phyem.Krylov.lgmres_converged",
    "Phyem.Krylov.lgmres_forced",
    "Phyem.Krylov.lgmres_stops",
    "Phyem.Krylov.lgmres_distribution"
   ],
   "note": "Real arithmetic. With maxiter = 0 the report info = 0 is the number of turns (gmres_result); from one allowed turn on it means convergence (gmres_converged). Divergence is never reported in exact arithmetic. A run that breaks down gives no result (C100)."
  },
  {
   "property": "C100",
   "status": "partial",
   "theorems": [
    "Phyem.Krylov.gmres_breaks",
    "Phyem.Krylov.gmres_small_refuted",
    "Phyem.Krylov.gmres_one_refuted",
    "Phyem.Krylov.lgmres_small_refuted"
   ],
   "note": "Refuted: a turn of gmres on a regular system breaks down exactly when the vectors r, A r, ..., A^(restart-1) r are dependent, in particular for every system with fewer unknowns than restart (inner_m + outer_k for lgmres), and always for restart = 1. In floating point numbers the division is by zero or by rounding errors."
  },
  {
   "property": "C101",
   "status": "partial",
   "theorems": [
    "Phyem.MgSolver.handed_eq",
    "Phyem.MgSolver.clean_invisible",
    "Phyem.MgSolver.solve_distribution",
    "Phyem.MgSolver.default_x0_refuted",
    "Phyem.MgSolver.v_begins",
    "Phyem.MgSolver.x0_ignored"
   ],
   "note": "Exact arithmetic; solvers and transfers are arbitrary functions. Refuted: a scheme that begins with a restriction (every V- and W-cycle) raises with the default x0=None; one that begins with an interpolation ignores x0. Schemes that leave the layers are C53."
  },
  {
   "property": "C102",
   "status": "partial",
   "theorems": [
    "Phyem.MgSolver.two_grid",
    "Phyem.MgSolver.two_grid_doubles",
    "Phyem.MgSolver.correction_refuted",
    "Phyem.MgSolver.demo_handed",
    "Phyem.MgSolver.solution_kept"
   ],
   "note": "Refuted: the residual is A x - b and the correction is added, so that the restricted residual is doubled instead of removed. Solutions are kept."
  },
  {
   "property": "C103",
   "status": "partial",
   "theorems": [
    "Phyem.MgSolver.solve_last",
    "Phyem.MgSolver.solve_truthful_gmres",
    "Phyem.MgSolver.solve_truthful_lgmres",
    "Phyem.MgSolver.choose_iff",
    "Phyem.MgSolver.arguments_refuted",
    "Phyem.MgSolver.intermediate_turns"
   ],
   "note": "With gmres or lgmres as modelled in the area Krylov on the top system. Refuted for the arguments: atol or maxiter alone are refused although both solvers take them; a forced number of turns is refused."
  },
  {
   "property": "C104",
   "status": "proved",
   "theorems": [
    "Phyem.MgSolver.levels_iff",
    "Phyem.MgSolver.one_level",
    "Phyem.MgSolver.descend_iff"
   ],
   "note": "Solvers and transfers are arbitrary functions; the check that the times of the levels agree is not in this model."
  },
  {
   "property": "C105",
   "status": "partial",
   "theorems": [
    "Phyem.DynSys.evaluated_system",
    "Phyem.DynSys.systems_step",
    "Phyem.DynSys.Bad.evaluated_system_refuted"
   ],
   "note": "Holds for histories without a system that imposes essential conditions on a row with a bare block, i.e. one term +1*M; refuted with one."
  },
  {
   "property": "C106",
   "status": "partial",
   "theorems": [
    "Phyem.DynSys.evaluated_system",
    "Phyem.DynSys.essential_latest",
    "Phyem.DynSys.natural_latest",
    "Phyem.DynSys.missing_condition_raises",
    "Phyem.DynSys.natural_section_partial",
    "Phyem.DynSys.Bad.natural_sections_refuted"
   ],
   "note": "Essential conditions proved; refuted for a natural condition of one form on several sections, of which only the last is used."
  },
  {
   "property": "C107",
   "status": "partial",
   "theorems": [
    "Phyem.DynSys.evaluations_agree_partial",
    "Phyem.DynSys.evaluated_system",
    "Phyem.DynSys.Bad.other_evaluations_refuted"
   ],
   "note": "Holds for the histories of C105; refuted: essential conditions on a bare mass matrix block change the shared mass matrix for all systems."
  },
  {
   "property": "C108",
   "status": "partial",
   "theorems": [
    "Phyem.Params.roots_distinct",
    "Phyem.Params.number_again",
    "Phyem.Params.named_again",
    "Phyem.Params.numbers_differ",
    "Phyem.Params.number_made",
    "Phyem.Params.number_value_partial",
    "Phyem.Params.named_value",
    "Phyem.Params.factor_value_partial",
    "Phyem.Params.factor_accepted",
    "Phyem.Params.Ex.sum_refuted",
    "Phyem.Params.Ex.half_plus_one_refuted",
    "Phyem.Params.Ex.number_changed_refuted"
   ],
   "note": "Numbers are exact rationals. A factor that has a value has the right one; refuted: sums and nested quotients are refused, constant_scalar(0.5) + 1 raises, setting the value of a number changes it everywhere."
  },
  {
   "property": "C109",
   "status": "proved",
   "theorems": [
    "Phyem.Trf.refined_covers"
   ],
   "note": "Points are rational points of the reference squares of the cells."
  },
  {
   "property": "C110",
   "status": "partial",
   "theorems": [
    "Phyem.Trf.refined_conforming_partial",
    "Phyem.Trf.refining_succeeds_partial"
   ],
   "note": "For base meshes whose cells run through shared sides in the same direction, and calls not preceded by one that raised (C113). For the other base meshes see C111."
  },
  {
   "property": "C111",
   "status": "partial",
   "theorems": [
    "Phyem.Trf.numbering_partial",
    "Phyem.Trf.numbering_refuted"
   ],
   "note": "For base meshes whose cells run through shared sides in the same direction; refuted for a square next to one turned by half a turn, with four levels."
  },
  {
   "property": "C112",
   "status": "partial",
   "theorems": [
    "Phyem.Trf.first_level",
    "Phyem.Trf.next_level_partial",
    "Phyem.Trf.values_right"
   ],
   "note": "The first level without conditions; later levels for the base meshes of C110."
  },
  {
   "property": "C113",
   "status": "partial",
   "theorems": [
    "Phyem.Trf.history_partial",
    "Phyem.Trf.history_refuted"
   ],
   "note": "As long as no call raised; refuted after a call that raised: the boundary faces of its mesh are used for the next one."
  },
  {
   "property": "C114",
   "status": "proved",
   "theorems": [
    "Phyem.Trf.triangles_positive",
    "Phyem.Trf.areas_add_up",
    "Phyem.Trf.curved_jacobian",
    "Phyem.Trf.curved_points",
    "Phyem.Trf.curved_determinant",
    "Phyem.Trf.curved_positive"
   ],
   "note": "Convex cells with straight edges, rational coordinates; curved cells with an arbitrary mapping and its Jacobian matrix."
  },
  {
   "property": "C115",
   "status": "partial",
   "theorems": [
    "Phyem.Trf.all_levels_partial",
    "Phyem.Trf.integer_trf_partial",
    "Phyem.Trf.integer_predefined_refuted",
    "Phyem.Trf.thresholds_accepted"
   ],
   "note": "Proved for TRF and the base meshes of C110; refuted for the predefined meshes: every integer above 1 raises."
  },
  {
   "property": "C116",
   "status": "proved",
   "theorems": [
    "Phyem.Reduce.reduceT",
    "Phyem.Reduce.gradT_commutes",
    "Phyem.Reduce.curlT_commutes",
    "Phyem.Reduce.rotT_commutes",
    "Phyem.Reduce.divT_commutes",
    "Phyem.Reduce.gradT_exact",
    "Phyem.Reduce.curlT_exact",
    "Phyem.Reduce.rotT_exact",
    "Phyem.Reduce.divT_exact",
    "Phyem.Reduce.reduce0",
    "Phyem.Reduce.reduce11",
    "Phyem.Reduce.reduce21i",
    "Phyem.Reduce.reduce21o",
    "Phyem.Reduce.reduce22",
    "Phyem.Reduce.reduce31",
    "Phyem.Reduce.reduce32",
    "Phyem.Reduce.reduce33",
    "Phyem.Reduce.deriv1_commutes",
    "Phyem.Reduce.grad2_commutes",
    "Phyem.Reduce.curl2_commutes",
    "Phyem.Reduce.rot2_commutes",
    "Phyem.Reduce.div2_commutes",
    "Phyem.Reduce.grad3_commutes",
    "Phyem.Reduce.curl3_commutes",
    "Phyem.Reduce.div3_commutes",
    "Phyem.Reduce.deriv1_exact",
    "Phyem.Reduce.grad2_exact",
    "Phyem.Reduce.curl2_exact",
    "Phyem.Reduce.rot2_exact",
    "Phyem.Reduce.div2_exact",
    "Phyem.Reduce.grad3_exact",
    "Phyem.Reduce.curl3_exact",
    "Phyem.Reduce.div3_exact"
   ],
   "note": "Lines, quadrilaterals, triangles (squares with a collapsed side) and hexahedra, real numbers; the mapping is twice continuously differentiable around the reference element, the function once around the element."
  },
  {
   "property": "C117",
   "status": "proved",
   "theorems": [
    "Phyem.Reduce.roundtrip10",
    "Phyem.Reduce.roundtrip11",
    "Phyem.Reduce.roundtrip20",
    "Phyem.Reduce.roundtrip21i",
    "Phyem.Reduce.roundtrip21o",
    "Phyem.Reduce.roundtrip22",
    "Phyem.Reduce.roundtrip30",
    "Phyem.Reduce.roundtrip31",
    "Phyem.Reduce.roundtrip32",
    "Phyem.Reduce.roundtrip33"
   ],
   "note": "Quadrilateral and hexahedral elements and lines, real numbers."
  },
  {
   "property": "C118",
   "status": "partial",
   "theorems": [
    "Phyem.Reduce.Regions.byRegions_right",
    "Phyem.Reduce.Regions.byField_right_partial",
    "Phyem.Reduce.Regions.single_right",
    "Phyem.Reduce.Regions.byField_refuted",
    "Phyem.Reduce.Regions.sumField_right"
   ],
   "note": "Holds for 1- and 2-forms in the plane, 1-, 2- and 3-forms in space, for errors, and for single functions; for forms on a line and 0-forms only if the dictionary lists the regions in their order, refuted otherwise."
  },
  {
   "property": "C119",
   "status": "partial",
   "theorems": [
    "Phyem.Norms.norm2_right",
    "Phyem.Norms.norm3_right",
    "Phyem.Norms.norm2_seminorm",
    "Phyem.Norms.norm3_seminorm",
    "Phyem.Norms.norm2_definite",
    "Phyem.Norms.norm3_definite",
    "Phyem.Norms.rank_independent",
    "Phyem.Norms.norm_rank_independent",
    "Phyem.Norms.norm_types",
    "Phyem.Norms.mass2_right",
    "Phyem.Norms.mass3_right",
    "Phyem.Norms.sq2_right",
    "Phyem.Norms.sq3_right",
    "Phyem.Norms.ip2_partial",
    "Phyem.Norms.ip2_refuted",
    "Phyem.Norms.comp3_partial",
    "Phyem.Norms.comp3_refuted"
   ],
   "note": "Norms and masses proved (norms for quadrilaterals and hexahedra, with the mass matrices of C78). Inner products on elements with a constant Jacobian; refuted otherwise: the Jacobian is taken on the diagonal of the element. Component-wise norms refuted: the square is returned, and degrees that differ raise."
  },
  {
   "property": "C120",
   "status": "partial",
   "theorems": [
    "Phyem.Norms.error2_right",
    "Phyem.Norms.error3_right",
    "Phyem.Norms.error2_exact",
    "Phyem.Norms.error2_zero",
    "Phyem.Norms.error_types",
    "Phyem.Norms.formError_right",
    "Phyem.Norms.h1_error2_right",
    "Phyem.Norms.ld_error1_partial",
    "Phyem.Norms.ld_error2_partial",
    "Phyem.Norms.ld_error3_partial",
    "Phyem.Norms.ld_norm1_partial",
    "Phyem.Norms.ld_norm2_partial",
    "Phyem.Norms.ld_norm3_partial",
    "Phyem.Norms.ld_zero",
    "Phyem.Norms.ld_odd_refuted"
   ],
   "note": "Real numbers. L2 and H1 errors proved; L^d errors and norms of msepy for even d, refuted for odd d: powers are taken without absolute values."
  },
  {
   "property": "C121",
   "status": "partial",
   "theorems": [
    "Phyem.Norms.between_exists",
    "Phyem.Norms.residual_htt_right",
    "Phyem.Norms.residual_htt_empty",
    "Phyem.Norms.residual_htt_default",
    "Phyem.Norms.residual_py_partial",
    "Phyem.Norms.residual_py_empty",
    "Phyem.Norms.residual_py_default",
    "Phyem.Norms.residual_py_refuted"
   ],
   "note": "Proved for msehtt. For msepy refuted for different times that are rounded to the same: zero instead of nan."
  },
  {
   "property": "C122",
   "status": "partial",
   "theorems": [
    "Phyem.Boundary.outward_normals",
    "Phyem.Boundary.bi21o",
    "Phyem.Boundary.bi21i",
    "Phyem.Boundary.bi20o_partial",
    "Phyem.Boundary.bi20i_partial",
    "Phyem.Boundary.bi_bad_face",
    "Phyem.Boundary.bi21o_green",
    "Phyem.Boundary.bi21i_green",
    "Phyem.Boundary.bi20_refuted"
   ],
   "note": "Quadrilateral elements, exact real numbers. 1-forms proved; 0-forms when no two faces of an element in the section meet at a corner, refuted otherwise: the value of one face is overwritten by that of the other one."
  },
  {
   "property": "C123",
   "status": "proved",
   "theorems": [
    "Phyem.Boundary.face_flux",
    "Phyem.Boundary.flux_sum",
    "Phyem.Boundary.flux_refuses",
    "Phyem.Boundary.flux_divergence"
   ],
   "note": "Quadrilateral elements, exact real numbers."
  },
  {
   "property": "C124",
   "status": "partial",
   "theorems": [
    "Phyem.Sections.section_boundary",
    "Phyem.Sections.section_divides",
    "Phyem.Sections.section_rank",
    "Phyem.Sections.globalRange_right",
    "Phyem.Sections.globalRange_empty",
    "Phyem.Sections.section_complete",
    "Phyem.Sections.segments_near",
    "Phyem.Sections.lines_near",
    "Phyem.Sections.ounv_near",
    "Phyem.Sections.polygons_near",
    "Phyem.Sections.curves_near",
    "Phyem.Sections.lines_succeed",
    "Phyem.Sections.lines_fail",
    "Phyem.Sections.polygons_succeed",
    "Phyem.Sections.curves_succeed",
    "Phyem.Sections.ounv_fail",
    "Phyem.Sections.closed_polygon_fails",
    "Phyem.Sections.vertical_curve_fails",
    "Phyem.Sections.lines_curved_refuted",
    "Phyem.Sections.lines_far_refuted"
   ],
   "note": "Proved: each rank has exactly its boundary faces that pass the test, a request and its opposite divide the boundary, faces that lie where it was asked for are in the section. A face in the section is near where it was asked for: everywhere for straight faces and segments, in the 13 points looked at otherwise. Refuted for curved faces and for lines given by two points far from the face."
  },
  {
   "property": "C125",
   "status": "partial",
   "theorems": [
    "Phyem.Sections.config_first",
    "Phyem.Sections.config_retry_refuted"
   ],
   "note": "The first request decides; refuted: after a request that failed no other one is accepted."
  },
  {
   "property": "C126",
   "status": "partial",
   "theorems": [
    "Phyem.Sections.find_local",
    "Phyem.Sections.find_global",
    "Phyem.Sections.find_global_ranks",
    "Phyem.Sections.findAll_right",
    "Phyem.Sections.findAll_stale_refuted"
   ],
   "note": "Proved without history, and for histories in which forms with the same name are the same; refuted when the degree of a form is changed between two calls."
  },
  {
   "property": "C127",
   "status": "partial",
   "theorems": [
    "Phyem.Sections.where_right_partial",
    "Phyem.Sections.where_refuted"
   ],
   "note": "Proved when no two points that are asked for agree in the first six digits, refuted otherwise."
  },
  {
   "property": "C128",
   "status": "partial",
   "theorems": [
    "Phyem.Runner.resume",
    "Phyem.Runner.no_recompute_partial",
    "Phyem.Runner.again",
    "Phyem.Runner.no_recompute_refuted",
    "Phyem.Runner.rewriting_refuted",
    "Phyem.Runner.second_call_refuted"
   ],
   "note": "Proved: whatever crashes happened while rows were written, the next process accepts the file and ends with right and complete results (`resume`); complete rows of a file without incomplete rows are never computed again (`no_recompute_partial`, `again`). Refuted: a row without the end of its line is glued to the next one and both are computed again; a crash between opening and writing back loses all; a second call in the same process."
  },
  {
   "property": "C129",
   "status": "proved",
   "theorems": [
    "Phyem.Runner.slaves_follow",
    "Phyem.Runner.slots_asked"
   ],
   "note": "The messages and the calls of the other ranks, for any matrices and any memory of the master."
  },
  {
   "property": "C130",
   "status": "partial",
   "theorems": [
    "Phyem.Runner.read_file_partial",
    "Phyem.Runner.read_file_refuted"
   ],
   "note": "Proved for at least two outputs; refuted for one output, whose name gets a comma."
  },
  {
   "property": "C131",
   "status": "partial",
   "theorems": [
    "Phyem.Adaptive.always_fresh_partial",
    "Phyem.Adaptive.read_together",
    "Phyem.Adaptive.read_apart_refuted",
    "Phyem.Adaptive.unknown_refuted",
    "Phyem.Adaptive.order_refuted"
   ],
   "note": "Proved for setups in which meshes include earlier ones and orientations are known, for all histories; refuted for unknown orientations, for meshes that include later ones and for forms saved in different generations."
  },
  {
   "property": "C132",
   "status": "partial",
   "theorems": [
    "Phyem.Adaptive.apply_partial",
    "Phyem.Adaptive.late_condition_refuted"
   ],
   "note": "Exactly what apply returns after any history; refuted for conditions that are configured after apply."
  },
  {
   "property": "C133",
   "status": "partial",
   "theorems": [
    "Phyem.Adaptive.renew_cochains_partial",
    "Phyem.Adaptive.renew_info_partial",
    "Phyem.Adaptive.methods_refuted",
    "Phyem.Adaptive.reuse_refuted",
    "Phyem.Adaptive.reuse_meshes_refuted",
    "Phyem.Adaptive.unsplit_refuted",
    "Phyem.Adaptive.report_refuted",
    "Phyem.Adaptive.first_refuted"
   ],
   "note": "Proved for the third method if no address is used twice; refuted for reused addresses, for methods 1 and 2, without triangle splitting, without cochains and before initialize."
  },
  {
   "property": "C134",
   "status": "partial",
   "theorems": [
    "Phyem.Samples.velocity_divergence_free",
    "Phyem.Samples.velocity_divergence_refuted",
    "Phyem.Samples.velocity_divergence_third",
    "Phyem.Samples.magnetic_divergence_free",
    "Phyem.Samples.faraday",
    "Phyem.Samples.vorticity_right",
    "Phyem.Samples.force_is_momentum",
    "Phyem.Samples.source_is_ohm",
    "Phyem.Samples.plane_magnetic",
    "Phyem.Samples.plane_velocity",
    "Phyem.Samples.plane_force",
    "Phyem.Samples.plane_source"
   ],
   "note": "All seven solutions; refuted for the divergence of the velocity of the third Hall solution. The sources are computed with difference quotients, and that is how they are stated."
  },
  {
   "property": "C135",
   "status": "proved",
   "theorems": [
    "Phyem.Samples.first_boundary",
    "Phyem.Samples.second_boundary",
    "Phyem.Samples.third_boundary",
    "Phyem.Samples.fourth_boundary",
    "Phyem.Samples.zeroth_periodic",
    "Phyem.Samples.first_not_periodic",
    "Phyem.Samples.initial_divergence_free",
    "Phyem.Samples.initial_boundary",
    "Phyem.Samples.initial_is_ohm",
    "Phyem.Samples.null_equilibrium",
    "Phyem.Samples.null_force"
   ],
   "note": "All boundary values, periods and initial conditions."
  },
  {
   "property": "C136",
   "status": "partial",
   "theorems": [
    "Phyem.Samples.taylor_green_exact",
    "Phyem.Samples.taylor_green_force",
    "Phyem.Samples.taylor_green_periodic",
    "Phyem.Samples.conservation3",
    "Phyem.Samples.eigen_exact",
    "Phyem.Samples.vortex3",
    "Phyem.Samples.vortex2",
    "Phyem.Samples.vortex_electric",
    "Phyem.Samples.loop_velocity",
    "Phyem.Samples.loop_velocity_refuted",
    "Phyem.Samples.loop_potential",
    "Phyem.Samples.shear_layer",
    "Phyem.Samples.dipole_velocity",
    "Phyem.Samples.dipole_exists",
    "Phyem.Samples.corner_potential",
    "Phyem.Samples.polar_round_trip",
    "Phyem.Samples.cartesian_round_trip"
   ],
   "note": "All of them; refuted for the loop advection with a negative side."
  },
  {
   "property": "C137",
   "status": "partial",
   "theorems": [
    "Phyem.Samples.piece_values",
    "Phyem.Samples.piece_default",
    "Phyem.Samples.piece_default_refuted",
    "Phyem.Samples.piece_counts",
    "Phyem.Samples.piece_short_refuted",
    "Phyem.Samples.piece_integer_fill_refuted",
    "Phyem.Samples.piece_integer_fill_wrong",
    "Phyem.Samples.piece_no_conditions_refuted",
    "Phyem.Samples.jump_values"
   ],
   "note": "Proved for floats and conditions of the length of the arrays, with a default function for numpy 1; refuted for a default function with numpy 2, for short conditions, for integers and without conditions."
  },
  {
   "property": "C138",
   "status": "proved",
   "theorems": [
    "Phyem.Samples.ions_given",
    "Phyem.Samples.ions_incompressible",
    "Phyem.Samples.ions_poisson",
    "Phyem.Samples.ions_positive",
    "Phyem.Samples.ions_periodic",
    "Phyem.Samples.ions_potentials",
    "Phyem.Samples.ions_fluxes",
    "Phyem.Samples.ions_flux_law",
    "Phyem.Samples.ions_force",
    "Phyem.Samples.ions_source_p",
    "Phyem.Samples.ions_source_n"
   ],
   "note": "The sources use difference quotients for the outer derivatives, and that is how they are stated."
  },
  {
   "property": "C139",
   "status": "partial",
   "theorems": [
    "Phyem.Dds.make_iff",
    "Phyem.Dds.unary_is",
    "Phyem.Dds.checkCoo_iff",
    "Phyem.Dds.binary_is",
    "Phyem.Dds.dot_is",
    "Phyem.Dds.cross_is",
    "Phyem.Dds.norm_is",
    "Phyem.Dds.kind_spec",
    "Phyem.Dds.extra_region_refuted",
    "Phyem.Dds.add_commute_refuted"
   ],
   "note": "All operations with natural powers; refuted: components with further regions, and the order of a sum."
  },
  {
   "property": "C140",
   "status": "partial",
   "theorems": [
    "Phyem.Dds.maximum_is",
    "Phyem.Dds.L2_constant",
    "Phyem.Dds.L2_square",
    "Phyem.Dds.L2_refuted"
   ],
   "note": "The maximum for all data; the norm for constants on rectangles with equally many points in both directions, and what it is otherwise; refuted for two times three points."
  },
  {
   "property": "C141",
   "status": "partial",
   "theorems": [
    "Phyem.Dds.compute_way",
    "Phyem.Dds.compute_potential",
    "Phyem.Dds.quadratic_carries",
    "Phyem.Dds.stream_exists",
    "Phyem.Dds.stream_regions",
    "Phyem.Dds.stream_values",
    "Phyem.Dds.fmt_close",
    "Phyem.Dds.stream_hanging_refuted",
    "Phyem.Dds.corner_sign_refuted",
    "Phyem.Dds.stream_continuous_refuted",
    "Phyem.Dds.stream_integer_refuted"
   ],
   "note": "Existence, regions, values and constant for all regions; refuted for regions that share no corner, corners at a negative number that is shown as zero, velocities without stream function, and integer coordinates."
  },
  {
   "property": "C142",
   "status": "partial",
   "theorems": [
    "Phyem.Dds.read_rws",
    "Phyem.Dds.makeGroup_iff",
    "Phyem.Dds.group_get",
    "Phyem.Dds.read_group",
    "Phyem.Dds.save_read",
    "Phyem.Dds.group_names_refuted"
   ],
   "note": "All objects and groups; refuted for the names of a group."
  },
  {
   "property": "C143",
   "status": "partial",
   "theorems": [
    "Phyem.Instant.receive_dict_iff",
    "Phyem.Instant.receive_dict_item",
    "Phyem.Instant.eqAll_iff",
    "Phyem.Instant.receive_vectors",
    "Phyem.Instant.receive_length_refuted"
   ],
   "note": "Dictionaries in full; vectors of numberings with the same numbers of local dofs; refuted where an element has no dofs in the other numbering."
  },
  {
   "property": "C144",
   "status": "proved",
   "theorems": [
    "Phyem.Instant.gathered_spec",
    "Phyem.Instant.homogenous_spec",
    "Phyem.Instant.homogenous_keeps",
    "Phyem.Instant.gathered_roundtrip"
   ],
   "note": ""
  },
  {
   "property": "C145",
   "status": "partial",
   "theorems": [
    "Phyem.Instant.of_dof_spec",
    "Phyem.Instant.of_dof_agrees",
    "Phyem.Instant.of_local_dof_spec",
    "Phyem.Instant.merge_spec",
    "Phyem.Instant.of_dof_refuted"
   ],
   "note": "All look-ups and histories of look-ups; refuted: the value of a dof is that of the global vector."
  },
  {
   "property": "C146",
   "status": "partial",
   "theorems": [
    "Phyem.Instant.components_inner",
    "Phyem.Instant.components_outer_partial",
    "Phyem.Instant.components_outer_refuted"
   ],
   "note": "Inner forms for all degrees; outer forms exactly for equal degrees; refuted otherwise."
  },
  {
   "property": "C147",
   "status": "partial",
   "theorems": [
    "Phyem.Instant.add_spec",
    "Phyem.Instant.add_refused",
    "Phyem.Instant.scale_spec",
    "Phyem.Instant.iadd_spec",
    "Phyem.Instant.add_other_form_refuted"
   ],
   "note": "All operands with as many values as dofs; refuted for cochains of different forms."
  },
  {
   "property": "C148",
   "status": "partial",
   "theorems": [
    "Phyem.Instant.Store.value_frame",
    "Phyem.Instant.Store.d_follows",
    "Phyem.Instant.Store.d_keeps",
    "Phyem.Instant.Store.scale_follows",
    "Phyem.Instant.Store.combine_keeps",
    "Phyem.Instant.Store.set_vector_follows",
    "Phyem.Instant.Store.static_follows",
    "Phyem.Instant.Store.override_keeps",
    "Phyem.Instant.Store.reads_back",
    "Phyem.Instant.Store.d_refuted",
    "Phyem.Instant.Store.scale_refuted",
    "Phyem.Instant.Store.augment_refuted"
   ],
   "note": "What objects give after all programs; refuted: a derivative is a copy, a derivative is always that of the form, multiples and sums behave alike, a statement that raises changes nothing."
  },
  {
   "property": "C149",
   "status": "proved",
   "theorems": [
    "Phyem.Config.studyDir_spec",
    "Phyem.Config.study_spec",
    "Phyem.Config.elements_tile",
    "Phyem.Config.element_mapping",
    "Phyem.Config.element_mapping_injective",
    "Phyem.Config.element_jacobian"
   ],
   "note": ""
  },
  {
   "property": "C150",
   "status": "partial",
   "theorems": [
    "Phyem.Config.region_corners",
    "Phyem.Config.corner_zero_refuted"
   ],
   "note": "All regions, with the tolerance of seven decimals; refuted: corners closer than the tolerance are always recognized."
  },
  {
   "property": "C151",
   "status": "partial",
   "theorems": [
    "Phyem.Config.periodic_accepted",
    "Phyem.Config.periodic_partial",
    "Phyem.Config.periodic_refuted"
   ],
   "note": "Acceptance and soundness in full; completeness for links of length three from the smallest number; refuted beyond."
  },
  {
   "property": "C152",
   "status": "partial",
   "theorems": [
    "Phyem.Config.elements_accepted",
    "Phyem.Config.element_corners",
    "Phyem.Config.mesh_corners",
    "Phyem.Config.shared_side",
    "Phyem.Config.region_places",
    "Phyem.Config.two_squares_refuted",
    "Phyem.Config.hanging_refuted",
    "Phyem.Config.small_refuted"
   ],
   "note": "Acceptance and equality of numbers in full, with sides known by their ends; refuted: only places that are glued are identified, shared sides always match, different places differ."
  },
  {
   "property": "C153",
   "status": "partial",
   "theorems": [
    "Phyem.Passing.correspondence_spec",
    "Phyem.Passing.correspondence_keys",
    "Phyem.Passing.correspondence_disjoint",
    "Phyem.Passing.complete_iff",
    "Phyem.Passing.complete_nested",
    "Phyem.Passing.match_single",
    "Phyem.Passing.zero_refuted",
    "Phyem.Passing.order_refuted"
   ],
   "note": "In full for geometries without tolerance, with keys of groups; refuted: equal points are always found, and the order of elements does not matter."
  },
  {
   "property": "C154",
   "status": "proved",
   "theorems": [
    "Phyem.Passing.pass_exact",
    "Phyem.Passing.segments_add",
    "Phyem.Passing.pass_points",
    "Phyem.Passing.pass_segments"
   ],
   "note": "Polygons and bodies only through the abstract statement; segments parallel to an axis."
  },
  {
   "property": "C155",
   "status": "partial",
   "theorems": [
    "Phyem.Passing.pass_local",
    "Phyem.Passing.answer_spec",
    "Phyem.Passing.project_spec",
    "Phyem.Passing.idle_refuted",
    "Phyem.Passing.same_refuted"
   ],
   "note": "What a rank does in full; refuted: ranks agree, and any form can be passed."
  },
  {
   "property": "C156",
   "status": "proved",
   "theorems": [
    "Phyem.Passing.hierarchy_accepted",
    "Phyem.Passing.hierarchy_spec",
    "Phyem.Passing.hierarchy_partition"
   ],
   "note": ""
  },
  {
   "property": "C157",
   "status": "proved",
   "theorems": [
    "Phyem.Passing.Levels.level_given",
    "Phyem.Passing.Levels.level_same",
    "Phyem.Passing.Levels.form_linked",
    "Phyem.Passing.Levels.level_found"
   ],
   "note": ""
  },
  {
   "property": "C158",
   "status": "partial",
   "theorems": [
    "Phyem.Boxes.point3_spec",
    "Phyem.Boxes.edge3_spec",
    "Phyem.Boxes.face3_spec",
    "Phyem.Boxes.cell3_spec",
    "Phyem.Boxes.cell3_bounds_partial",
    "Phyem.Boxes.dofs_distinct",
    "Phyem.Boxes.point2_spec",
    "Phyem.Boxes.edgeInner_spec",
    "Phyem.Boxes.edgeOuter_spec",
    "Phyem.Boxes.cell2_spec_partial",
    "Phyem.Boxes.cell3_refuted",
    "Phyem.Boxes.thin_refuted",
    "Phyem.Boxes.cell2_refuted"
   ],
   "note": "In full for points, edges and faces with sides above the least; cells in the plane on rectangles; refuted: bounds of cells in space, thin elements, cells on other quadrilaterals."
  },
  {
   "property": "C159",
   "status": "partial",
   "theorems": [
    "Phyem.Boxes.mkSeg_points",
    "Phyem.Boxes.mkRect_points",
    "Phyem.Boxes.mkHexa_points_partial",
    "Phyem.Boxes.inSeg_spec",
    "Phyem.Boxes.inRect_spec",
    "Phyem.Boxes.inHexa_spec",
    "Phyem.Boxes.equal_contain",
    "Phyem.Boxes.hexa_equal_spec",
    "Phyem.Boxes.hexa_equal_refuted",
    "Phyem.Boxes.hexa_contain_refuted"
   ],
   "note": "In full for segments and rectangles, for boxes by the bounds they have; refuted: boxes with different sides along x and y, equality of boxes."
  },
  {
   "property": "C160",
   "status": "partial",
   "theorems": [
    "Phyem.Boxes.unionSeg_spec",
    "Phyem.Boxes.unionRect_spec_partial",
    "Phyem.Boxes.unionHexa_spec_partial",
    "Phyem.Boxes.unionRect_gap",
    "Phyem.Boxes.unionPoint_spec",
    "Phyem.Boxes.small_refuted",
    "Phyem.Boxes.long_refuted",
    "Phyem.Boxes.sign_refuted"
   ],
   "note": "On grids as an equivalence, without them a bound for rectangles; refuted: small objects, long boxes, reversed segments."
  },
  {
   "property": "C161",
   "status": "proved",
   "theorems": [
    "Phyem.MgNodes.levels_nodes",
    "Phyem.MgNodes.levels_conform",
    "Phyem.MgNodes.levels_in_finest",
    "Phyem.MgNodes.coarse_only",
    "Phyem.MgNodes.parse_refused",
    "Phyem.MgNodes.spread_needed"
   ],
   "note": "The finest nodes are a hypothesis (shown for rounded Lobatto nodes of degrees 3 and 6, and needed)."
  },
  {
   "property": "C162",
   "status": "proved",
   "theorems": [
    "Phyem.Integrals.a_spec",
    "Phyem.Integrals.a_skew",
    "Phyem.Integrals.a_ranks",
    "Phyem.Integrals.a_is_term"
   ],
   "note": "Reconstructed values at quadrature points are inputs; exact arithmetic."
  },
  {
   "property": "C163",
   "status": "partial",
   "theorems": [
    "Phyem.Integrals.integrate_exact",
    "Phyem.Integrals.integrate_linear",
    "Phyem.Integrals.integrate_parts",
    "Phyem.Integrals.integrate_mono",
    "Phyem.Integrals.integrate_space_refuted"
   ],
   "note": "In space the function of the plane is called with three coordinates, so nothing can be integrated there (integrate_space_refuted)."
  },
  {
   "property": "C164",
   "status": "partial",
   "theorems": [
    "Phyem.Integrals.cfl_spec",
    "Phyem.Integrals.cfl_le_one",
    "Phyem.Integrals.cfl_scale",
    "Phyem.Integrals.middles_inside",
    "Phyem.Integrals.export_spec",
    "Phyem.Integrals.export_defined",
    "Phyem.Integrals.cfl_border_refuted"
   ],
   "note": "The velocity is sampled at middles only: the border is missed (cfl_border_refuted)."
  },
  {
   "property": "C165",
   "status": "partial",
   "theorems": [
    "Phyem.Integrals.vtk_cells",
    "Phyem.Integrals.vtk_points",
    "Phyem.Integrals.key1_close",
    "Phyem.Integrals.vtk_sign_refuted"
   ],
   "note": "Corners on both sides of an axis get different keys (vtk_sign_refuted)."
  },
  {
   "property": "C166",
   "status": "partial",
   "theorems": [
    "Phyem.Monitor.autosave",
    "Phyem.Monitor.autosave_each",
    "Phyem.Monitor.csv_prefix",
    "Phyem.Monitor.steps_rows",
    "Phyem.Monitor.run_saved",
    "Phyem.Monitor.autosave_failed_refuted",
    "Phyem.Monitor.crash_in_save_refuted",
    "Phyem.Monitor.run_empty_refuted"
   ],
   "note": "Failed writes are not made up for before another period (autosave_failed_refuted), a crash during a write loses the file (crash_in_save_refuted), and an empty range fails (run_empty_refuted)."
  },
  {
   "property": "C167",
   "status": "proved",
   "theorems": [
    "Phyem.Monitor.select_spec",
    "Phyem.Monitor.filter_spec",
    "Phyem.Monitor.remaining_spec",
    "Phyem.Monitor.percentage_spec"
   ],
   "note": "Exact arithmetic for linspace."
  },
  {
   "property": "C168",
   "status": "partial",
   "theorems": [
    "Phyem.Monitor.hms_roundtrip",
    "Phyem.Monitor.dhms_roundtrip",
    "Phyem.Monitor.dhmsm_roundtrip",
    "Phyem.Monitor.shown_eq",
    "Phyem.Monitor.dhmsm_negative_refuted"
   ],
   "note": "With milliseconds only for times that are not negative (dhmsm_negative_refuted)."
  },
  {
   "property": "C169",
   "status": "partial",
   "theorems": [
    "Phyem.Split.ts_spec",
    "Phyem.Split.ts_defined",
    "Phyem.Split.names_refuted"
   ],
   "note": "For indices that are different as texts; an integer and its text lose elements (names_refuted)."
  },
  {
   "property": "C170",
   "status": "proved",
   "theorems": [
    "Phyem.Split.ts_placed",
    "Phyem.Split.iter_placed"
   ],
   "note": "Exact arithmetic."
  },
  {
   "property": "C171",
   "status": "proved",
   "theorems": [
    "Phyem.Split.iter_area",
    "Phyem.Split.iter_convex",
    "Phyem.Split.quarter_spec",
    "Phyem.Split.quarter_jacobian"
   ],
   "note": "Exact arithmetic."
  },
  {
   "property": "C172",
   "status": "partial",
   "theorems": [
    "Phyem.Split.sides_spec",
    "Phyem.Split.inner_sides",
    "Phyem.Split.periodic_refuted"
   ],
   "note": "Two sides between the same nodes, as in a periodic strip of two elements, get the same middle (periodic_refuted)."
  },
  {
   "property": "C173",
   "status": "proved",
   "theorems": [
    "Phyem.Split.parse_spec",
    "Phyem.Split.iter_defined",
    "Phyem.Split.count_spec"
   ],
   "note": "For a mesh that is configured once."
  },
  {
   "property": "C174",
   "status": "proved",
   "theorems": [
    "Phyem.Split.octants_spec",
    "Phyem.Split.octants_cover",
    "Phyem.Split.ts_placed3",
    "Phyem.Split.iter_placed3",
    "Phyem.Split.middles_spec",
    "Phyem.Split.octant_nodes"
   ],
   "note": "Exact arithmetic."
  },
  {
   "property": "C175",
   "status": "proved",
   "theorems": [
    "Phyem.Split.tqr_init",
    "Phyem.Split.tqr_spec",
    "Phyem.Split.tqr_same",
    "Phyem.Split.tqr_placed"
   ],
   "note": "Exact arithmetic."
  },
  {
   "property": "C176",
   "status": "proved",
   "theorems": [
    "Phyem.Slice.slice_iff",
    "Phyem.Slice.elements_spec",
    "Phyem.Slice.tiling"
   ],
   "note": "Exact arithmetic."
  },
  {
   "property": "C177",
   "status": "proved",
   "theorems": [
    "Phyem.Slice.nodes_spec",
    "Phyem.Slice.nodes_used"
   ],
   "note": "Exact arithmetic."
  },
  {
   "property": "C178",
   "status": "partial",
   "theorems": [
    "Phyem.Slice.face_nodes_iff",
    "Phyem.Slice.edge_nodes_iff",
    "Phyem.Slice.keys_are",
    "Phyem.Slice.one_column_refuted"
   ],
   "note": "Unless two of the numbers of elements are one (one_column_refuted)."
  },
  {
   "property": "C179",
   "status": "partial",
   "theorems": [
    "Phyem.Slice.no_boundary",
    "Phyem.Slice.neighbors_spec",
    "Phyem.Slice.default_levels_refuted"
   ],
   "note": "Neighbours for three or more elements along each axis; with the default two levels the table is empty at the side faces (default_levels_refuted)."
  },
  {
   "property": "C180",
   "status": "partial",
   "theorems": [
    "Phyem.Ranking.report_spec",
    "Phyem.Ranking.history_spec",
    "Phyem.Ranking.history_all",
    "Phyem.Ranking.best_refuted",
    "Phyem.Ranking.shared_refuted"
   ],
   "note": "A machine that has left the file does not come back (best_refuted), and a test that runs at the same time as another is lost (shared_refuted)."
  },
  {
   "property": "C181",
   "status": "partial",
   "theorems": [
    "Phyem.Ranking.printed_spec",
    "Phyem.Ranking.printed_refuted"
   ],
   "note": "The last record loses a character of its cost (printed_refuted)."
  },
  {
   "property": "C182",
   "status": "proved",
   "theorems": [
    "Phyem.Lines.meet_iff",
    "Phyem.Lines.meet_none",
    "Phyem.Lines.meet_symm",
    "Phyem.Lines.meet_point"
   ],
   "note": "Exact arithmetic in any field; two points of a line must differ (meet_point)."
  },
  {
   "property": "C183",
   "status": "partial",
   "theorems": [
    "Phyem.Lines.scalar_number",
    "Phyem.Lines.scalar_array",
    "Phyem.Lines.scalar_array2",
    "Phyem.Lines.scalar_refused",
    "Phyem.Lines.scalar_on_line",
    "Phyem.Lines.scalar_off_lines",
    "Phyem.Lines.vector_components",
    "Phyem.Lines.vector_linked",
    "Phyem.Lines.integers_refuted"
   ],
   "note": "For arrays of integers the values are cut off (integers_refuted)."
  },
  {
   "property": "C184",
   "status": "partial",
   "theorems": [
    "Phyem.MeshPy.outline_closed",
    "Phyem.MeshPy.taken_iff",
    "Phyem.MeshPy.parse_spec",
    "Phyem.MeshPy.corners_near",
    "Phyem.MeshPy.parse_apart",
    "Phyem.MeshPy.collapsed_refuted",
    "Phyem.MeshPy.minus_zero_refuted"
   ],
   "note": "The triangulation itself is not modelled. Two corners that are nearer than 1e-9 may become one node of an element (collapsed_refuted), and a small negative coordinate is not taken for zero (minus_zero_refuted)."
  },
  {
   "property": "C185",
   "status": "partial",
   "theorems": [
    "Phyem.Rename.rename_total",
    "Phyem.Rename.rename_from",
    "Phyem.Rename.rename_spec",
    "Phyem.Rename.free_of_fresh",
    "Phyem.Rename.target_inj",
    "Phyem.Rename.ext_spec",
    "Phyem.Rename.keeps_refuted"
   ],
   "note": "A file that has the new name of another one already is replaced, so files may be lost (keeps_refuted); nothing is lost if no new name belongs to another file. Folders inside of the folder are not modelled."
  },
  {
   "property": "C186",
   "status": "partial",
   "theorems": [
    "Phyem.Memo.memo1_spec",
    "Phyem.Memo.memo1_faithful",
    "Phyem.Memo.key1_ints",
    "Phyem.Memo.memo1_ints",
    "Phyem.Memo.memo2_spec",
    "Phyem.Memo.memo2_faithful",
    "Phyem.Memo.key2_iff",
    "Phyem.Memo.memo4_faithful",
    "Phyem.Memo.memo1_refuted",
    "Phyem.Memo.memo2_refuted",
    "Phyem.Memo.fresh2_refuted"
   ],
   "note": "Long arrays are told apart by what is printed of them (memo1_refuted), True is taken for 1 (memo2_refuted), and a method of an object that was changed gives the old value (fresh2_refuted)."
  },
  {
   "property": "C187",
   "status": "partial",
   "theorems": [
    "Phyem.Accepts.shape_iff",
    "Phyem.Accepts.type_iff",
    "Phyem.Accepts.type_ordered",
    "Phyem.Accepts.single_iff",
    "Phyem.Accepts.text_iff",
    "Phyem.Accepts.dims_iff",
    "Phyem.Accepts.many_iff",
    "Phyem.Accepts.accepted_iff",
    "Phyem.Accepts.more_refuted",
    "Phyem.Accepts.fewer_refuted",
    "Phyem.Accepts.dims_refuted",
    "Phyem.Accepts.keyword_refuted"
   ],
   "note": "Against the documentation, shapes with more axes (more_refuted) or fewer (fewer_refuted) are accepted, ndim after shape is not looked at (dims_refuted), and keyword arguments are not checked (keyword_refuted)."
  },
  {
   "property": "C188",
   "status": "partial",
   "theorems": [
    "Phyem.FaceDofs.nodes_on_face",
    "Phyem.FaceDofs.edges_on_face",
    "Phyem.FaceDofs.faces_on_face",
    "Phyem.FaceDofs.opposite_fit",
    "Phyem.FaceDofs.component_x",
    "Phyem.FaceDofs.component_y",
    "Phyem.FaceDofs.component_z_partial",
    "Phyem.FaceDofs.inside_refuted",
    "Phyem.FaceDofs.kept_refuted"
   ],
   "note": "By component, the numbers on the faces z- and z+ are too small (component_z_partial, inside_refuted), and the numbering that is kept is changed on y-, y+, z- and z+, so that later calls give wrong dofs (kept_refuted)."
  },
  {
   "property": "C189",
   "status": "partial",
   "theorems": [
    "Phyem.FaceDofs.places2_spec",
    "Phyem.FaceDofs.places3_raises",
    "Phyem.FaceDofs.places3_array",
    "Phyem.FaceDofs.places3_refuted"
   ],
   "note": "Proved for rectangles. For hexahedra the third coordinate is an array (places3_array, places3_refuted), and from degree three on an error is raised (places3_raises)."
  },
  {
   "property": "C190",
   "status": "partial",
   "theorems": [
    "Phyem.Degree.parse_iff",
    "Phyem.Degree.parseB_iff",
    "Phyem.Degree.edges_spec",
    "Phyem.Degree.uniform_refuted"
   ],
   "note": "A number written as a float is accepted alone but not in a list (uniform_refuted)."
  },
  {
   "property": "C191",
   "status": "proved",
   "theorems": [
    "Phyem.Derived.newest_iff",
    "Phyem.Derived.defined_iff",
    "Phyem.Derived.add_iff",
    "Phyem.Derived.sub_iff",
    "Phyem.Derived.d_iff",
    "Phyem.Derived.default_iff",
    "Phyem.Derived.d_add",
    "Phyem.Derived.sub_self",
    "Phyem.Derived.d_d",
    "Phyem.Derived.set_spec"
   ],
   "note": "Shapes of cochains and the continuous forms that are set along are not modelled."
  },
  {
   "property": "C192",
   "status": "proved",
   "theorems": [
    "Phyem.Derived.ofDof_mean",
    "Phyem.Derived.ofDof_global"
   ],
   "note": "Without redundant dofs."
  },
  {
   "property": "C193",
   "status": "proved",
   "theorems": [
    "Phyem.Derived.combine_iff",
    "Phyem.Derived.negate_spec"
   ],
   "note": ""
  },
  {
   "property": "C194",
   "status": "proved",
   "theorems": [
    "Phyem.Regions.quad_sides",
    "Phyem.Regions.quad_injective",
    "Phyem.Regions.rectangle_spec",
    "Phyem.Regions.quad_refuted"
   ],
   "note": "That points are in convex position is not checked by the code (quad_refuted)."
  },
  {
   "property": "C195",
   "status": "proved",
   "theorems": [
    "Phyem.Regions.info_spec",
    "Phyem.Regions.info_conforming"
   ],
   "note": ""
  },
  {
   "property": "C196",
   "status": "partial",
   "theorems": [
    "Phyem.Regions.singular_left",
    "Phyem.Regions.singular_square",
    "Phyem.Regions.singular_refuted"
   ],
   "note": "Holds for square matrices; for others the modes of the transpose are counted (singular_left), which is a different number (singular_refuted). The rank that numpy computes is taken to be the rank."
  },
  {
   "property": "C197",
   "status": "proved",
   "theorems": [
    "Phyem.Folder.remove_spec"
   ],
   "note": ""
  },
  {
   "property": "C198",
   "status": "partial",
   "theorems": [
    "Phyem.Folder.emptyDir_safe",
    "Phyem.Folder.emptyDir_spec",
    "Phyem.Folder.atomic_refuted"
   ],
   "note": "All but the last sentence: the files listed before a folder are gone when the error is raised (atomic_refuted)."
  },
  {
   "property": "C199",
   "status": "proved",
   "theorems": [
    "Phyem.Folder.mkdir_spec",
    "Phyem.Folder.rmdir_spec",
    "Phyem.Folder.rmdir_iff",
    "Phyem.Folder.history"
   ],
   "note": "Links, permissions and other programs are not modelled."
  },
  {
   "property": "C200",
   "status": "proved",
   "theorems": [
    "Phyem.Wrapped.make_iff",
    "Phyem.Wrapped.evaluate_iff",
    "Phyem.Wrapped.evaluate_order",
    "Phyem.Wrapped.rmul_spec",
    "Phyem.Wrapped.rmul_rmul"
   ],
   "note": "Makers that override reduce, and bare arrays as cochains, are not modelled."
  },
  {
   "property": "C201",
   "status": "proved",
   "theorems": [
    "Phyem.Wrapped.scalar_iff",
    "Phyem.Wrapped.vector_tensor_iff"
   ],
   "note": ""
  },
  {
   "property": "C202",
   "status": "proved",
   "theorems": [
    "Phyem.SideFaces.faces_mem",
    "Phyem.SideFaces.faces_iff",
    "Phyem.SideFaces.faces_nodup"
   ],
   "note": ""
  },
  {
   "property": "C203",
   "status": "partial",
   "theorems": [
    "Phyem.SideFaces.reads_same",
    "Phyem.SideFaces.item_partial",
    "Phyem.SideFaces.item_refuted"
   ],
   "note": "All but the last sentence, which holds for numbers from 0 (item_partial): a negative number gives a face iff this face was read before (item_refuted)."
  },
  {
   "property": "C204",
   "status": "proved",
   "theorems": [
    "Phyem.Apply.rootForms_spec"
   ],
   "note": "Base forms are root-forms that are not at a time instant themselves."
  },
  {
   "property": "C205",
   "status": "proved",
   "theorems": [
    "Phyem.Apply.objects_spec"
   ],
   "note": ""
  }
 ]
}