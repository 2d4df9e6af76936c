{
 "claims": [
  {
   "property": "C01",
   "status": "proved",
   "theorems": [
    "Verif.LabelledDict.C01_labels_agree"
   ],
   "note": ""
  },
  {
   "property": "C02",
   "status": "proved",
   "theorems": [
    "Verif.LabelledDict.C02_setitem",
    "Verif.LabelledDict.C02_rejected_unchanged",
    "Verif.LabelledDict.C02_removals"
   ],
   "note": ""
  },
  {
   "property": "C03",
   "status": "partial",
   "theorems": [
    "Verif.Docval.C03_binding",
    "Verif.Docval.C03_position_partial",
    "Verif.Docval.C03_position_fails",
    "Verif.Docval.C03_delivered_partial",
    "Verif.Docval.C03_delivered_fails"
   ],
   "note": "Full characterisation of the binding proved (C03_binding); binding by position only if no optional parameter in the positional range is also given by keyword. Two violations proved: a value given twice is not rejected but slides to the next parameter; a required shape-checked parameter receives an attribute of the given object."
  },
  {
   "property": "C04",
   "status": "proved",
   "theorems": [
    "Verif.Docval.C04_accepted_typed",
    "Verif.Docval.C04_refused_untyped"
   ],
   "note": ""
  },
  {
   "property": "C05",
   "status": "partial",
   "theorems": [
    "Verif.Docval.C05_nothing_dropped_partial",
    "Verif.Docval.C05_allow_extra_partial",
    "Verif.Docval.C05_dropped_fails"
   ],
   "note": "Proved without allow_extra; with allow_extra undeclared keywords are kept if there is at least one declared parameter, but positional values can be dropped (witness)."
  },
  {
   "property": "C06",
   "status": "partial",
   "theorems": [
    "Verif.Docval.C06_shape",
    "Verif.Docval.C06_accepted_shape",
    "Verif.Docval.C06_empty_shape_fails"
   ],
   "note": "Exact for every non-empty shape specification; an empty shape specification raises IndexError (witness)."
  },
  {
   "property": "C07",
   "status": "proved",
   "theorems": [
    "Verif.GenericChunks.C07_exact_cover",
    "Verif.GenericChunks.C07_within",
    "Verif.GenericChunks.C07_count"
   ],
   "note": ""
  },
  {
   "property": "C08",
   "status": "proved",
   "theorems": [
    "Verif.GenericChunks.C08_write_back",
    "Verif.GenericChunks.C08_nothing_else"
   ],
   "note": ""
  },
  {
   "property": "C09",
   "status": "proved",
   "theorems": [
    "Verif.ChunkStream.C09_prefix",
    "Verif.ChunkStream.C09_complete",
    "Verif.ChunkStream.C09_terminates",
    "Verif.ChunkStream.C09_spec_meaning",
    "Verif.ChunkStream.C09_h5_source"
   ],
   "note": "Iteration axis only; HDF5 source and general iterables, arbitrary interleaving of next and maxshape."
  },
  {
   "property": "C10",
   "status": "proved",
   "theorems": [
    "Verif.ChunkStream.C10_terminates",
    "Verif.ChunkStream.C10_independent",
    "Verif.ChunkStream.C10_same_dataset_fails"
   ],
   "note": "Each dataset queued once (as HDF5IO does); queuing one dataset twice interleaves (witness). The _fails witness goes beyond the statement."
  },
  {
   "property": "C11",
   "status": "partial",
   "theorems": [
    "Verif.Ragged.C11_rows",
    "Verif.Ragged.C11_constructed",
    "Verif.Ragged.C11_array_target_fails",
    "Verif.Ragged.C11_empty_on_disk_fails"
   ],
   "note": "Proved for list-backed targets at full strength, also for columns constructed with data; a 1-D numpy target is never extended correctly and an on-disk target rejects empty vectors (witnesses)."
  },
  {
   "property": "C12",
   "status": "partial",
   "theorems": [
    "Verif.Ragged.C12_aligned",
    "Verif.Ragged.C12_accepted_complete",
    "Verif.Ragged.C12_cover",
    "Verif.Ragged.C12_rejected_fails"
   ],
   "note": "Proved for list/array indexes at every depth; an on-disk index whose width is exceeded is left misaligned by the rejected addition (witness)."
  },
  {
   "property": "C13",
   "status": "partial",
   "theorems": [
    "Verif.Ragged.C13_width",
    "Verif.Ragged.C13_disk_fails"
   ],
   "note": "Proved for list/array indexes; an on-disk index clips values after a rejected widening (witness)."
  },
  {
   "property": "C14",
   "status": "proved",
   "theorems": [
    "Verif.Table.C14_columns_aligned",
    "Verif.Table.C14_preserved",
    "Verif.Table.C14_after_rejection_fails"
   ],
   "note": "Proved for histories of successful calls from a table built without data and from any aligned table; a caught rejection breaks it (witness). The _fails witness goes beyond the statement."
  },
  {
   "property": "C15",
   "status": "proved",
   "theorems": [
    "Verif.Table.C15_rows_read_back",
    "Verif.Table.C15_columns_read_back"
   ],
   "note": "Proved for list-backed columns of every depth holding fewer than 2^64 values."
  },
  {
   "property": "C16",
   "status": "partial",
   "theorems": [
    "Verif.Table.C16_rejected_unchanged_partial",
    "Verif.Table.C16_fails"
   ],
   "note": "Unchanged for missing columns, unknown keys and duplicate ids when the row brings in no new predefined column; false in general: two witnesses (unfit value for a ragged column; optional column created before rejection)."
  },
  {
   "property": "C17",
   "status": "proved",
   "theorems": [
    "Verif.Table.C17_rejected",
    "Verif.Table.C17_accepted",
    "Verif.Table.C17_rejected_children_fails"
   ],
   "note": "ids and columns as stated; the rejected column and its indexes stay attached as children (witness). The _fails witness goes beyond the statement."
  },
  {
   "property": "C18",
   "status": "proved",
   "theorems": [
    "Verif.Ragged.C18_nested"
   ],
   "note": ""
  },
  {
   "property": "C19",
   "status": "partial",
   "theorems": [
    "Verif.Region.C19_rows_resolved",
    "Verif.Region.C19_succeeds_partial",
    "Verif.Region.C19_empty_selection_fails"
   ],
   "note": "An empty selection of a table with a ragged column raises IndexError (witness)."
  },
  {
   "property": "C20",
   "status": "partial",
   "theorems": [
    "Verif.Region.C20_entry",
    "Verif.Region.C20_row",
    "Verif.Region.C20_dangling_fails"
   ],
   "note": "Exact for reads of indices, and for reads of rows if the region's values are rows; nothing checks the values of a region given directly (witness)."
  },
  {
   "property": "C21",
   "status": "partial",
   "theorems": [
    "Verif.Enum.C21_terms_distinct",
    "Verif.Enum.C21_added",
    "Verif.Enum.C21_added_index",
    "Verif.Enum.C21_stable_partial",
    "Verif.Enum.C21_fits",
    "Verif.Enum.C21_negative_index_fails",
    "Verif.Enum.C21_many_terms_fails"
   ],
   "note": "Stability needs non-negative indices: a negative index added with index=True changes meaning when terms are added (witness). Beyond 2^32 terms the width formula gives 128 bits and add_row raises TypeError after appending the term."
  },
  {
   "property": "C22",
   "status": "proved",
   "theorems": [
    "Verif.Aligned.C22_aligned",
    "Verif.Aligned.C22_columns_partial",
    "Verif.Aligned.C22_init_fails",
    "Verif.Aligned.C22_after_rejection_fails",
    "Verif.Aligned.C22_init_order"
   ],
   "note": "Numbers of rows for every constructor call and history of successful calls; column lengths from any aligned state. The constructor makes up ids for a main table with empty predefined columns, and a caught rejection misaligns (witnesses). The _fails witness goes beyond the statement."
  },
  {
   "property": "C23",
   "status": "partial",
   "theorems": [
    "Verif.Aligned.C23_rejected_partial",
    "Verif.Aligned.C23_category_fails",
    "Verif.Aligned.C23_dict_fails"
   ],
   "note": "A missing category or missing main column changes no table; a row rejected by a category stays in the main table, and the caller's dict is always changed (witnesses)."
  },
  {
   "property": "C24",
   "status": "partial",
   "theorems": [
    "Verif.Tree.C24_agree_partial",
    "Verif.Tree.C24_data_parent_fails",
    "Verif.Tree.C24_equal_children_fails"
   ],
   "note": "Objects compared by identity, Container parents, proxies included; false with a Data parent and for children compared by content (witnesses)."
  },
  {
   "property": "C25",
   "status": "partial",
   "theorems": [
    "Verif.Tree.C25_acyclic_partial",
    "Verif.Tree.C25_cycle_after_error_fails",
    "Verif.Tree.C25_data_parent_fails"
   ],
   "note": "For histories without errors and Container parents; cycles arise when an error is caught or with a Data parent (witnesses)."
  },
  {
   "property": "C26",
   "status": "proved",
   "theorems": [
    "Verif.Tree.C26_marks",
    "Verif.Tree.C26_all_ancestors",
    "Verif.Tree.C26_clear",
    "Verif.Tree.C26_attach_marks"
   ],
   "note": "As stated; returning needs an acyclic tree (C25)."
  },
  {
   "property": "C27",
   "status": "proved",
   "theorems": [
    "Verif.Tree.C27_all_children"
   ],
   "note": "Histories without errors on plain objects, as C24 and C25."
  },
  {
   "property": "C28",
   "status": "proved",
   "theorems": [
    "Verif.Builders.C28_builder",
    "Verif.Once.C28_field_fixed",
    "Verif.Once.C28_field_history",
    "Verif.Once.C28_field_origin",
    "Verif.Once.C28_single",
    "Verif.Once.C28_dataset_builder",
    "Verif.Once.C28_dataio"
   ],
   "note": "All as stated, over arbitrary histories of assignments; container values and `_field_config` are parameters."
  },
  {
   "property": "C29",
   "status": "partial",
   "theorems": [
    "Verif.Herd.C29_integrity",
    "Verif.Herd.C29_foreign_key_fails"
   ],
   "note": "Key rows of this HERD; a Key row of another HERD is accepted and leaves a dangling index (witness)."
  },
  {
   "property": "C30",
   "status": "proved",
   "theorems": [
    "Verif.Herd.C30_recorded",
    "Verif.Herd.C30_object_row",
    "Verif.Herd.C30_kept",
    "Verif.Herd.C30_exact",
    "Verif.Herd.C30_lookup"
   ],
   "note": "Recorded, kept and looked up for all histories; exactness (nothing else is retrievable) for histories with string keys. Resolution of container and attribute by the type map is a parameter."
  },
  {
   "property": "C31",
   "status": "partial",
   "theorems": [
    "Verif.Herd.C31_unique",
    "Verif.Herd.C31_repeat_partial",
    "Verif.Herd.C31_repeat_row",
    "Verif.Herd.C31_repeat_fails"
   ],
   "note": "Entity ids, files, objects and entity-key rows are unique; repeating a call with a string key adds a second equal object-key row (witness), with a Key row nothing."
  },
  {
   "property": "C32",
   "status": "partial",
   "theorems": [
    "Verif.Herd.C32_uri_stable",
    "Verif.Herd.C32_no_uri",
    "Verif.Herd.C32_rejected_partial",
    "Verif.Herd.C32_missing_key_fails"
   ],
   "note": "URI stability for all histories; a call without key raises after file and object rows were added (witness); every other rejected call changes nothing."
  },
  {
   "property": "C33",
   "status": "proved",
   "theorems": [
    "Verif.Builders.C33_names_unique",
    "Verif.Builders.C33_rejected_unchanged",
    "Verif.Builders.C33_rejected_iff"
   ],
   "note": "As stated."
  },
  {
   "property": "C34",
   "status": "partial",
   "theorems": [
    "Verif.Builders.C34_stored_partial",
    "Verif.Builders.C34_stays",
    "Verif.Builders.C34_attribute",
    "Verif.Builders.C34_path",
    "Verif.Builders.C34_dots",
    "Verif.Builders.C34_slash_name_fails",
    "Verif.Builders.C34_equal_builder_fails"
   ],
   "note": "Identity up to content equality: a builder equal by content to the one stored is not stored (witness); a name containing a slash is not found (witness)."
  },
  {
   "property": "C35",
   "status": "partial",
   "theorems": [
    "Verif.Manager.C35_inverse_partial",
    "Verif.Manager.C35_stable",
    "Verif.Manager.C35_prebuilt_fails"
   ],
   "note": "C35_stable holds for all histories without purge and without a second prebuilt for the container; the inverse-tables part holds for all container graphs, also cyclic ones, when prebuilt is called with unregistered objects; negation shown for arbitrary prebuilt calls. Mapper internals are abstracted to event lists."
  },
  {
   "property": "C36",
   "status": "proved",
   "theorems": [
    "Verif.Manager.C36_order",
    "Verif.Manager.C36_done"
   ],
   "note": "FIFO, exactly-once and empty queue for all mapper behaviours and histories, also with cyclic container graphs. Mapper internals are abstracted to event lists. What happens to leftovers of a build that raised is C104."
  },
  {
   "property": "C37",
   "status": "partial",
   "theorems": [
    "Verif.Spec.C37_attributes",
    "Verif.Spec.C37_named_partial",
    "Verif.Spec.C37_typed_partial",
    "Verif.Spec.C37_copy",
    "Verif.Spec.C37_classified_partial",
    "Verif.Spec.C37_kind_fails",
    "Verif.Spec.C37_repeated_fails",
    "Verif.Spec.C37_type_fails"
   ],
   "note": "Proved for all specs whose sub-specs have different names, at every level; negations shown for child and parent entries of different kinds under one name, for repeated names, and for is_inherited_type."
  },
  {
   "property": "C38",
   "status": "partial",
   "theorems": [
    "Verif.Catalog.C38_hierarchy_partial",
    "Verif.Catalog.C38_hierarchy_shape",
    "Verif.Catalog.C38_stale_fails",
    "Verif.Catalog.C38_cycle_fails"
   ],
   "note": "Proved for every history of accepted registrations and answered queries in which no type is first registered after it was part of an answer; the stale memo (parent registered after a query) and the endless loop on a cycle of types are proved as _fails theorems."
  },
  {
   "property": "C39",
   "status": "partial",
   "theorems": [
    "Verif.Catalog.C39_kept",
    "Verif.Catalog.C39_rejected_partial",
    "Verif.Catalog.C39_repeat",
    "Verif.Catalog.C39_rejected_fails"
   ],
   "note": "Registered specs and sources never change under any history; rejected registrations leave specs, sources and memo alone; but a rejected registration changes the parent table, so get_hierarchy changes (C39_rejected_fails)."
  },
  {
   "property": "C40",
   "status": "partial",
   "theorems": [
    "Verif.Catalog.C40_subtypes",
    "Verif.Catalog.C40_direct",
    "Verif.Catalog.C40_unregistered_fails"
   ],
   "note": "Full statement for registered types in acyclic catalogs; a type only used as a parent gets () (C40_unregistered_fails)."
  },
  {
   "property": "C41",
   "status": "partial",
   "theorems": [
    "Verif.Catalog.C41_copy_partial",
    "Verif.Catalog.C41_copy_fails"
   ],
   "note": "Specs, types and subtypes survive copying; hierarchies and sources do not, and registering a spec again in the copy is a KeyError (C41_copy_fails)."
  },
  {
   "property": "C42",
   "status": "partial",
   "theorems": [
    "Verif.Vtypes.C42_exact_partial",
    "Verif.Vtypes.C42_fails",
    "Verif.Vtypes.C42_order"
   ],
   "note": "Exact characterisation for all spec names and all received names other than float16/float96/float128, which are rejected (C42_fails)."
  },
  {
   "property": "C43",
   "status": "partial",
   "theorems": [
    "Verif.Vtypes.C43_compound_partial",
    "Verif.Vtypes.C43_date_fails"
   ],
   "note": "Holds without isodatetime fields; after an isodatetime field the rest is not checked (C43_date_fails)."
  },
  {
   "property": "C44",
   "status": "partial",
   "theorems": [
    "Verif.Vtypes.C44_any",
    "Verif.Vtypes.C44_shape_partial",
    "Verif.Vtypes.C44_alternatives_partial",
    "Verif.Vtypes.C44_fails"
   ],
   "note": "Exact for all non-empty specs; an empty list of dimensions raises IndexError (C44_fails)."
  },
  {
   "property": "C45",
   "status": "proved",
   "theorems": [
    "Verif.Vmatch.C45_assignment",
    "Verif.Vmatch.C45_total",
    "Verif.Vmatch.C45_choice",
    "Verif.Vmatch.C45_unambiguous"
   ],
   "note": "Assignment is a partition, sound and complete for fitting; the choice among several is characterised (C45_choice)."
  },
  {
   "property": "C46",
   "status": "partial",
   "theorems": [
    "Verif.Vmatch.C46_exact_partial",
    "Verif.Vmatch.C46_fails"
   ],
   "note": "Exact for positive numbers, '?', '*', '+'; 0 and spelled-out quantities are mishandled (C46_fails)."
  },
  {
   "property": "C47",
   "status": "partial",
   "theorems": [
    "Verif.Vmap.C47_valid_types_partial",
    "Verif.Vmap.C47_order_fails"
   ],
   "note": "Holds when each type is registered after the one it includes; otherwise subtypes are lost (C47_order_fails)."
  },
  {
   "property": "C48",
   "status": "partial",
   "theorems": [
    "Verif.Convert.C48_resolve",
    "Verif.Convert.C48_refused_iff",
    "Verif.Convert.C48_nested",
    "Verif.Convert.C48_reported_dtype_fails",
    "Verif.Convert.C48_trailing_empty_fails",
    "Verif.Convert.C48_reported_dtype_partial",
    "Verif.Convert.C48_names"
   ],
   "note": "Proved for every pair of dtypes and, piece by piece, for nested lists of any depth; the dtype reported for a whole list is only right when all pieces agree: for mixed lists, trailing empty lists the claim fails (witnesses)."
  },
  {
   "property": "C49",
   "status": "partial",
   "theorems": [
    "Verif.Convert.C49_alternatives",
    "Verif.Convert.C49_single",
    "Verif.Convert.C49_scalar_fails",
    "Verif.Convert.C49_refinement",
    "Verif.Convert.C49_refined_shape_keeps_labels_fails"
   ],
   "note": "Proved for all alternatives and single shapes when the data has a shape; data without a shape raises TypeError (witness); a refinement of the shape that does not repeat the labels drops them (witness)."
  },
  {
   "property": "C50",
   "status": "partial",
   "theorems": [
    "Verif.SortKeys.C50_content",
    "Verif.SortKeys.C50_order_partial",
    "Verif.SortKeys.C50_name_first",
    "Verif.SortKeys.C50_order_fails"
   ],
   "note": "Content is preserved at every path; the order holds except that name is moved to the front when neurodata_type_def is absent (C50_name_first, C50_order_fails)."
  },
  {
   "property": "C51",
   "status": "partial",
   "theorems": [
    "Verif.Arrays.C51_lt",
    "Verif.Arrays.C51_ge",
    "Verif.Arrays.C51_le_partial",
    "Verif.Arrays.C51_gt_partial",
    "Verif.Arrays.C51_eq_partial",
    "Verif.Arrays.C51_error",
    "Verif.Arrays.C51_max_fails"
   ],
   "note": "< and >= are exact for all inputs; <=, > and == are exact iff some element is greater than the value and raise IndexError otherwise (C51_error, C51_max_fails)."
  },
  {
   "property": "C52",
   "status": "partial",
   "theorems": [
    "Verif.Arrays.C52_order_partial",
    "Verif.Arrays.C52_eq_partial",
    "Verif.Arrays.C52_fails"
   ],
   "note": "Exact rationals (no float rounding), positive step. Exact for values not below the start (and, for ==, before the end); wrong otherwise (C52_fails)."
  },
  {
   "property": "C53",
   "status": "partial",
   "theorems": [
    "Verif.Terms.C53_invariant",
    "Verif.Terms.C53_exact_partial",
    "Verif.Terms.C53_iterator_fails",
    "Verif.Terms.C53_array_fails",
    "Verif.Terms.C53_insert_fails"
   ],
   "note": "Invariant in full for lists, tuples, scalars, arrays and compound arrays; exact contents for lists except one-shot iterators, which are used up by the validation (C53_iterator_fails); arrays become two-dimensional on extend (C53_array_fails); other list methods bypass validation (C53_insert_fails)."
  },
  {
   "property": "C54",
   "status": "partial",
   "theorems": [
    "Verif.Terms.C54_last_writer_partial",
    "Verif.Terms.C54_malformed_fails"
   ],
   "note": "All histories of loads and unloads of well-formed files; a malformed file is merged partly (C54_malformed_fails)."
  },
  {
   "property": "C55",
   "status": "partial",
   "theorems": [
    "Verif.Namespace.C55_retry_fails",
    "Verif.Namespace.C55_load_keeps_partial",
    "Verif.Namespace.C55_failed_unchanged_partial"
   ],
   "note": "Earlier contents always kept; unchanged on failure when one namespace reads at most one file last; fails in general: files read before the failure count as loaded (witness)."
  },
  {
   "property": "C56",
   "status": "partial",
   "theorems": [
    "Verif.Spec.C56_numeric_partial",
    "Verif.Spec.C56_names_fails",
    "Verif.Spec.C56_columns_partial"
   ],
   "note": "Exact for the int*, uint*, float* names and for columns of arbitrary compound dtypes; negation shown for other names (only the first letter is compared)."
  },
  {
   "property": "C57",
   "status": "partial",
   "theorems": [
    "Verif.Shape.C57_exact_partial",
    "Verif.Shape.C57_fails"
   ],
   "note": "Exact for determined shapes, non-empty axis lists and axes not below -ndim; the remaining cases raise (C57_fails)."
  },
  {
   "property": "C58",
   "status": "proved",
   "theorems": [
    "Verif.TypeMap.C58_class_most_recent",
    "Verif.TypeMap.C58_type_stable",
    "Verif.TypeMap.C58_type_first"
   ],
   "note": ""
  },
  {
   "property": "C59",
   "status": "partial",
   "theorems": [
    "Verif.Slicer.C59_slice",
    "Verif.Slicer.C59_list_partial",
    "Verif.Slicer.C59_single_fails",
    "Verif.Slicer.C59_stable"
   ],
   "note": "Slices: full. Index lists: for at least two indices; a one-index region is broken (C59_single_fails)."
  },
  {
   "property": "C60",
   "status": "partial",
   "theorems": [
    "Verif.Utils.C60_getargs",
    "Verif.Utils.C60_popargs_partial",
    "Verif.Utils.C60_popargs_fails",
    "Verif.Utils.C60_popargs_to_dict"
   ],
   "note": "getargs and popargs_to_dict as stated; a refused popargs is not atomic (witness)."
  },
  {
   "property": "C61",
   "status": "partial",
   "theorems": [
    "Verif.LabelledDict.C61_callbacks_partial",
    "Verif.LabelledDict.C61_callbacks_fails"
   ],
   "note": "Callback theorem excludes del d[k] with a key containing '==' (the query syntax intercepts it); witness in the _fails theorem."
  },
  {
   "property": "C62",
   "status": "partial",
   "theorems": [
    "Verif.LabelledDict.C62_lookup_partial",
    "Verif.LabelledDict.C62_lookup_fails",
    "Verif.LabelledDict.C62_query"
   ],
   "note": "Plain keys only; keys containing '==' are parsed as queries, witness in the _fails theorem."
  },
  {
   "property": "C63",
   "status": "partial",
   "theorems": [
    "Verif.Utils.C63_ragged_sound_partial",
    "Verif.Utils.C63_two_levels_partial",
    "Verif.Utils.C63_is_ragged_fails",
    "Verif.Utils.C63_shape"
   ],
   "note": "True answers of is_ragged are correct and it is exact for two levels; deeper raggedness is missed (witness). Shape as stated for arrays without an empty dimension before the last."
  },
  {
   "property": "C64",
   "status": "partial",
   "theorems": [
    "Verif.Utils.C64_forward_partial",
    "Verif.Utils.C64_forward_none_fails"
   ],
   "note": "Proved for values other than None without allow_extra; an explicit None is replaced by the default (witness)."
  },
  {
   "property": "C65",
   "status": "partial",
   "theorems": [
    "Verif.GenericChunks.C65_default_buffer",
    "Verif.GenericChunks.C65_loop_terminates",
    "Verif.GenericChunks.C65_default_chunk_partial",
    "Verif.GenericChunks.C65_default_chunk_fails"
   ],
   "note": "Loop termination and default buffer proved for all inputs; default chunk shape for scale factor >= 1; scale factor 0 (item larger than the chunk limit) yields an empty chunk shape (witness). The floating-point scale factor itself is a parameter of the model."
  },
  {
   "property": "C66",
   "status": "proved",
   "theorems": [
    "Verif.ChunkStream.C66_fits",
    "Verif.ChunkStream.C66_minimal"
   ],
   "note": ""
  },
  {
   "property": "C67",
   "status": "partial",
   "theorems": [
    "Verif.Ragged.C67_rows_exist",
    "Verif.Ragged.C67_slice",
    "Verif.Ragged.C67_list_partial",
    "Verif.Ragged.C67_mask_partial",
    "Verif.Ragged.C67_negative_partial",
    "Verif.Ragged.C67_first_from_end_fails"
   ],
   "note": "Slices in full; lists and masks if non-empty; row -n and empty lists raise IndexError (witness)."
  },
  {
   "property": "C68",
   "status": "proved",
   "theorems": [
    "Verif.Table.C68_unique_ids",
    "Verif.Table.C68_auto_ids",
    "Verif.Table.C68_mixed_ids_fails"
   ],
   "note": "Both parts proved; mixing automatic and explicit ids without enforce_unique_id can repeat an id (witness). The _fails witness goes beyond the statement."
  },
  {
   "property": "C69",
   "status": "proved",
   "theorems": [
    "Verif.Docval.C69_accepted_enum",
    "Verif.Docval.C69_all_ok_accepted"
   ],
   "note": ""
  },
  {
   "property": "C70",
   "status": "proved",
   "theorems": [
    "Verif.Region.C70_create_region"
   ],
   "note": ""
  },
  {
   "property": "C71",
   "status": "proved",
   "theorems": [
    "Verif.Tree.C71_ancestors",
    "Verif.Tree.C71_returns",
    "Verif.Tree.C71_nearest"
   ],
   "note": "As stated; termination for trees built without errors, no unresolved proxies."
  },
  {
   "property": "C73",
   "status": "proved",
   "theorems": [
    "Verif.Builders.C73_source_propagates",
    "Verif.Builders.C73_source_returns",
    "Verif.Builders.C73_explicit_parent_fails"
   ],
   "note": "As stated; a builder created with an explicit parent is not reached when added later (witness). The _fails witness goes beyond the statement."
  },
  {
   "property": "C74",
   "status": "partial",
   "theorems": [
    "Verif.Once.C74_children_adopted",
    "Verif.Once.C74_required_name",
    "Verif.Once.C74_rejected_fails"
   ],
   "note": "Adoption and names as stated; a rejected assignment may leave the value stored (witness)."
  },
  {
   "property": "C75",
   "status": "partial",
   "theorems": [
    "Verif.Herd.C75_from_zip_partial",
    "Verif.Herd.C75_from_zip_accepts",
    "Verif.Herd.C75_negative_index_fails"
   ],
   "note": "No lower bound is checked: negative indices are accepted (witness)."
  },
  {
   "property": "C76",
   "status": "partial",
   "theorems": [
    "Verif.Herd.C76_flat",
    "Verif.Herd.C76_empty_fails"
   ],
   "note": "As stated; a HERD without references raises ValueError instead of giving an empty table (witness)."
  },
  {
   "property": "C77",
   "status": "partial",
   "theorems": [
    "Verif.Herd.C77_key_found_partial",
    "Verif.Herd.C77_key_sound",
    "Verif.Herd.C77_all",
    "Verif.Herd.C77_unknown_object_fails",
    "Verif.Herd.C77_two_keys_fails"
   ],
   "note": "String keys; with two keys of one name on an object get_key returns the other one, and an unknown object gives AttributeError (witnesses)."
  },
  {
   "property": "C78",
   "status": "partial",
   "theorems": [
    "Verif.Aligned.C78_add_row",
    "Verif.Aligned.C78_accepts",
    "Verif.Aligned.C78_read_back",
    "Verif.Aligned.C78_row",
    "Verif.Aligned.C78_add_column",
    "Verif.Aligned.C78_add_category",
    "Verif.Aligned.C78_name_clash_fails",
    "Verif.Aligned.C78_id_in_data_fails"
   ],
   "note": "As stated; a main column named like a category makes the table unextendable, and an id inside the data dict is dropped (witnesses)."
  },
  {
   "property": "C79",
   "status": "partial",
   "theorems": [
    "Verif.Arrays.C79_ne_partial",
    "Verif.Arrays.C79_range_partial",
    "Verif.Arrays.C79_list_partial",
    "Verif.Arrays.C79_list_fails",
    "Verif.Arrays.C79_range_fails"
   ],
   "note": "Each query is proved exact under the condition that excludes the failing cases shown in C79_list_fails / C79_range_fails."
  },
  {
   "property": "C80",
   "status": "partial",
   "theorems": [
    "Verif.Vtypes.C80_synonyms_partial",
    "Verif.Vtypes.C80_fails"
   ],
   "note": "Holds for all names but those of dates (C80_fails)."
  },
  {
   "property": "C81",
   "status": "partial",
   "theorems": [
    "Verif.Vmatch.C81_sound",
    "Verif.Vmatch.C81_complete_partial",
    "Verif.Vmatch.C81_fails"
   ],
   "note": "Soundness in full; completeness when every child fits at most one sub-spec; refuted in general (C81_fails)."
  },
  {
   "property": "C82",
   "status": "partial",
   "theorems": [
    "Verif.Terms.C82_validate_partial",
    "Verif.Terms.C82_fails"
   ],
   "note": "Holds when each term has a meaning with a declared prefix (C82_fails otherwise)."
  },
  {
   "property": "C83",
   "status": "proved",
   "theorems": [
    "Verif.Manager.C83_once"
   ],
   "note": "Mapper internals abstracted to event lists. Modified containers are C105."
  },
  {
   "property": "C84",
   "status": "proved",
   "theorems": [
    "Verif.Manager.C84_targets"
   ],
   "note": "All mapper behaviours and histories; mapper internals abstracted to event lists."
  },
  {
   "property": "C85",
   "status": "partial",
   "theorems": [
    "Verif.Spec.C85_override_partial",
    "Verif.Spec.C85_dtype_fails"
   ],
   "note": "Attributes and compound columns are kept; negation shown for dtype, which is dropped when not repeated and may be replaced by an unrelated one."
  },
  {
   "property": "C86",
   "status": "partial",
   "theorems": [
    "Verif.Convert.C86_silent_keeps_dtypes",
    "Verif.Convert.C86_silent_array_untouched",
    "Verif.Convert.C86_values_kept_fails",
    "Verif.Convert.C86_values_kept_partial"
   ],
   "note": "Silent conversions proved lossless; value-keeping fails for signed to unsigned of the same width (witness), proved for equal kinds, unsigned into wider signed, and bool."
  },
  {
   "property": "C87",
   "status": "partial",
   "theorems": [
    "Verif.Convert.C87_ascii_is_ascii",
    "Verif.Convert.C87_ascii_injective_fails",
    "Verif.Convert.C87_ascii_faithful_partial",
    "Verif.Convert.C87_number_refused",
    "Verif.Convert.C87_number_array_refused_fails"
   ],
   "note": "ASCII output and faithfulness on ASCII strings proved; backslash escapes collide with literal backslashes (witness); numbers are refused in lists but arrays of numbers are stringified (witness)."
  },
  {
   "property": "C88",
   "status": "partial",
   "theorems": [
    "Verif.Convert.C88_open_dtype_untouched",
    "Verif.Convert.C88_numeric_refuses_fails",
    "Verif.Convert.C88_numeric_refuses_partial"
   ],
   "note": "Value untouched proved; 'numeric' looks at the first element only (witness), proved when all pieces share one dtype."
  },
  {
   "property": "C89",
   "status": "proved",
   "theorems": [
    "Verif.Namespace.C89_reload",
    "Verif.Namespace.C89_not_replaced"
   ],
   "note": "Proved."
  },
  {
   "property": "C90",
   "status": "partial",
   "theorems": [
    "Verif.Namespace.C90_closure",
    "Verif.Namespace.C90_order",
    "Verif.Namespace.C90_cycle_refused",
    "Verif.Namespace.C90_include_loaded_fails"
   ],
   "note": "Closure, order and contents proved; a namespace with a type that may contain itself cannot be included (witness; and for every cyclic dependency at every recursion depth)."
  },
  {
   "property": "C91",
   "status": "partial",
   "theorems": [
    "Verif.Namespace.C91_report_complete_fails",
    "Verif.Namespace.C91_report_partial"
   ],
   "note": "Fails when a namespace is listed twice (witness); the last entry for each namespace is proved to be reported exactly."
  },
  {
   "property": "C92",
   "status": "proved",
   "theorems": [
    "Verif.Namespace.C92_reachable",
    "Verif.Namespace.C92_types",
    "Verif.Namespace.C92_file_specs"
   ],
   "note": "Proved."
  },
  {
   "property": "C93",
   "status": "partial",
   "theorems": [
    "Verif.Namespace.C93_partial_file_fails",
    "Verif.Namespace.C93_filter_partial"
   ],
   "note": "Fails: TypeError as soon as a type is left out (witness); proved that a successful request never leaves anything out."
  },
  {
   "property": "C94",
   "status": "partial",
   "theorems": [
    "Verif.Namespace.C94_same_file_name_fails",
    "Verif.Namespace.C94_independent_partial"
   ],
   "note": "Fails for files of the same name in different directories (witness); otherwise independence proved."
  },
  {
   "property": "C95",
   "status": "partial",
   "theorems": [
    "Verif.Namespace.C95_merge_atomic_fails",
    "Verif.Namespace.C95_merge_partial"
   ],
   "note": "Not atomic (witness); disjoint merges proved complete."
  },
  {
   "property": "C96",
   "status": "partial",
   "theorems": [
    "Verif.TypeMap.C96_attr_last",
    "Verif.TypeMap.C96_attr_fails",
    "Verif.TypeMap.C96_attr_agrees_partial"
   ],
   "note": "The attributes are those of the last registration (C96_attr_last), the written type that of the first: they disagree after a namespace including the type is loaded (C96_attr_fails) and agree for classes registered for a single type."
  },
  {
   "property": "C97",
   "status": "proved",
   "theorems": [
    "Verif.TypeMap.C97_same_class_again",
    "Verif.TypeMap.C97_generated",
    "Verif.TypeMap.C97_keeps"
   ],
   "note": ""
  },
  {
   "property": "C98",
   "status": "partial",
   "theorems": [
    "Verif.TypeMap.C98_total_partial",
    "Verif.TypeMap.C98_cycle",
    "Verif.TypeMap.C98_total_fails"
   ],
   "note": "Fails for types that depend on themselves, e.g. through a reference attribute: every call raises whatever the recursion limit (C98_cycle, C98_total_fails). Proved for well-founded dependencies."
  },
  {
   "property": "C99",
   "status": "partial",
   "theorems": [
    "Verif.TypeMap.C99_linked",
    "Verif.TypeMap.C99_linked_rev",
    "Verif.TypeMap.C99_late_registration_fails"
   ],
   "note": "Proved while nothing is registered explicitly for either name; a later registration for the source alone splits the type into two classes (C99_late_registration_fails)."
  },
  {
   "property": "C100",
   "status": "partial",
   "theorems": [
    "Verif.TypeMap.C100_first",
    "Verif.TypeMap.C100_default",
    "Verif.TypeMap.C100_cached",
    "Verif.TypeMap.C100_late_map_fails",
    "Verif.TypeMap.C100_two_types_fails"
   ],
   "note": "First requests and caching proved; the cache makes later register_map calls ineffective and gives a class registered for two types a single specification (the _fails theorems)."
  },
  {
   "property": "C101",
   "status": "partial",
   "theorems": [
    "Verif.TypeMap.C101_same_classes",
    "Verif.TypeMap.C101_same_types_partial",
    "Verif.TypeMap.C101_same_types_fails",
    "Verif.TypeMap.C101_copy_ok_partial",
    "Verif.TypeMap.C101_copy_fails"
   ],
   "note": "Class lookup proved equal for every successful copy. The copy can raise (C101_copy_fails) and can write a class registered twice as another type (C101_same_types_fails); conditions under which neither happens are proved."
  },
  {
   "property": "C102",
   "status": "partial",
   "theorems": [
    "Verif.TypeMap.C102_roundtrip_partial",
    "Verif.TypeMap.C102_roundtrip_fails"
   ],
   "note": "Proved as long as nothing else is registered for the type; otherwise the object comes back as another class (C102_roundtrip_fails)."
  },
  {
   "property": "C103",
   "status": "partial",
   "theorems": [
    "Verif.TypeMap.C103_lists_classes",
    "Verif.TypeMap.C103_only_classes_fails"
   ],
   "note": "All classes are listed; TypeSource placeholders are listed too (C103_only_classes_fails)."
  },
  {
   "property": "C104",
   "status": "partial",
   "theorems": [
    "Verif.Manager.C104_retry_partial",
    "Verif.Manager.C104_leftover_fails",
    "Verif.Manager.C104_lost_fails"
   ],
   "note": "Proved: the failed container is not cached and the tables stay consistent. Negation shown for queued references, which are left behind or lost."
  },
  {
   "property": "C105",
   "status": "partial",
   "theorems": [
    "Verif.Manager.C105_modified_fails"
   ],
   "note": "Negation shown: a modified container with an old builder is built anew each time it is met."
  },
  {
   "property": "C106",
   "status": "partial",
   "theorems": [
    "Verif.Validate.C106_sound",
    "Verif.Validate.C106_complete_partial",
    "Verif.Validate.C106_exact_partial",
    "Verif.Validate.C106_complete_fails"
   ],
   "note": "Soundness without hypotheses (no error at any depth implies conformance, by induction on the depth); completeness and exactness where on the way down every child fits at most one sub-spec, quantities have a meaning, shapes are not empty and types are known. Completeness fails where sub-specs overlap (C106_complete_fails): the matching depends on the order of the children. The dtype of data is that of its first element (C110)."
  },
  {
   "property": "C107",
   "status": "proved",
   "theorems": [
    "Verif.Validate.C107_distinct",
    "Verif.Validate.C107_included",
    "Verif.Validate.C107_located"
   ],
   "note": "No duplicates, inclusion of the errors of all children for all specs that apply, and location of every error, for all specs and builders."
  },
  {
   "property": "C108",
   "status": "partial",
   "theorems": [
    "Verif.Validate.C108_terminates",
    "Verif.Validate.C108_cycle_fails",
    "Verif.Validate.C108_raises_fails"
   ],
   "note": "No RecursionError if the builders do not link in cycles (any specs). Violated otherwise: a link cycle exhausts any stack; kind mismatch TypeError, unknown type ValueError, attribute spec without dtype TypeError, empty compound dataset IndexError, empty shape IndexError, simple data for compound dtype ValueError."
  },
  {
   "property": "C109",
   "status": "partial",
   "theorems": [
    "Verif.Validate.C109_representation_partial",
    "Verif.Validate.C109_fails"
   ],
   "note": "Proved for arrays of numbers of any number of dimensions, none empty, among nested lists, numpy arrays and fixed-size datasets. Violated for datasets that can grow (maxshape None against a fixed dimension), for ReferenceBuilder values of reference attributes and for lists of references (a reference is a dict of length 1)."
  },
  {
   "property": "C110",
   "status": "partial",
   "theorems": [
    "Verif.Validate.C110_value_fails",
    "Verif.Validate.C110_elements_fails"
   ],
   "note": "Violated: the fixed value is never looked at, and only the first element of a list is."
  },
  {
   "property": "C72",
   "status": "partial",
   "theorems": [
    "Verif.Multi.C72_get",
    "Verif.Multi.C72_get_only",
    "Verif.Multi.C72_add",
    "Verif.Multi.C72_create",
    "Verif.Multi.C72_rejected",
    "Verif.Multi.C72_remove",
    "Verif.Multi.C72_detach_partial",
    "Verif.Multi.C72_detach_fails",
    "Verif.Multi.C72_clear"
   ],
   "note": "proved except for detachment by del with a key containing \"==\", where another object may lose its parent (C72_detach_fails)"
  },
  {
   "property": "C111",
   "status": "partial",
   "theorems": [
    "Verif.Multi.C111_owned_partial",
    "Verif.Multi.C111_owned_excl_partial",
    "Verif.Multi.C111_shared_fails"
   ],
   "note": "proved for histories without removals, and with removals as long as no object is shared; fails for shared objects and after reset_parent"
  },
  {
   "property": "C112",
   "status": "partial",
   "theorems": [
    "Verif.Multi.C112_rejected_fails",
    "Verif.Multi.C112_rejected_partial"
   ],
   "note": "fails: the parent is set before the name is checked, and lists are added one by one; proved: wrong type leaves no trace, and the dictionaries are unchanged for a rejected single object"
  },
  {
   "property": "C113",
   "status": "partial",
   "theorems": [
    "Verif.Multi.C113_types_partial",
    "Verif.Multi.C113_list_fails"
   ],
   "note": "proved when lists and dicts are given with objects of the right types; the elements are not checked (C113_list_fails)"
  },
  {
   "property": "C114",
   "status": "partial",
   "theorems": [
    "Verif.Multi.C114_assign_partial",
    "Verif.Multi.C114_replace_fails"
   ],
   "note": "assignment adds; proved that the result is the union"
  },
  {
   "property": "C115",
   "status": "partial",
   "theorems": [
    "Verif.Mapper.C115_roundtrip_partial",
    "Verif.Mapper.C115_readable_partial",
    "Verif.Mapper.C115_empty_list_fails",
    "Verif.Mapper.C115_dataset_attribute_fails",
    "Verif.Mapper.C115_converted_fails",
    "Verif.Mapper.C115_fixed_value_fails"
   ],
   "note": "Proved for containers that meet `FaithfulEnv` (distinct names and attributes, canonical values, every attribute in the specification). Refuted without: empty collections, attributes of an empty dataset, converted and fixed values."
  },
  {
   "property": "C116",
   "status": "proved",
   "theorems": [
    "Verif.Mapper.C116_identity",
    "Verif.Mapper.C116_injective"
   ],
   "note": ""
  },
  {
   "property": "C117",
   "status": "partial",
   "theorems": [
    "Verif.Mapper.C117_fixed_partial",
    "Verif.Mapper.C117_data_partial",
    "Verif.Mapper.C117_reference_partial",
    "Verif.Mapper.C117_default_partial",
    "Verif.Mapper.C117_added_attribute_fails"
   ],
   "note": "Proved for the attributes of the type itself, with distinct names other than the reserved ones. Refuted for attributes added where a type is included: the value the container holds is ignored."
  },
  {
   "property": "C118",
   "status": "partial",
   "theorems": [
    "Verif.Mapper.C118_written_iff_partial",
    "Verif.Mapper.C118_name_clash_fails"
   ],
   "note": "Proved for containers that meet `SaneEnv` (names of the items of a group distinct, no member of one specification matched by another). Fails when a child has the name of the group (C118_name_clash_fails): then the child counts as the group and its contents are written into it."
  },
  {
   "property": "C119",
   "status": "proved",
   "theorems": [
    "Verif.Mapper.C119_admitted",
    "Verif.Mapper.C119_children"
   ],
   "note": ""
  },
  {
   "property": "C120",
   "status": "partial",
   "theorems": [
    "Verif.Mapper.C120_warns_iff_partial",
    "Verif.Mapper.C120_zero_fails"
   ],
   "note": "Proved for all quantities except 0, for which the build warns that nothing is there."
  },
  {
   "property": "C121",
   "status": "partial",
   "theorems": [
    "Verif.Mapper.C121_absent_link_partial",
    "Verif.Mapper.C121_absent_link_fails"
   ],
   "note": "Refuted: if another link leads to the same target type, its target is read for the absent link. Proved when no other link in the group leads to that type."
  },
  {
   "property": "C122",
   "status": "partial",
   "theorems": [
    "Verif.Mapper.C122_order_partial",
    "Verif.Mapper.C122_order_fails"
   ],
   "note": "Refuted: own containers come before linked ones. Proved: the order within both parts, and nothing lost."
  },
  {
   "property": "C123",
   "status": "partial",
   "theorems": [
    "Verif.Mapper.C123_named_partial",
    "Verif.Mapper.C123_named_child_fails"
   ],
   "note": "Refuted for a child with a name different from the specification: it is written and not found. Proved when the names agree."
  },
  {
   "property": "C124",
   "status": "partial",
   "theorems": [
    "Verif.Mapper.C124_members_partial",
    "Verif.Mapper.C124_members_fails"
   ],
   "note": "Refuted: members of a specification for a subtype are read for the base type as well. Proved when the specifications do not overlap."
  },
  {
   "property": "C125",
   "status": "partial",
   "theorems": [
    "Verif.H5Read.C125_success_no_chain",
    "Verif.H5Read.C125_no_chain_ends",
    "Verif.H5Read.C125_limit_irrelevant",
    "Verif.H5Read.C125_total_partial",
    "Verif.H5Read.C125_self_reference_fails",
    "Verif.H5Read.C125_name_clash_fails",
    "Verif.H5Read.C125_group_reference_fails"
   ],
   "note": "Fails for a table with a region column for its own rows (C125_self_reference_fails: recursion error at every limit), for a group with an attribute and a member of one name, and for a scalar dataset that refers to a group. Proved: success excludes endless chains, no endless chain means no recursion error from some limit on, independence of the limit, and total correctness for the remaining files."
  },
  {
   "property": "C126",
   "status": "partial",
   "theorems": [
    "Verif.H5Read.C126_attribute_partial",
    "Verif.H5Read.C126_member_partial",
    "Verif.H5Read.C126_distinct",
    "Verif.H5Read.C126_scalar_reference_fails"
   ],
   "note": "Fails for scalar datasets that are references: the goal is read again (C126_scalar_reference_fails). Proved for members, links and reference attributes."
  },
  {
   "property": "C127",
   "status": "partial",
   "theorems": [
    "Verif.H5Read.C127_attributes",
    "Verif.H5Read.C127_groups",
    "Verif.H5Read.C127_datasets",
    "Verif.H5Read.C127_links_partial",
    "Verif.H5Read.C127_data",
    "Verif.H5Read.C127_link_lost_fails"
   ],
   "note": "Fails for two links in one group whose goals have the same name: one is silently lost (C127_link_lost_fails). Proved as equivalences for attributes, groups, datasets and data, and for links with goals of distinct names."
  },
  {
   "property": "C128",
   "status": "partial",
   "theorems": [
    "Verif.H5Read.C128_lookup_partial",
    "Verif.H5Read.C128_root_fails"
   ],
   "note": "Fails for the root, which is never entered into the cache (C128_root_fails). Proved for everything else as an equivalence."
  },
  {
   "property": "C129",
   "status": "partial",
   "theorems": [
    "Verif.H5Write.C129_new_file_partial",
    "Verif.H5Write.C129_all_or_nothing_fails"
   ],
   "note": "Fails in that a failed write leaves part of the tree in the file (C129_all_or_nothing_fails). The rest is proved for any number of builders, references and links."
  },
  {
   "property": "C130",
   "status": "partial",
   "theorems": [
    "Verif.H5Write.C130_success_iff",
    "Verif.H5Write.C130_none_dangling",
    "Verif.H5Write.C130_leads_to_target_partial",
    "Verif.H5Write.C130_orphan_fails",
    "Verif.H5Write.C130_other_file_fails"
   ],
   "note": "Fails for a builder without a parent, which is taken for the root (C130_orphan_fails), and for a builder of another file, which is taken for what is at its path in this file (C130_other_file_fails). Proved: success if and only if every path is in the tree, nothing dangles after success, and references to builders of the tree that know their place lead to them."
  },
  {
   "property": "C131",
   "status": "partial",
   "theorems": [
    "Verif.H5Write.C131_nothing_lost_partial",
    "Verif.H5Write.C131_references_fails"
   ],
   "note": "Fails for a new dataset of references, which overwrites a dataset of the same name (C131_references_fails). Proved for any tree, state and outcome as a frame property that names exactly what may change."
  },
  {
   "property": "C132",
   "status": "partial",
   "theorems": [
    "Verif.H5Write.C132_append_partial",
    "Verif.H5Write.C132_dataset_attributes_fails"
   ],
   "note": "Fails for attributes that are added to a dataset which was written before (C132_dataset_attributes_fails). The rest is proved."
  },
  {
   "property": "C133",
   "status": "partial",
   "theorems": [
    "Verif.H5Write.C133_again",
    "Verif.H5Write.C133_retry_fails"
   ],
   "note": "Idempotence is proved. Completing a failed write fails: the dataset of references stays empty (C133_retry_fails)."
  },
  {
   "property": "C134",
   "status": "partial",
   "theorems": [
    "Verif.H5Write.C134_links_partial",
    "Verif.H5Write.C134_unknown_source",
    "Verif.H5Write.C134_dangling_fails"
   ],
   "note": "Fails for a target that is not in the file and for one without a parent (C134_dangling_fails). The kind of link and the error for an unknown source are proved."
  },
  {
   "property": "C135",
   "status": "partial",
   "theorems": [
    "Verif.H5RoundTrip.C135_round_trip_partial",
    "Verif.H5RoundTrip.C135_readable_partial",
    "Verif.H5RoundTrip.C135_self_reference_fails",
    "Verif.H5RoundTrip.C135_group_reference_fails",
    "Verif.H5RoundTrip.C135_link_lost_fails"
   ],
   "note": "Fails for something that refers to a group that holds it (C135_self_reference_fails), for a scalar dataset that refers to a group (C135_group_reference_fails) and for two links in one group to builders of the same name (C135_link_lost_fails). Otherwise proved: the file can be read, and every builder comes back with exactly its content. Links to other files are left out."
  },
  {
   "property": "C136",
   "status": "proved",
   "theorems": [
    "Verif.SpecCache.C136_once",
    "Verif.SpecCache.C136_before",
    "Verif.SpecCache.C136_before_all"
   ],
   "note": "Proved: the order is a permutation of the namespaces, and a namespace comes after what it includes unless that depends on it."
  },
  {
   "property": "C137",
   "status": "partial",
   "theorems": [
    "Verif.SpecCache.C137_latest_fails",
    "Verif.SpecCache.C137_empty_group_fails",
    "Verif.SpecCache.C137_version_partial",
    "Verif.SpecCache.C137_answer_partial",
    "Verif.SpecCache.C137_written_version_fails",
    "Verif.SpecCache.C137_written_partial"
   ],
   "note": "Fails: 9.0.0 is taken for later than 10.0.0, also if the file was just written with 10.0.0; one namespace group without versions hides all. Proved: the version used is in the file, alphabetically the greatest, and not a placeholder if there is another; the written version is used if it is alphabetically the greatest."
  },
  {
   "property": "C138",
   "status": "partial",
   "theorems": [
    "Verif.SpecCache.C138_kept",
    "Verif.SpecCache.C138_cached_partial",
    "Verif.SpecCache.C138_idempotent",
    "Verif.SpecCache.C138_changed_fails",
    "Verif.SpecCache.C138_broken_off_fails"
   ],
   "note": "Fails: a namespace changed without a new version is not cached; after a write that broke off the namespace is never cached. Proved: nothing is overwritten, complete otherwise, idempotent."
  },
  {
   "property": "C139",
   "status": "partial",
   "theorems": [
    "Verif.SpecCache.C139_not_replaced",
    "Verif.SpecCache.C139_loaded",
    "Verif.SpecCache.C139_included_first",
    "Verif.SpecCache.C139_circle_fails"
   ],
   "note": "Fails: namespaces that include each other cannot be loaded. Proved: complete, in the reported versions, nothing replaced, and no failure for want of an included namespace."
  },
  {
   "property": "C140",
   "status": "partial",
   "theorems": [
    "Verif.SpecCopy.C140_round_trip_partial",
    "Verif.SpecCopy.C140_many_fails",
    "Verif.SpecCopy.C140_link_fails",
    "Verif.SpecCopy.C140_attribute_fails",
    "Verif.SpecCopy.C140_target_fails",
    "Verif.SpecCopy.C140_self_fails"
   ],
   "note": "Fails: an unnamed spec with quantity * or +, or an unnamed link, which the type defines again is lost and the parent's is read; an attribute with the name of an inherited dataset, group, link or type is lost; a new unnamed link is lost if the parent has an unnamed spec of the type; an attribute is lost if the type is named like an inherited group that has such an attribute. Proved for all other types, with sub-specs compared by what build_spec makes of them; the order of the specs is not claimed; type definitions nested in a type are not modelled."
  },
  {
   "property": "C141",
   "status": "partial",
   "theorems": [
    "Verif.SpecCopy.C141_own_partial",
    "Verif.SpecCopy.C141_typed_fails"
   ],
   "note": "Fails: an inherited unnamed spec that occurs at most once is copied too. Proved for attributes and named specs, under the conditions of C140."
  },
  {
   "property": "C142",
   "status": "partial",
   "theorems": [
    "Verif.SpecCopy.C142_keys_partial",
    "Verif.SpecCopy.C142_value_fails"
   ],
   "note": "Fails: value and default_value of a dataset type are not copied. Proved for the other keys."
  },
  {
   "property": "C143",
   "status": "proved",
   "theorems": [
    "Verif.SpecCopy.C143_attributes",
    "Verif.SpecCopy.C143_own"
   ],
   "note": "Proved: the same attributes after copying and resolving again, and only the own ones are copied."
  },
  {
   "property": "C144",
   "status": "partial",
   "theorems": [
    "Verif.Names.C144_letters",
    "Verif.Names.C144_words",
    "Verif.Names.C144_plain",
    "Verif.Names.C144_injective_fails",
    "Verif.Names.C144_underscores_fails"
   ],
   "note": "Proved: letters kept, words joined, plural. Fails: the names are not injective (TimeSeries and time_series; many Unit and many Units), and Time_Series becomes time__series. ASCII names only."
  },
  {
   "property": "C145",
   "status": "partial",
   "theorems": [
    "Verif.Names.C145_keys",
    "Verif.Names.C145_value",
    "Verif.Names.C145_complete_partial",
    "Verif.Names.C145_complete_fails"
   ],
   "note": "Proved: the names are exactly those of the paths and each value is at such a path. Fails: of two specs with the same name (attribute and dataset, unnamed groups and links of one type, a__b and b in a) the earlier one gets no name and is mapped to no attribute. Complete when the names differ."
  },
  {
   "property": "C146",
   "status": "partial",
   "theorems": [
    "Verif.Names.C146_distinct",
    "Verif.Names.C146_types",
    "Verif.Names.C146_underscores_fails"
   ],
   "note": "Proved for names that do not end with an underscore or have two in a row, which holds for types in camel case; fails without this."
  },
  {
   "property": "C147",
   "status": "partial",
   "theorems": [
    "Verif.Names.C147_names",
    "Verif.Names.C147_inverse",
    "Verif.Names.C147_complete_partial",
    "Verif.Names.C147_shared_fails"
   ],
   "note": "Proved when each spec object occurs once; complete under the conditions of C146. Fails for a spec object shared by two places."
  },
  {
   "property": "C148",
   "status": "partial",
   "theorems": [
    "Verif.Names.C148_last",
    "Verif.Names.C148_spec",
    "Verif.Names.C148_carg_spec",
    "Verif.Names.C148_inverse_partial",
    "Verif.Names.C148_unmap_fails",
    "Verif.Names.C148_taken_fails"
   ],
   "note": "Proved: the last call decides, in both directions. Fails: unmap and mapping to another name leave get_attr_spec and get_carg_spec of the old name; two specs can have the same attribute. The directions agree for calls that use names no other spec has."
  },
  {
   "property": "C149",
   "status": "partial",
   "theorems": [
    "Verif.Names.C149_derived",
    "Verif.Names.C149_override_fails",
    "Verif.Names.C149_bases_fails"
   ],
   "note": "Proved for single inheritance. Fails: overriding without the decorator has no effect; of several bases only the first one's functions are used."
  },
  {
   "property": "C150",
   "status": "partial",
   "theorems": [
    "Verif.TableInit.C150_rows_partial",
    "Verif.TableInit.C150_accepts",
    "Verif.TableInit.C150_iterator_fails",
    "Verif.TableInit.C150_same_name_fails",
    "Verif.TableInit.C150_ragged_enum_fails"
   ],
   "note": "Proved for columns whose indices and elements are among them, unless an index leads to an EnumData or to its elements. Fails: an EnumData with an index, listed before it, loses the index and has more rows than ids; data given as an iterator are rejected if listed before their index; the target of an index is compared by name only."
  },
  {
   "property": "C151",
   "status": "proved",
   "theorems": [
    "Verif.TableInit.C151_given",
    "Verif.TableInit.C151_numbered",
    "Verif.TableInit.C151_mismatch"
   ],
   "note": "Proved in full."
  },
  {
   "property": "C152",
   "status": "partial",
   "theorems": [
    "Verif.TableInit.C152_colnames_partial",
    "Verif.TableInit.C152_elements_fails"
   ],
   "note": "Proved for columns that belong together. Fails: elements of an EnumData that are not listed are added only if colnames is given."
  },
  {
   "property": "C153",
   "status": "partial",
   "theorems": [
    "Verif.TableInit.C153_order_partial",
    "Verif.TableInit.C153_complete_partial",
    "Verif.TableInit.C153_indices_first",
    "Verif.TableInit.C153_unnamed_fails",
    "Verif.TableInit.C153_ragged_enum_fails"
   ],
   "note": "Proved if no column is an iterator and no index leads to an EnumData. Fails: a column that colnames does not name is dropped silently; with an index on an EnumData the order decides whether the index or the elements are lost."
  },
  {
   "property": "C154",
   "status": "partial",
   "theorems": [
    "Verif.TableInit.C154_column",
    "Verif.TableInit.C154_index_partial",
    "Verif.TableInit.C154_attribute",
    "Verif.TableInit.C154_absent",
    "Verif.TableInit.C154_inner_index_fails"
   ],
   "note": "Proved for columns, attributes, absent names and outermost indices. Fails: the name of an inner index gives the outermost index."
  },
  {
   "property": "C155",
   "status": "partial",
   "theorems": [
    "Verif.TableInit.C155_copy_partial",
    "Verif.TableInit.C155_shared_fails"
   ],
   "note": "Proved if no data are iterators and no elements are shared or named in colnames. Fails: with elements shared by two EnumData, the table cannot be copied."
  },
  {
   "property": "C156",
   "status": "partial",
   "theorems": [
    "Verif.Hier.C156_links_partial",
    "Verif.Hier.C156_no_table_fails",
    "Verif.Hier.C156_aligned_fails",
    "Verif.Hier.C156_has_foreign"
   ],
   "note": "Proved if every region column has a table and other_tables are distinct; the steps allowed to the search are at least the number of tables. Fails: a region column whose table is not set gives an AttributeError; the category tables of an AlignedDynamicTable that is reached through a column are not searched."
  },
  {
   "property": "C157",
   "status": "partial",
   "theorems": [
    "Verif.Hier.C157_rows_partial",
    "Verif.Hier.C157_count_partial",
    "Verif.Hier.C157_dropped_fails",
    "Verif.Hier.C157_empty_middle_fails",
    "Verif.Hier.C157_same_id_fails",
    "Verif.Hier.C157_nested_index_fails"
   ],
   "note": "Proved if references are in range, region columns have at most one index, and in tables between first and last ids are unique and rows that are referred to have references. Fails: rows of the first table without references are dropped silently; those of a middle table give a KeyError; equal ids in a middle table multiply rows; a region column with two indices gives an AttributeError."
  },
  {
   "property": "C158",
   "status": "proved",
   "theorems": [
    "Verif.Hier.C158_width",
    "Verif.Hier.C158_labels"
   ],
   "note": "Proved in full for tables whose rows have a value for each column."
  },
  {
   "property": "C159",
   "status": "partial",
   "theorems": [
    "Verif.Hier.C159_flat",
    "Verif.Hier.C159_drop",
    "Verif.Hier.C159_levels",
    "Verif.Hier.C159_commute",
    "Verif.Hier.C159_ambiguous_fails"
   ],
   "note": "Proved for labels without empty tuples. With max_levels the labels of different columns may become equal (witness)."
  },
  {
   "property": "C160",
   "status": "partial",
   "theorems": [
    "Verif.Hier.C160_cells",
    "Verif.Hier.C160_ragged_partial",
    "Verif.Hier.C160_accepts_partial",
    "Verif.Hier.C160_empty_fails",
    "Verif.Hier.C160_mixed_fails",
    "Verif.Hier.C160_described_fails"
   ],
   "note": "Cells: proved in full. That a column gets an index exactly if lengths differ, and that frames are accepted, is proved for columns that are all lists or all values and have rows. Fails: a frame without rows gives an IndexError; a value after a list gives a TypeError; lists after a value, or in a column described without index, stay lists of lists."
  },
  {
   "property": "C161",
   "status": "partial",
   "theorems": [
    "Verif.ClassGen.C161_nodup",
    "Verif.ClassGen.C161_arguments_partial",
    "Verif.ClassGen.C161_required_partial",
    "Verif.ClassGen.C161_order",
    "Verif.ClassGen.C161_required_fails",
    "Verif.ClassGen.C161_override_fails"
   ],
   "note": "Proved for classes whose fields have distinct names other than the public attributes of Container. Fails: if the definition of the type itself has quantity '?' or '*', all its fields may be left out; a type that fixes the value of an attribute of its base is ignored."
  },
  {
   "property": "C162",
   "status": "partial",
   "theorems": [
    "Verif.ClassGen.C162_fields_partial",
    "Verif.ClassGen.C162_accepts_partial",
    "Verif.ClassGen.C162_checked",
    "Verif.ClassGen.C162_names",
    "Verif.ClassGen.C162_default_fails",
    "Verif.ClassGen.C162_name_fails",
    "Verif.ClassGen.C162_single_fails",
    "Verif.ClassGen.C162_readonly_fails"
   ],
   "note": "Proved for classes whose fields have distinct names other than the public attributes of Container; that calls succeed if defaults suit their fields and, with the generators of hdmf.common, no single container is given for a field of many. Fails: a default that its own argument does not take makes derived classes impossible to construct without it; a fixed name of a derived type is ignored if the base has one; a single container for a field of many is refused with hdmf.common loaded; a field named like a read-only property gives an AttributeError."
  },
  {
   "property": "C163",
   "status": "partial",
   "theorems": [
    "Verif.ClassGen.C163_fields_partial",
    "Verif.ClassGen.C163_mixed_fails"
   ],
   "note": "Proved unless a class adds fields of many containers and others to a class that has only others. Fails there: __fields__ lacks the fields of the base."
  },
  {
   "property": "C164",
   "status": "partial",
   "theorems": [
    "Verif.ClassGen.C164_calls_partial",
    "Verif.ClassGen.C164_none",
    "Verif.ClassGen.C164_once_fails",
    "Verif.ClassGen.C164_skip_fails"
   ],
   "note": "The number of calls and the last call are proved. Fails: it is called once for each generated class of the chain, the first times before the fields of the derived class are set; with fields of many containers skip_post_init is an unknown argument unless the generators of hdmf.common are loaded."
  },
  {
   "property": "C165",
   "status": "partial",
   "theorems": [
    "Verif.ClassGen.C165_taken_partial",
    "Verif.ClassGen.C165_defined_partial",
    "Verif.ClassGen.C165_defined_fails",
    "Verif.ClassGen.C165_precision_fails"
   ],
   "note": "What is taken is characterised for each dtype. Fails: uint, date, object, region and no dtype have no type; int8 to int32 take integers of any size and booleans; int64 and unsigned integers do not take Python integers."
  },
  {
   "property": "C166",
   "status": "proved",
   "theorems": [
    "Verif.FileIO.C166_readonly",
    "Verif.FileIO.C166_kept",
    "Verif.FileIO.C166_create",
    "Verif.FileIO.C166_refused"
   ],
   "note": ""
  },
  {
   "property": "C167",
   "status": "partial",
   "theorems": [
    "Verif.FileIO.C167_read_partial",
    "Verif.FileIO.C167_again",
    "Verif.FileIO.C167_written_partial",
    "Verif.FileIO.C167_stale_fails",
    "Verif.FileIO.C167_closed_fails",
    "Verif.FileIO.C167_reopen_fails"
   ],
   "note": "Proved for file objects that are open and have not read the file before; an object that has read it gives the same again whatever is done. Fails: an object that found a file without values goes on saying so after it was written, even with the same object; read on a closed file gives None without an error; open does not open a file again that was closed, so that read gives None and write fails."
  },
  {
   "property": "C168",
   "status": "partial",
   "theorems": [
    "Verif.FileIO.C168_written_partial",
    "Verif.FileIO.C168_reused_fails"
   ],
   "note": "Proved if no builder that was written is dropped. Fails: a builder made at the address of a dropped one, with the same name, counts as written."
  },
  {
   "property": "C169",
   "status": "partial",
   "theorems": [
    "Verif.FileIO.C169_herd_partial",
    "Verif.FileIO.C169_failed_fails",
    "Verif.FileIO.C169_ignored_fails"
   ],
   "note": "What a write that succeeds does is proved. Fails: if the container cannot be built, the HERD file is replaced all the same; a HERD given without herd_path is ignored."
  },
  {
   "property": "C170",
   "status": "partial",
   "theorems": [
    "Verif.FileIO.C170_source",
    "Verif.FileIO.C170_all_partial",
    "Verif.FileIO.C170_stale_fails",
    "Verif.FileIO.C170_container"
   ],
   "note": "Proved for a source that has not been read before. Fails: the export of a source that was read before and written since writes its old contents."
  },
  {
   "property": "C171",
   "status": "partial",
   "theorems": [
    "Verif.Changes.C171_export_partial",
    "Verif.Changes.C171_unchanged",
    "Verif.Changes.C171_cleared",
    "Verif.Changes.C171_set_fails"
   ],
   "note": "Proved for histories in which a field that is set is in a container that is marked as modified by then, and for managers that are cleared (link_data=False). Fails: an attribute set after reading, or data appended, is not exported, since only children and parents are marked. Links and references are not modelled."
  },
  {
   "property": "C172",
   "status": "partial",
   "theorems": [
    "Verif.DataIO.C172_accepts_partial",
    "Verif.DataIO.C172_settings",
    "Verif.DataIO.C172_later_fails",
    "Verif.DataIO.C172_scalar_fails",
    "Verif.DataIO.C172_dtype_fails",
    "Verif.DataIO.C172_opts_fails"
   ],
   "note": "What is accepted is characterised exactly. Fails against the signature: without data, shape and dtype the constructor raises InvalidDataIOError, so that Data.set_dataio never works with an H5DataIO; shape=() as well; a dtype given as a string is a TypeError; options are accepted without compression."
  },
  {
   "property": "C173",
   "status": "partial",
   "theorems": [
    "Verif.DataIO.C173_remade_partial",
    "Verif.DataIO.C173_plugin_fails"
   ],
   "note": "Proved for filters that need not be loaded. Fails: allow_plugin_filters is not among the parameters, so that a wrapper with a loaded filter cannot be made again: ValueError."
  },
  {
   "property": "C174",
   "status": "partial",
   "theorems": [
    "Verif.DataIO.C174_array",
    "Verif.DataIO.C174_dataset",
    "Verif.DataIO.C174_iterator_partial",
    "Verif.DataIO.C174_empty_partial",
    "Verif.DataIO.C174_empty_twice_fails",
    "Verif.DataIO.C174_dtype_fails",
    "Verif.DataIO.C174_reused_fails"
   ],
   "note": "Proved for arrays, for any number of writes, and for datasets; for iterators and wrappers without data for the first write. Fails: a wrapper without data cannot be written twice; an iterator in a builder without a type is written as float32; the type of the first write is kept."
  },
  {
   "property": "C175",
   "status": "partial",
   "theorems": [
    "Verif.DataIO.C175_copy_partial",
    "Verif.DataIO.C175_settings_fails",
    "Verif.DataIO.C175_empty_fails"
   ],
   "note": "Proved for wrappers without settings around data in memory. Fails: a copy is a DataIO without the settings; a copy of a wrapper without data cannot be written."
  },
  {
   "property": "C176",
   "status": "partial",
   "theorems": [
    "Verif.NsWrite.C176_loaded_partial",
    "Verif.NsWrite.C176_one_source",
    "Verif.NsWrite.C176_export_spec",
    "Verif.NsWrite.C176_sources_fails",
    "Verif.NsWrite.C176_clash_fails",
    "Verif.NsWrite.C176_untyped_fails",
    "Verif.NsWrite.C176_same_source_fails"
   ],
   "note": "Proved if each spec needs only types loaded before it (sources in the order of their first use, datasets before groups), no name is that of an included type, no source has been loaded from another directory, and no types are included from sources. Fails: specs added in a correct order to two sources in turn; a type with the name of an included one; a spec without a type; two namespaces with sources of the same name in different directories. Inherited fields are not modelled here."
  },
  {
   "property": "C177",
   "status": "partial",
   "theorems": [
    "Verif.NsWrite.C177_files",
    "Verif.NsWrite.C177_again",
    "Verif.NsWrite.C177_title_fails",
    "Verif.NsWrite.C177_empty_source_fails",
    "Verif.NsWrite.C177_path_fails",
    "Verif.NsWrite.C177_name_fails",
    "Verif.NsWrite.C177_refused_fails"
   ],
   "note": "What an export that succeeds writes is proved. Fails: the title of a source is replaced by its doc; a source without types is a KeyError after other files have been written; a namespace file with the name of a source replaces it; a bad name is found out after the spec files have been written; a spec refused because of its source stays registered."
  },
  {
   "property": "C178",
   "status": "partial",
   "theorems": [
    "Verif.NsWrite.C178_included_partial",
    "Verif.NsWrite.C178_whole_fails"
   ],
   "note": "Proved if no type of the namespace is asked for by name. Fails: include_type narrows a namespace that was included as a whole, in either order."
  },
  {
   "property": "C179",
   "status": "partial",
   "theorems": [
    "Verif.Rows.C179_accepts",
    "Verif.Rows.C179_refused",
    "Verif.Rows.C179_added",
    "Verif.Rows.C179_kept",
    "Verif.Rows.C179_views_partial",
    "Verif.Rows.C179_unknown_column_fails",
    "Verif.Rows.C179_which_row_fails",
    "Verif.Rows.C179_init_fails",
    "Verif.Rows.C179_not_list_fails"
   ],
   "note": "Proved for classes with different column names and tables constructed with data that fit. Fails: a column that does not exist is a TypeError in t[column, i]; which with a Row object is an AttributeError; data given to the constructor are not checked."
  },
  {
   "property": "C180",
   "status": "partial",
   "theorems": [
    "Verif.Rows.C180_new",
    "Verif.Rows.C180_index",
    "Verif.Rows.C180_same",
    "Verif.Rows.C180_getter_partial",
    "Verif.Rows.C180_equal_partial",
    "Verif.Rows.C180_distinct_partial",
    "Verif.Rows.C180_negative_fails",
    "Verif.Rows.C180_row_column_fails",
    "Verif.Rows.C180_no_table_fails",
    "Verif.Rows.C180_detached_fails"
   ],
   "note": "Construction, index and identity are proved for all calls; that the object has the values of the row is proved if no Row object gets another table or attribute and columns for Row objects take indices. Fails: negative indices; a column for Row objects only; a Row without a table; an explicit index."
  },
  {
   "property": "C181",
   "status": "partial",
   "theorems": [
    "Verif.Rows.C181_accepts_partial",
    "Verif.Rows.C181_values_partial",
    "Verif.Rows.C181_round_partial",
    "Verif.Rows.C181_extra_fails",
    "Verif.Rows.C181_large_fails"
   ],
   "note": "Proved for values that a double holds exactly, and exactly if not all columns are numbers or none has floats. Fails: extra_ok has no effect; integers above 2^53 next to floats are changed. The inference of dtypes by pandas is not modelled."
  },
  {
   "property": "C182",
   "status": "partial",
   "theorems": [
    "Verif.Rows.C182_first_partial",
    "Verif.Rows.C182_first_columns_partial",
    "Verif.Rows.C182_derived_fails"
   ],
   "note": "Fails: only the first class down from Table that has columns can be constructed (proved as an equivalence); the generated __init__ of a class derived from it passes three arguments to one that takes two. Classes with their own __init__ are not modelled."
  },
  {
   "property": "C183",
   "status": "partial",
   "theorems": [
    "Verif.Parents.C183_parent_partial",
    "Verif.Parents.C183_total",
    "Verif.Parents.C183_external_fails",
    "Verif.Parents.C183_same_name_fails",
    "Verif.Parents.C183_renamed_fails",
    "Verif.Parents.C183_other_type_fails"
   ],
   "note": "Proved if containers have the names and types of their builders and no two builders have one location and type. Fails: two containers of one name and type in different groups without type of the same container; a class that gives its containers another name or is registered for another type (the parent stays a proxy, without an error); external links to a container in a file that is not read."
  },
  {
   "property": "C184",
   "status": "partial",
   "theorems": [
    "Verif.Parents.C184_children",
    "Verif.Parents.C184_all_children",
    "Verif.Parents.C184_proxy_partial",
    "Verif.Parents.C184_resolve_fails",
    "Verif.Parents.C184_resolve_partial"
   ],
   "note": "Children are proved always; proxies for faithful names and types and no link to the root of another file. Fails: Proxy.resolve raises a TypeError since it adds itself to a string."
  },
  {
   "property": "C185",
   "status": "partial",
   "theorems": [
    "Verif.RefData.C185_item",
    "Verif.RefData.C185_unread",
    "Verif.RefData.C185_negative",
    "Verif.RefData.C185_slice",
    "Verif.RefData.C185_slice_total",
    "Verif.RefData.C185_list",
    "Verif.RefData.C185_iter",
    "Verif.RefData.C185_inverse",
    "Verif.RefData.C185_two_indices_fails",
    "Verif.RefData.C185_rows_fails",
    "Verif.RefData.C185_row_partial",
    "Verif.RefData.C185_region_partial",
    "Verif.RefData.C185_region_builder_fails",
    "Verif.RefData.C185_region_slice_fails",
    "Verif.RefData.C185_region_iter_fails",
    "Verif.RefData.C185_invert_fails",
    "Verif.RefData.C185_table_partial",
    "Verif.RefData.C185_table_rows"
   ],
   "note": "Indices, slices, lists and iteration are proved for one axis and for compound datasets. Fails: d[i, j] is taken for d[[i, j]]; several rows of a dataset with two axes; slices of region references, iteration over them (whole containers) and builders for them; invert makes a new object each time. The indexing of h5py is modelled along the first axis."
  },
  {
   "property": "C186",
   "status": "partial",
   "theorems": [
    "Verif.RefData.C186_append_partial",
    "Verif.RefData.C186_refused",
    "Verif.RefData.C186_written_fails",
    "Verif.RefData.C186_other_file_fails"
   ],
   "note": "Proved for containers read from this file with this object. Fails: containers that it has written (the item can not be read until the file is opened again); containers of other files (the reference is to what has the same path here)."
  },
  {
   "property": "C187",
   "status": "partial",
   "theorems": [
    "Verif.RefData.C187_order",
    "Verif.RefData.C187_upper_partial",
    "Verif.RefData.C187_eq_partial",
    "Verif.RefData.C187_ne_partial",
    "Verif.RefData.C187_max_fails",
    "Verif.RefData.C187_absent_fails",
    "Verif.RefData.C187_stale_fails"
   ],
   "note": "Proved for < and >=, for <= and > if some element is greater than v, for == if v is there, for != if v occurs once and some element is greater. Fails: at the maximum and above (IndexError); == with a value that is not there gives all elements of a numpy array, != a TypeError; queries keep their first result."
  },
  {
   "property": "C188",
   "status": "partial",
   "theorems": [
    "Verif.Nested.C188_expands",
    "Verif.Nested.C188_determined",
    "Verif.Nested.C188_total_partial",
    "Verif.Nested.C188_self_fails",
    "Verif.Nested.C188_endless",
    "Verif.Nested.C188_empty_cell_fails"
   ],
   "note": "C188_expands and C188_determined hold for all tables with columns of equal length. Fails: tables that refer to themselves end in RecursionError at any depth (C188_endless for all endless chains of references); an empty cell of a ragged region into a table with a ragged column raises IndexError. Data are lists, ragged columns have one level."
  },
  {
   "property": "C189",
   "status": "proved",
   "theorems": [
    "Verif.Nested.C189_row",
    "Verif.Nested.C189_cell",
    "Verif.Nested.C189_region",
    "Verif.Nested.C189_ragged_region"
   ],
   "note": "Proved for all selections that succeed."
  },
  {
   "property": "C190",
   "status": "partial",
   "theorems": [
    "Verif.Nested.C190_same",
    "Verif.Nested.C190_total_partial",
    "Verif.Nested.C190_empty_fails"
   ],
   "note": "Proved whenever both succeed, and that both do for regions with an entry. Fails: an empty region into a table with a ragged column, where region[:] raises IndexError."
  },
  {
   "property": "C191",
   "status": "proved",
   "theorems": [
    "Verif.Nested.C191_numbers",
    "Verif.Nested.C191_total"
   ],
   "note": "Proved for selections of at least one row; of any rows without ragged columns."
  },
  {
   "property": "C192",
   "status": "partial",
   "theorems": [
    "Verif.Share.C192_once",
    "Verif.Share.C192_later_first",
    "Verif.Share.C192_used",
    "Verif.Share.C192_default",
    "Verif.Share.C192_copy",
    "Verif.Share.C192_merge_order",
    "Verif.Share.C192_merge_partial",
    "Verif.Share.C192_merge_forgets",
    "Verif.Share.C192_merge_fails",
    "Verif.Share.C192_self_fails"
   ],
   "note": "Proved for registrations and copies. Fails: after a merge the generators that only the receiving type map had come after CustomClassGenerator, which applies to everything, so they are not used again (C192_merge_forgets for all type maps); merging a type map with itself, which get_type_map(extensions=type_map) does, changes the list while iterating over it and puts MCIClassGenerator after CustomClassGenerator."
  },
  {
   "property": "C193",
   "status": "partial",
   "theorems": [
    "Verif.Share.C193_last_wins_partial",
    "Verif.Share.C193_own_namespace",
    "Verif.Share.C193_own_namespace_fails",
    "Verif.Share.C193_direct"
   ],
   "note": "Proved when it returns. Fails: a type map with a namespace the package does not have raises KeyError (C193_own_namespace for all such type maps), since namespaces are not merged."
  },
  {
   "property": "C194",
   "status": "partial",
   "theorems": [
    "Verif.Share.C194_copy",
    "Verif.Share.C194_refines_partial",
    "Verif.Share.C194_load_partial",
    "Verif.Share.C194_add_partial",
    "Verif.Share.C194_merge_partial",
    "Verif.Share.C194_add_fails",
    "Verif.Share.C194_load_fails"
   ],
   "note": "Proved as a refinement of the model without sharing, for programs whose calls write into no shared record; C194_load_partial, C194_add_partial and C194_merge_partial say when that is in terms of what the catalog shows. Fails: add_namespace with a source of the same name, and loading a namespace again in a copy after a load of it failed."
  },
  {
   "property": "C195",
   "status": "proved",
   "theorems": [
    "Verif.AlignedGet.C195_rows",
    "Verif.AlignedGet.C195_total",
    "Verif.AlignedGet.C195_labels"
   ],
   "note": "Proved; totality needs that no category has the main table's name and no column is named 'id'."
  },
  {
   "property": "C196",
   "status": "partial",
   "theorems": [
    "Verif.AlignedGet.C196_all",
    "Verif.AlignedGet.C196_total",
    "Verif.AlignedGet.C196_names",
    "Verif.AlignedGet.C196_ignore_ids",
    "Verif.AlignedGet.C196_ignore_ids_partial",
    "Verif.AlignedGet.C196_ignore_ids_fails"
   ],
   "note": "Proved for to_dataframe() and for ignore_category_ids=True with categories whose ids are 0, 1, .... Fails for other ids: pandas aligns by them, so row r is paired with the category's row of id r (C196_ignore_ids says so for all tables, C196_ignore_ids_fails is a witness)."
  },
  {
   "property": "C197",
   "status": "partial",
   "theorems": [
    "Verif.AlignedGet.C197_pair",
    "Verif.AlignedGet.C197_pair_total",
    "Verif.AlignedGet.C197_orders",
    "Verif.AlignedGet.C197_column",
    "Verif.AlignedGet.C197_cell",
    "Verif.AlignedGet.C197_agree_partial",
    "Verif.AlignedGet.C197_region_fails",
    "Verif.AlignedGet.C197_none_fails"
   ],
   "note": "Proved for values and ragged columns (one form gives a tuple, the others a list). Fails for regions (number of the row against the row as a frame) and for None in table[row, (None, column)], a KeyError for every table."
  },
  {
   "property": "C198",
   "status": "partial",
   "theorems": [
    "Verif.AlignedGet.C198_category_partial",
    "Verif.AlignedGet.C198_category_fails",
    "Verif.AlignedGet.C198_main_partial",
    "Verif.AlignedGet.C198_main_fails",
    "Verif.AlignedGet.C198_main_row_fails"
   ],
   "note": "Proved for categories with a column and a main table with two. Fails: with a single cell the result is an array; table[table.name, row] and table[None, row] are the row of all tables."
  },
  {
   "property": "C199",
   "status": "partial",
   "theorems": [
    "Verif.AlignedGet.C199_pair_partial",
    "Verif.AlignedGet.C199_unknown_fails",
    "Verif.AlignedGet.C199_id_fails",
    "Verif.AlignedGet.C199_name_partial",
    "Verif.AlignedGet.C199_self_fails"
   ],
   "note": "Proved for existing categories and columns other than 'id'. Fails: KeyError for an unknown category, False for ('category', 'id') and for the table's own name."
  },
  {
   "property": "C200",
   "status": "partial",
   "theorems": [
    "Verif.Same.C200_pass_partial",
    "Verif.Same.C200_equal_partial",
    "Verif.Same.C200_data_fails",
    "Verif.Same.C200_kinds_fails"
   ],
   "note": "Proved by induction over the recursion for containers whose fields conform to the kinds of their classes; equality without floats and arrays. Fails: Data objects given directly are equal whatever data they hold; a string passes for the list of its characters, a list for a Data object, whole numbers in arrays for near ones."
  },
  {
   "property": "C201",
   "status": "partial",
   "theorems": [
    "Verif.Same.C201_refl_partial",
    "Verif.Same.C201_dict_fails",
    "Verif.Same.C201_scalar_data_fails",
    "Verif.Same.C201_bytes_fails"
   ],
   "note": "Proved for containers whose dictionaries are empty and whose Data hold sequences. Fails: TypeError for dictionaries (f1.values()[0]) and for Data with a single value; ignore_string_to_byte has no effect in fields and below Data."
  },
  {
   "property": "C202",
   "status": "partial",
   "theorems": [
    "Verif.Same.C202_symm_partial",
    "Verif.Same.C202_fails"
   ],
   "note": "Proved without floats and arrays. Fails: a float against a whole number passes one way only; the tolerance is relative to the second argument."
  },
  {
   "property": "C203",
   "status": "partial",
   "theorems": [
    "Verif.Same.C203_written_partial",
    "Verif.Same.C203_exported_fails"
   ],
   "note": "Proved for the written file. Fails: for the exported file the written one is opened again, so errors in the exported file are never raised (C203_exported_fails, for all files)."
  },
  {
   "property": "C204",
   "status": "partial",
   "theorems": [
    "Verif.HerdZip.C204_roundtrip_partial",
    "Verif.HerdZip.C204_directory_fails"
   ],
   "note": "Proved for paths without a directory part, with an exact characterisation of the tables that come back equal. Fails: for every path with a directory part, whatever the tables (UnboundLocalError, extracted files left behind)."
  },
  {
   "property": "C205",
   "status": "partial",
   "theorems": [
    "Verif.HerdZip.C205_column_partial",
    "Verif.HerdZip.C205_text_fails",
    "Verif.HerdZip.C205_key_fails"
   ],
   "note": "Exact characterisation of the columns of text that survive. Fails: pandas reads NA as missing, 007 as 7, True as a truth value."
  },
  {
   "property": "C206",
   "status": "partial",
   "theorems": [
    "Verif.HerdZip.C206_others_partial",
    "Verif.HerdZip.C206_removed_fails"
   ],
   "note": "Proved for files not named like the tables. Fails: keys.tsv and the other names in the directory are overwritten and removed."
  },
  {
   "property": "C207",
   "status": "partial",
   "theorems": [
    "Verif.HerdZip.C207_equal_partial",
    "Verif.HerdZip.C207_entity_keys_fails"
   ],
   "note": "Proved for the five tables that are compared. Fails: the entity-key table is not compared."
  },
  {
   "property": "C208",
   "status": "partial",
   "theorems": [
    "Verif.HerdZip.C208_recorded_partial",
    "Verif.HerdZip.C208_only",
    "Verif.HerdZip.C208_atomic_fails"
   ],
   "note": "Recorded, kept and nothing else: proved for all items. Fails: not all or nothing when a term is unknown. Which attributes are wrapped (the search of the tree) is given."
  },
  {
   "property": "C209",
   "status": "partial",
   "theorems": [
    "Verif.HerdZip.C209_object_type_partial",
    "Verif.HerdZip.C209_empty_fails"
   ],
   "note": "Proved for tables with a reference. Fails: ValueError on empty tables."
  },
  {
   "property": "C210",
   "status": "proved",
   "theorems": [
    "Verif.Subspec.C210_data_type",
    "Verif.Subspec.C210_target_type",
    "Verif.Subspec.C210_accepted",
    "Verif.Subspec.C210_order"
   ],
   "note": "Proved for all sequences and all permutations, with an exact condition for the error."
  },
  {
   "property": "C211",
   "status": "partial",
   "theorems": [
    "Verif.Subspec.C211_retrievable_partial",
    "Verif.Subspec.C211_given",
    "Verif.Subspec.C211_repeated_fails"
   ],
   "note": "Proved for specs whose names are unique in their kind. Fails: the earlier of two specs of one kind with one name can not be retrieved by name; the second is accepted."
  },
  {
   "property": "C212",
   "status": "partial",
   "theorems": [
    "Verif.Subspec.C212_by_name_partial",
    "Verif.Subspec.C212_by_type_partial",
    "Verif.Subspec.C212_other_fails",
    "Verif.Subspec.C212_bytes_fails"
   ],
   "note": "By name, and by the nearest type: proved. Fails: a list of specs, or a spec with another name, or of a group for a link, can be returned; TypeError if the namespace attribute is bytes or missing."
  },
  {
   "property": "C213",
   "status": "partial",
   "theorems": [
    "Verif.NsCache.C213_files",
    "Verif.NsCache.C213_all",
    "Verif.NsCache.C213_merged_fails"
   ],
   "note": "Proved for every namespace for which caching succeeds. C213_merged_fails: sources that differ only in their ending share a dataset."
  },
  {
   "property": "C214",
   "status": "partial",
   "theorems": [
    "Verif.NsCache.C214_loaded_partial",
    "Verif.NsCache.C214_selected_fails",
    "Verif.NsCache.C214_selection_fails",
    "Verif.NsCache.C214_both_fails"
   ],
   "note": "Proved where the included namespaces are there and each spec needs only types loaded before it. Fails: the types selected from an included namespace are not kept, so all of its types are included; an element with a source and a namespace is loaded as a source and cached as a namespace."
  },
  {
   "property": "C215",
   "status": "partial",
   "theorems": [
    "Verif.NsCache.C215_cached_partial",
    "Verif.NsCache.C215_directory_fails",
    "Verif.NsCache.C215_loads_fails",
    "Verif.NsCache.C215_namespace_fails",
    "Verif.NsCache.C215_source_name"
   ],
   "note": "Proved for base names other than 'namespace' and distinct types. Fails: ValueError for every namespace with a spec in a file of a subdirectory, and for a source namespace.yaml."
  },
  {
   "property": "C216",
   "status": "partial",
   "theorems": [
    "Verif.TypeTree.C216_tree",
    "Verif.TypeTree.C216_each_partial",
    "Verif.TypeTree.C216_missing_fails",
    "Verif.TypeTree.C216_self_fails",
    "Verif.TypeTree.C216_cycle_fails"
   ],
   "note": "C216_tree gives the exact tree for every catalog. C216_each_partial: each type is there if its chain of included types ends at a registered type that includes none. Fails: types whose parent is not registered, that include themselves or are in a cycle are left out."
  },
  {
   "property": "C217",
   "status": "partial",
   "theorems": [
    "Verif.VErr.C217_field",
    "Verif.VErr.C217_same_partial",
    "Verif.VErr.C217_name",
    "Verif.VErr.C217_equivalence",
    "Verif.VErr.C217_brackets_fails",
    "Verif.VErr.C217_other_fails",
    "Verif.VErr.C217_text_fails",
    "Verif.VErr.C217_location_fails"
   ],
   "note": "Proved without brackets and colons in the field and the locations. Fails: with brackets errors about different things are equal; an error equals the text it is hashed by; comparing with something unhashable raises; setting the location changes the hash."
  },
  {
   "property": "C218",
   "status": "partial",
   "theorems": [
    "Verif.VErr.C218_first",
    "Verif.VErr.C218_result",
    "Verif.VErr.C218_again",
    "Verif.VErr.C218_lost_fails"
   ],
   "note": "Proved for all lists. C218_lost_fails: by C217 an error with brackets in its name may be lost."
  },
  {
   "property": "C219",
   "status": "partial",
   "theorems": [
    "Verif.VErr.C219_expected_partial",
    "Verif.VErr.C219_missing_partial",
    "Verif.VErr.C219_quantity_partial",
    "Verif.VErr.C219_ambiguous_fails",
    "Verif.VErr.C219_classes"
   ],
   "note": "Proved where the expected text has no quote, the type no bracket and the quantity no blank. C219_ambiguous_fails shows the two other cases."
  },
  {
   "property": "C220",
   "status": "partial",
   "theorems": [
    "Verif.TableFile.C220_order_partial",
    "Verif.TableFile.C220_empty",
    "Verif.TableFile.C220_order_fails",
    "Verif.TableFile.C220_no_columns"
   ],
   "note": "Proved for tables with a column that has rows, and for tables without columns. For tables with columns but no rows C220_empty proves what is read: the same columns in the order of their names; C220_order_fails: their order is lost, because the names are not written."
  },
  {
   "property": "C221",
   "status": "partial",
   "theorems": [
    "Verif.IsoDate.C221_date",
    "Verif.IsoDate.C221_datetime_partial",
    "Verif.IsoDate.C221_offset_fails",
    "Verif.IsoDate.C221_injective"
   ],
   "note": "Exact: a datetime passes if and only if its offset from UTC is a whole number of minutes (C221_offset_fails: the local mean time of Berlin)."
  },
  {
   "property": "C222",
   "status": "partial",
   "theorems": [
    "Verif.IsoDate.C222_accepted",
    "Verif.IsoDate.C222_validated",
    "Verif.IsoDate.C222_bytes",
    "Verif.IsoDate.C222_no_date_fails",
    "Verif.IsoDate.C222_other_formats_fails"
   ],
   "note": "C222_accepted gives exactly the texts that are accepted. Fails: 30 February, the year 0 and a text with a line feed at its end are accepted; the basic format, times without seconds and week dates are not."
  },
  {
   "property": "C223",
   "status": "partial",
   "theorems": [
    "Verif.Ids.C223_history",
    "Verif.Ids.C223_append",
    "Verif.Ids.C223_arrays",
    "Verif.Ids.C223_list_partial",
    "Verif.Ids.C223_first_fails",
    "Verif.Ids.C223_empty_array_fails",
    "Verif.Ids.C223_unsigned_fails",
    "Verif.Ids.C223_reread_partial",
    "Verif.Ids.C223_reread_fails",
    "Verif.Ids.C223_reread_values"
   ],
   "note": "C223_history gives exactly what a list contains after any history. Fails: only the first element of a list is checked; an empty array of floats is accepted and makes floats of what is appended; arrays of unsigned integers are rejected, but iterators of them are accepted and the file that is written cannot be read."
  },
  {
   "property": "C224",
   "status": "partial",
   "theorems": [
    "Verif.Sparse.C224_values",
    "Verif.Sparse.C224_accepts",
    "Verif.Sparse.C224_idem",
    "Verif.Sparse.C224_lists_partial",
    "Verif.Sparse.C224_empty_list_fails"
   ],
   "note": "Proved for all arrays. Fails for lists without elements: they are arrays of floats."
  },
  {
   "property": "C225",
   "status": "partial",
   "theorems": [
    "Verif.Sparse.C225_dense",
    "Verif.Sparse.C225_ok",
    "Verif.Sparse.C225_round_trip",
    "Verif.Sparse.C225_rejects",
    "Verif.Sparse.C225_columns_fails"
   ],
   "note": "Proved: elements (C225_dense), invariant of all matrices (C225_ok), round trip, rejected parts. Fails: column numbers are not compared with the shape. SciPy is modelled as documented."
  },
  {
   "property": "C226",
   "status": "partial",
   "theorems": [
    "Verif.Monitor.C226_count_partial",
    "Verif.Monitor.C226_exhausted",
    "Verif.Monitor.C226_for_loop",
    "Verif.Monitor.C226_abstract_fails",
    "Verif.Monitor.C226_not_yet_fails",
    "Verif.Monitor.C226_for_loop_fails"
   ],
   "note": "The counter of the library is abstract and cannot be created (C226_abstract_fails). For a subclass that defines dtype and maxshape the count is proved for every history of next; it fails for for loops, which bypass the counter, and the exception before the end is AttributeError."
  },
  {
   "property": "C227",
   "status": "partial",
   "theorems": [
    "Verif.TypeConf.C227_shared_partial",
    "Verif.TypeConf.C227_history",
    "Verif.TypeConf.C227_independent",
    "Verif.TypeConf.C227_all_maps_fails"
   ],
   "note": "Proved for all maps that come from the global one by copying, in any history; C227_independent: other maps do not matter. Fails for maps created with TypeMap()."
  },
  {
   "property": "C228",
   "status": "partial",
   "theorems": [
    "Verif.Builders.C228_contains",
    "Verif.Builders.C228_keys",
    "Verif.Builders.C228_getitem_partial",
    "Verif.Builders.C228_get_partial",
    "Verif.Builders.C228_path_fails",
    "Verif.Builders.C228_len_fails",
    "Verif.Builders.C228_slash_fails"
   ],
   "note": "Proved for names without slash; C228_contains and C228_keys for all keys. Fails: a path can be looked up but is not in the group; len and iteration are those of the four sub-dictionaries; an attribute with a slash in its name is among the keys and cannot be looked up."
  },
  {
   "property": "C229",
   "status": "partial",
   "theorems": [
    "Verif.BuilderEq.C229_exact_partial",
    "Verif.BuilderEq.C229_equivalence",
    "Verif.BuilderEq.C229_dtype_fails",
    "Verif.BuilderEq.C229_source_fails",
    "Verif.BuilderEq.C229_link_fails"
   ],
   "note": "C229_exact_partial: passes iff names (path, source) are equal and no path leads to a difference in class, data or attributes; C229_equivalence. Fails: dtype, maxshape and chunks of datasets, sources of sub-builders and names of the targets of links are not compared."
  },
  {
   "property": "C230",
   "status": "partial",
   "theorems": [
    "Verif.Html.C230_codes_partial",
    "Verif.Html.C230_list_fails",
    "Verif.Html.C230_nested_fails",
    "Verif.Html.C230_number_fails",
    "Verif.Html.C230_quote_fails"
   ],
   "note": "C230_codes_partial: exactly the codes that give a value are shown, for containers with lists of at most one element and keys that are strings. Fails for lists (the code of an element has those of all elements before it), for numbers as keys, and for keys with quotes."
  },
  {
   "property": "C231",
   "status": "partial",
   "theorems": [
    "Verif.Html.C231_page_partial",
    "Verif.Html.C231_escape_fails",
    "Verif.Html.C231_quote_fails",
    "Verif.Html.C231_break_fails"
   ],
   "note": "Proved (C231_page_partial) for values without <, names without < and quotes, arrays in one line. Fails otherwise: nothing is escaped, and a line break is written as an end tag that was not opened. Character references are not modelled."
  },
  {
   "property": "C232",
   "status": "partial",
   "theorems": [
    "Verif.Hooks.C232_runs",
    "Verif.Hooks.C232_once",
    "Verif.Hooks.C232_private",
    "Verif.Hooks.C232_order_fails",
    "Verif.Hooks.C232_same_name_fails",
    "Verif.Hooks.C232_dunder_fails",
    "Verif.Hooks.C232_underscore_fails"
   ],
   "note": "C232_runs: exactly those not hidden by a function of the same attribute name in an earlier class; C232_once; C232_private: all of them, for private names and classes of different names. Fails: the order is that of the names, not of the classes; a class with the name of its base class (or that name with underscores), or a name that is not private, hides the function of the base class."
  },
  {
   "property": "C233",
   "status": "partial",
   "theorems": [
    "Verif.Raises.C233_raises_partial",
    "Verif.Raises.C233_warns_partial",
    "Verif.Raises.C233_newline_fails"
   ],
   "note": "Proved for all messages but for a newline at the end of the message, which is not noticed (C233_newline_fails). Of regular expressions only what the pattern uses is modelled."
  },
  {
   "property": "C234",
   "status": "partial",
   "theorems": [
    "Verif.ReadIo.C234_once",
    "Verif.ReadIo.C234_nearest_partial",
    "Verif.ReadIo.C234_inherits",
    "Verif.ReadIo.C234_returns",
    "Verif.ReadIo.C234_cycle_fails",
    "Verif.ReadIo.C234_proxy_fails"
   ],
   "note": "Proved: never changes (C234_once), nearest (C234_nearest_partial, whenever get_ancestors returns), termination (C234_returns). Fails: endless loop when containers are the parents of each other; AttributeError below an unresolved proxy."
  },
  {
   "property": "C235",
   "status": "partial",
   "theorems": [
    "Verif.Repr.C235_fields_partial",
    "Verif.Repr.C235_hidden_fails"
   ],
   "note": "C235_fields_partial: exactly the fields whose value is not empty, strictly sorted. Fails: empty tables, texts, dictionaries and sets are left out, though empty lists are shown."
  },
  {
   "property": "C236",
   "status": "proved",
   "theorems": [
    "Verif.Repr.C236_list",
    "Verif.Repr.C236_dict",
    "Verif.Repr.C236_set"
   ],
   "note": "Proved. np.asarray of a list is given by its text; lists and tuples are the same."
  },
  {
   "property": "C237",
   "status": "partial",
   "theorems": [
    "Verif.Repr.C237_shown_partial",
    "Verif.Repr.C237_cycle_fails",
    "Verif.Repr.C237_keys_fails",
    "Verif.Repr.C237_dict_iff"
   ],
   "note": "C237_shown_partial: without cycles, with keys of one kind, and values that know whether they are empty; C237_dict_iff: a dictionary can be shown iff its keys can be compared. Fails: RecursionError for containers that are fields of each other, TypeError for keys of different kinds, ValueError for values whose truth is not defined."
  },
  {
   "property": "C238",
   "status": "partial",
   "theorems": [
    "Verif.Wrap.C238_read",
    "Verif.Wrap.C238_once",
    "Verif.Wrap.C238_iterator_fails"
   ],
   "note": "Proved for lists, tuples and arrays (C238_read, C238_once). Fails for iterators over chunks without a known end: true, but no length."
  },
  {
   "property": "C239",
   "status": "partial",
   "theorems": [
    "Verif.Wrap.C239_list",
    "Verif.Wrap.C239_array_partial",
    "Verif.Wrap.C239_refused",
    "Verif.Wrap.C239_extend_fails"
   ],
   "note": "C239_list: lists, shared in any way; C239_array_partial: arrays that are not extended; C239_refused. Fails: extend makes two rows of an array, or refuses the values (np.vstack); tuples are refused."
  },
  {
   "property": "C240",
   "status": "partial",
   "theorems": [
    "Verif.Wrap.C240_invalid_partial",
    "Verif.Wrap.C240_made",
    "Verif.Wrap.C240_shape_fails"
   ],
   "note": "C240_made, C240_invalid_partial. Fails: a DataIO with a shape and no data has a length, but is false and has no elements."
  },
  {
   "property": "C241",
   "status": "proved",
   "theorems": [
    "Verif.SpecDict.C241_rebuild",
    "Verif.SpecDict.C241_attribute",
    "Verif.SpecDict.C241_link",
    "Verif.SpecDict.C241_dataset",
    "Verif.SpecDict.C241_group"
   ],
   "note": "C241_rebuild for all four kinds (induction over the nesting), C241_attribute, C241_link, C241_dataset, C241_group. data_type_inc and target_type are names; dropped unknown keys are not modelled."
  },
  {
   "property": "C242",
   "status": "partial",
   "theorems": [
    "Verif.SpecDict.C242_once_partial",
    "Verif.SpecDict.C242_group_partial",
    "Verif.SpecDict.C242_once_fails"
   ],
   "note": "Proved for datasets; for groups '+' and '*' only. Fails: GroupSpec accepts a name with quantity 3 or 'zero_or_many', LinkSpec a name with any quantity."
  },
  {
   "property": "C243",
   "status": "partial",
   "theorems": [
    "Verif.SpecDict.C243_values_partial",
    "Verif.SpecDict.C243_refused",
    "Verif.SpecDict.C243_values_fails"
   ],
   "note": "Proved for attributes (C243_values_partial, C243_refused). Fails for datasets, which accept both values."
  },
  {
   "property": "C244",
   "status": "partial",
   "theorems": [
    "Verif.SpecDict.C244_dims_partial",
    "Verif.SpecDict.C244_dims_fails"
   ],
   "note": "Proved without alternatives; with them only the outer lengths agree. Fails: dims with alternatives and no shape give one shape whose dimension is the number of alternatives."
  },
  {
   "property": "C245",
   "status": "partial",
   "theorems": [
    "Verif.SpecDict.C245_types_partial",
    "Verif.SpecDict.C245_types_fails"
   ],
   "note": "Proved but for lists as dtype of a column, allowed by the documentation of DtypeSpec but always refused, by a TypeError (C245_types_fails)."
  },
  {
   "property": "C246",
   "status": "proved",
   "theorems": [
    "Verif.SpecDict.C246_attribute",
    "Verif.SpecDict.C246_group",
    "Verif.SpecDict.C246_dataset"
   ],
   "note": "C246_attribute, C246_dataset, C246_group: conditions on the dictionary, necessary and sufficient."
  },
  {
   "property": "C247",
   "status": "partial",
   "theorems": [
    "Verif.Orphan.C247_warns_partial",
    "Verif.Orphan.C247_only",
    "Verif.Orphan.C247_warns_fails"
   ],
   "note": "Exact where the table is not itself the root of the tree (C247_warns_partial), and no other container warns (C247_only). Fails: a region to the aligned table in one of its categories warns; a region added to a table that has a parent does not."
  },
  {
   "property": "C248",
   "status": "partial",
   "theorems": [
    "Verif.Orphan.C248_not_missed_partial",
    "Verif.Orphan.C248_final_fails"
   ],
   "note": "No warning is missed for regions that were in their table, with the table set, when it got its parent, whatever happens later (C248_not_missed_partial). Fails: the order of assembly gives warnings that are wrong in the end."
  },
  {
   "property": "C249",
   "status": "partial",
   "theorems": [
    "Verif.Orphan.C249_placed_partial",
    "Verif.Orphan.C249_placed_fails"
   ],
   "note": "Proved if every region has a table and parents have no cycle. Fails: a region without a table raises an AttributeError after the parent was set."
  },
  {
   "property": "C250",
   "status": "partial",
   "theorems": [
    "Verif.AllObj.C250_current_partial",
    "Verif.AllObj.C250_refreshed",
    "Verif.AllObj.C250_current_fails"
   ],
   "note": "Exact when asked for the first time (C250_current_partial) and right after all_children (C250_refreshed). Fails: the dictionary is kept, so that children that are added later are missing, children that were removed are still there and new ids are not found."
  },
  {
   "property": "C251",
   "status": "partial",
   "theorems": [
    "Verif.AllObj.C251_ends",
    "Verif.AllObj.C251_whole_partial",
    "Verif.AllObj.C251_whole_fails"
   ],
   "note": "Ends always (C251_ends); complete if all_children returned (C251_whole_partial). Fails: after a TypeError on ids that are not unique, the second request returns the part that was filled."
  },
  {
   "property": "C252",
   "status": "proved",
   "theorems": [
    "Verif.AllObj.C252_stays",
    "Verif.AllObj.C252_own"
   ],
   "note": "uuid4 is assumed to give ids that were never seen."
  },
  {
   "property": "C253",
   "status": "partial",
   "theorems": [
    "Verif.StoreType.C253_names_partial",
    "Verif.StoreType.C253_agree_partial",
    "Verif.StoreType.C253_names_fails"
   ],
   "note": "Proved for all names but 'numeric' and 'date' (synonyms) and for all strings but those of times (agreement with the mapper). Fails: 'date' has no type in the file; times are made bytes by the mapper and text by the backend."
  },
  {
   "property": "C254",
   "status": "partial",
   "theorems": [
    "Verif.StoreType.C254_fields_partial",
    "Verif.StoreType.C254_fields_fails"
   ],
   "note": "Proved for values that are not wider than the dtype of the field. Fails: wider values are kept in a dataset but cut in a compound; fields of dtype 'numeric' and 'date' become float64."
  },
  {
   "property": "C255",
   "status": "partial",
   "theorems": [
    "Verif.StoreType.C255_inferred_partial",
    "Verif.StoreType.C255_of_a_part",
    "Verif.StoreType.C255_known",
    "Verif.StoreType.C255_inferred_fails"
   ],
   "note": "Proved for nested lists whose parts have one type; the type is always that of some part (C255_of_a_part); known dtypes do not look at the data (C255_known). Fails: only the first part is looked at."
  },
  {
   "property": "C256",
   "status": "proved",
   "theorems": [
    "Verif.DocShare.C256_arguments",
    "Verif.DocShare.C256_found"
   ],
   "note": "Checks of enums and unknown keys while decorating are not modelled."
  },
  {
   "property": "C257",
   "status": "partial",
   "theorems": [
    "Verif.DocShare.C257_stay_partial",
    "Verif.DocShare.C257_stay_fails"
   ],
   "note": "Proved if nothing that was returned is changed and no new macro is made. Fails: get_docval returns the dictionaries themselves; decorating resolves the types in them, so that a macro made later changes another function."
  },
  {
   "property": "C258",
   "status": "partial",
   "theorems": [
    "Verif.DocShare.C258_macro_partial",
    "Verif.DocShare.C258_added",
    "Verif.DocShare.C258_macro_fails"
   ],
   "note": "Proved for the classes added before the function is decorated. Fails: classes added later are not accepted."
  },
  {
   "property": "C259",
   "status": "partial",
   "theorems": [
    "Verif.SpecKeys.C259_keys",
    "Verif.SpecKeys.C259_includes_partial",
    "Verif.SpecKeys.C259_loads",
    "Verif.SpecKeys.C259_includes_fails"
   ],
   "note": "Proved for the top of a spec in either language and for types below it in the language of the project. Fails: keys of types below the top are not changed, so that the types they include are neither replaced nor checked. Building the spec object is not part of it."
  },
  {
   "property": "C260",
   "status": "partial",
   "theorems": [
    "Verif.Delegate.C260_found_partial",
    "Verif.Delegate.C260_empty_fails",
    "Verif.Delegate.C260_blank_fails"
   ],
   "note": "Proved for wrappers that are built and have data. Fails: hasattr of a DataIO without data raises InvalidDataIOError; a wrapper whose __init__ was not called recurses without end."
  },
  {
   "property": "C261",
   "status": "partial",
   "theorems": [
    "Verif.Delegate.C261_copy_partial",
    "Verif.Delegate.C261_lost",
    "Verif.Delegate.C261_copy_fails"
   ],
   "note": "Proved for classes that define the methods (DataIO, DataChunk). Fails: a deep copy of an array in a TermSetWrapper is the array without its terms; other copies of a TermSetWrapper, and unpickling a DataChunk, end in a RecursionError. Which methods copy and pickle look for is taken from the standard library."
  },
  {
   "property": "C262",
   "status": "proved",
   "theorems": [
    "Verif.Hier.C262_exact",
    "Verif.Hier.C262_has",
    "Verif.Hier.C262_links"
   ],
   "note": "The agreement with links is for tables whose regions all have a table, as for C156."
  },
  {
   "property": "C263",
   "status": "partial",
   "theorems": [
    "Verif.Collapse.C263_same_partial",
    "Verif.Collapse.C263_same_fails"
   ],
   "note": "Proved for lists and for single slices without a step. Fails: the step of a single slice is dropped, unlike in a list; the arrays of this repository give no slices with a step, other array classes may."
  }
 ]
}