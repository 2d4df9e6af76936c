import Verif.Props.Aligned
import Verif.Props.AlignedForeign
import Verif.Props.AlignedGet
import Verif.Props.AllObj
import Verif.Props.Arrays
import Verif.Props.BuilderEq
import Verif.Props.BuilderView
import Verif.Props.Builders
import Verif.Props.Catalog
import Verif.Props.Changes
import Verif.Props.ChunkStream
import Verif.Props.ClassGen
import Verif.Props.Collapse
import Verif.Props.Convert
import Verif.Props.DataIO
import Verif.Props.Delegate
import Verif.Props.DocShare
import Verif.Props.Docval
import Verif.Props.Enum
import Verif.Props.FileIO
import Verif.Props.GenericChunks
import Verif.Props.H5Read
import Verif.Props.H5RoundTrip
import Verif.Props.H5Write
import Verif.Props.Herd
import Verif.Props.HerdZip
import Verif.Props.Hier
import Verif.Props.Hooks
import Verif.Props.Html
import Verif.Props.Ids
import Verif.Props.IsoDate
import Verif.Props.LabelledDict
import Verif.Props.Manager
import Verif.Props.Mapper
import Verif.Props.Monitor
import Verif.Props.Multi
import Verif.Props.Names
import Verif.Props.Namespace
import Verif.Props.Nested
import Verif.Props.NsCache
import Verif.Props.NsWrite
import Verif.Props.Once
import Verif.Props.Orphan
import Verif.Props.Parents
import Verif.Props.Ragged
import Verif.Props.Raises
import Verif.Props.ReadIo
import Verif.Props.RefData
import Verif.Props.Region
import Verif.Props.Repr
import Verif.Props.Rows
import Verif.Props.Same
import Verif.Props.Shape
import Verif.Props.Share
import Verif.Props.Slicer
import Verif.Props.SortKeys
import Verif.Props.Sparse
import Verif.Props.Spec
import Verif.Props.SpecCache
import Verif.Props.SpecCopy
import Verif.Props.SpecDict
import Verif.Props.SpecKeys
import Verif.Props.StoreType
import Verif.Props.Subspec
import Verif.Props.Table
import Verif.Props.TableFile
import Verif.Props.TableInit
import Verif.Props.Terms
import Verif.Props.Tree
import Verif.Props.TypeConf
import Verif.Props.TypeMap
import Verif.Props.TypeTree
import Verif.Props.Utils
import Verif.Props.VErr
import Verif.Props.Validate
import Verif.Props.Vmap
import Verif.Props.Vmatch
import Verif.Props.Vtypes
import Verif.Props.Wrap

/-! Prints the axioms of every property theorem (generated by tools/manifest.py). -/

#print axioms Verif.LabelledDict.C01_labels_agree
#print axioms Verif.LabelledDict.C02_setitem
#print axioms Verif.LabelledDict.C02_rejected_unchanged
#print axioms Verif.LabelledDict.C02_removals
#print axioms Verif.Docval.C03_binding
#print axioms Verif.Docval.C03_position_partial
#print axioms Verif.Docval.C03_position_fails
#print axioms Verif.Docval.C03_delivered_partial
#print axioms Verif.Docval.C03_delivered_fails
#print axioms Verif.Docval.C04_accepted_typed
#print axioms Verif.Docval.C04_refused_untyped
#print axioms Verif.Docval.C05_nothing_dropped_partial
#print axioms Verif.Docval.C05_allow_extra_partial
#print axioms Verif.Docval.C05_dropped_fails
#print axioms Verif.Docval.C06_shape
#print axioms Verif.Docval.C06_accepted_shape
#print axioms Verif.Docval.C06_empty_shape_fails
#print axioms Verif.GenericChunks.C07_exact_cover
#print axioms Verif.GenericChunks.C07_within
#print axioms Verif.GenericChunks.C07_count
#print axioms Verif.GenericChunks.C08_write_back
#print axioms Verif.GenericChunks.C08_nothing_else
#print axioms Verif.ChunkStream.C09_prefix
#print axioms Verif.ChunkStream.C09_complete
#print axioms Verif.ChunkStream.C09_terminates
#print axioms Verif.ChunkStream.C09_spec_meaning
#print axioms Verif.ChunkStream.C09_h5_source
#print axioms Verif.ChunkStream.C10_terminates
#print axioms Verif.ChunkStream.C10_independent
#print axioms Verif.ChunkStream.C10_same_dataset_fails
#print axioms Verif.TypeMap.C100_first
#print axioms Verif.TypeMap.C100_default
#print axioms Verif.TypeMap.C100_cached
#print axioms Verif.TypeMap.C100_late_map_fails
#print axioms Verif.TypeMap.C100_two_types_fails
#print axioms Verif.TypeMap.C101_same_classes
#print axioms Verif.TypeMap.C101_same_types_partial
#print axioms Verif.TypeMap.C101_same_types_fails
#print axioms Verif.TypeMap.C101_copy_ok_partial
#print axioms Verif.TypeMap.C101_copy_fails
#print axioms Verif.TypeMap.C102_roundtrip_partial
#print axioms Verif.TypeMap.C102_roundtrip_fails
#print axioms Verif.TypeMap.C103_lists_classes
#print axioms Verif.TypeMap.C103_only_classes_fails
#print axioms Verif.Manager.C104_retry_partial
#print axioms Verif.Manager.C104_leftover_fails
#print axioms Verif.Manager.C104_lost_fails
#print axioms Verif.Manager.C105_modified_fails
#print axioms Verif.Validate.C106_sound
#print axioms Verif.Validate.C106_complete_partial
#print axioms Verif.Validate.C106_exact_partial
#print axioms Verif.Validate.C106_complete_fails
#print axioms Verif.Validate.C107_distinct
#print axioms Verif.Validate.C107_included
#print axioms Verif.Validate.C107_located
#print axioms Verif.Validate.C108_terminates
#print axioms Verif.Validate.C108_cycle_fails
#print axioms Verif.Validate.C108_raises_fails
#print axioms Verif.Validate.C109_representation_partial
#print axioms Verif.Validate.C109_fails
#print axioms Verif.Ragged.C11_rows
#print axioms Verif.Ragged.C11_constructed
#print axioms Verif.Ragged.C11_array_target_fails
#print axioms Verif.Ragged.C11_empty_on_disk_fails
#print axioms Verif.Validate.C110_value_fails
#print axioms Verif.Validate.C110_elements_fails
#print axioms Verif.Multi.C111_owned_partial
#print axioms Verif.Multi.C111_owned_excl_partial
#print axioms Verif.Multi.C111_shared_fails
#print axioms Verif.Multi.C112_rejected_fails
#print axioms Verif.Multi.C112_rejected_partial
#print axioms Verif.Multi.C113_types_partial
#print axioms Verif.Multi.C113_list_fails
#print axioms Verif.Multi.C114_assign_partial
#print axioms Verif.Multi.C114_replace_fails
#print axioms Verif.Mapper.C115_roundtrip_partial
#print axioms Verif.Mapper.C115_readable_partial
#print axioms Verif.Mapper.C115_empty_list_fails
#print axioms Verif.Mapper.C115_dataset_attribute_fails
#print axioms Verif.Mapper.C115_converted_fails
#print axioms Verif.Mapper.C115_fixed_value_fails
#print axioms Verif.Mapper.C116_identity
#print axioms Verif.Mapper.C116_injective
#print axioms Verif.Mapper.C117_fixed_partial
#print axioms Verif.Mapper.C117_data_partial
#print axioms Verif.Mapper.C117_reference_partial
#print axioms Verif.Mapper.C117_default_partial
#print axioms Verif.Mapper.C117_added_attribute_fails
#print axioms Verif.Mapper.C118_written_iff_partial
#print axioms Verif.Mapper.C118_name_clash_fails
#print axioms Verif.Mapper.C119_admitted
#print axioms Verif.Mapper.C119_children
#print axioms Verif.Ragged.C12_aligned
#print axioms Verif.Ragged.C12_accepted_complete
#print axioms Verif.Ragged.C12_cover
#print axioms Verif.Ragged.C12_rejected_fails
#print axioms Verif.Mapper.C120_warns_iff_partial
#print axioms Verif.Mapper.C120_zero_fails
#print axioms Verif.Mapper.C121_absent_link_partial
#print axioms Verif.Mapper.C121_absent_link_fails
#print axioms Verif.Mapper.C122_order_partial
#print axioms Verif.Mapper.C122_order_fails
#print axioms Verif.Mapper.C123_named_partial
#print axioms Verif.Mapper.C123_named_child_fails
#print axioms Verif.Mapper.C124_members_partial
#print axioms Verif.Mapper.C124_members_fails
#print axioms Verif.H5Read.C125_success_no_chain
#print axioms Verif.H5Read.C125_no_chain_ends
#print axioms Verif.H5Read.C125_limit_irrelevant
#print axioms Verif.H5Read.C125_total_partial
#print axioms Verif.H5Read.C125_self_reference_fails
#print axioms Verif.H5Read.C125_name_clash_fails
#print axioms Verif.H5Read.C125_group_reference_fails
#print axioms Verif.H5Read.C126_attribute_partial
#print axioms Verif.H5Read.C126_member_partial
#print axioms Verif.H5Read.C126_distinct
#print axioms Verif.H5Read.C126_scalar_reference_fails
#print axioms Verif.H5Read.C127_attributes
#print axioms Verif.H5Read.C127_groups
#print axioms Verif.H5Read.C127_datasets
#print axioms Verif.H5Read.C127_links_partial
#print axioms Verif.H5Read.C127_data
#print axioms Verif.H5Read.C127_link_lost_fails
#print axioms Verif.H5Read.C128_lookup_partial
#print axioms Verif.H5Read.C128_root_fails
#print axioms Verif.H5Write.C129_new_file_partial
#print axioms Verif.H5Write.C129_all_or_nothing_fails
#print axioms Verif.Ragged.C13_width
#print axioms Verif.Ragged.C13_disk_fails
#print axioms Verif.H5Write.C130_success_iff
#print axioms Verif.H5Write.C130_none_dangling
#print axioms Verif.H5Write.C130_leads_to_target_partial
#print axioms Verif.H5Write.C130_orphan_fails
#print axioms Verif.H5Write.C130_other_file_fails
#print axioms Verif.H5Write.C131_nothing_lost_partial
#print axioms Verif.H5Write.C131_references_fails
#print axioms Verif.H5Write.C132_append_partial
#print axioms Verif.H5Write.C132_dataset_attributes_fails
#print axioms Verif.H5Write.C133_again
#print axioms Verif.H5Write.C133_retry_fails
#print axioms Verif.H5Write.C134_links_partial
#print axioms Verif.H5Write.C134_unknown_source
#print axioms Verif.H5Write.C134_dangling_fails
#print axioms Verif.H5RoundTrip.C135_round_trip_partial
#print axioms Verif.H5RoundTrip.C135_readable_partial
#print axioms Verif.H5RoundTrip.C135_self_reference_fails
#print axioms Verif.H5RoundTrip.C135_group_reference_fails
#print axioms Verif.H5RoundTrip.C135_link_lost_fails
#print axioms Verif.SpecCache.C136_once
#print axioms Verif.SpecCache.C136_before
#print axioms Verif.SpecCache.C136_before_all
#print axioms Verif.SpecCache.C137_latest_fails
#print axioms Verif.SpecCache.C137_empty_group_fails
#print axioms Verif.SpecCache.C137_version_partial
#print axioms Verif.SpecCache.C137_answer_partial
#print axioms Verif.SpecCache.C137_written_version_fails
#print axioms Verif.SpecCache.C137_written_partial
#print axioms Verif.SpecCache.C138_kept
#print axioms Verif.SpecCache.C138_cached_partial
#print axioms Verif.SpecCache.C138_idempotent
#print axioms Verif.SpecCache.C138_changed_fails
#print axioms Verif.SpecCache.C138_broken_off_fails
#print axioms Verif.SpecCache.C139_not_replaced
#print axioms Verif.SpecCache.C139_loaded
#print axioms Verif.SpecCache.C139_included_first
#print axioms Verif.SpecCache.C139_circle_fails
#print axioms Verif.Table.C14_columns_aligned
#print axioms Verif.Table.C14_preserved
#print axioms Verif.Table.C14_after_rejection_fails
#print axioms Verif.SpecCopy.C140_round_trip_partial
#print axioms Verif.SpecCopy.C140_many_fails
#print axioms Verif.SpecCopy.C140_link_fails
#print axioms Verif.SpecCopy.C140_attribute_fails
#print axioms Verif.SpecCopy.C140_target_fails
#print axioms Verif.SpecCopy.C140_self_fails
#print axioms Verif.SpecCopy.C141_own_partial
#print axioms Verif.SpecCopy.C141_typed_fails
#print axioms Verif.SpecCopy.C142_keys_partial
#print axioms Verif.SpecCopy.C142_value_fails
#print axioms Verif.SpecCopy.C143_attributes
#print axioms Verif.SpecCopy.C143_own
#print axioms Verif.Names.C144_letters
#print axioms Verif.Names.C144_words
#print axioms Verif.Names.C144_plain
#print axioms Verif.Names.C144_injective_fails
#print axioms Verif.Names.C144_underscores_fails
#print axioms Verif.Names.C145_keys
#print axioms Verif.Names.C145_value
#print axioms Verif.Names.C145_complete_partial
#print axioms Verif.Names.C145_complete_fails
#print axioms Verif.Names.C146_distinct
#print axioms Verif.Names.C146_types
#print axioms Verif.Names.C146_underscores_fails
#print axioms Verif.Names.C147_names
#print axioms Verif.Names.C147_inverse
#print axioms Verif.Names.C147_complete_partial
#print axioms Verif.Names.C147_shared_fails
#print axioms Verif.Names.C148_last
#print axioms Verif.Names.C148_spec
#print axioms Verif.Names.C148_carg_spec
#print axioms Verif.Names.C148_inverse_partial
#print axioms Verif.Names.C148_unmap_fails
#print axioms Verif.Names.C148_taken_fails
#print axioms Verif.Names.C149_derived
#print axioms Verif.Names.C149_override_fails
#print axioms Verif.Names.C149_bases_fails
#print axioms Verif.Table.C15_rows_read_back
#print axioms Verif.Table.C15_columns_read_back
#print axioms Verif.TableInit.C150_rows_partial
#print axioms Verif.TableInit.C150_accepts
#print axioms Verif.TableInit.C150_iterator_fails
#print axioms Verif.TableInit.C150_same_name_fails
#print axioms Verif.TableInit.C150_ragged_enum_fails
#print axioms Verif.TableInit.C151_given
#print axioms Verif.TableInit.C151_numbered
#print axioms Verif.TableInit.C151_mismatch
#print axioms Verif.TableInit.C152_colnames_partial
#print axioms Verif.TableInit.C152_elements_fails
#print axioms Verif.TableInit.C153_order_partial
#print axioms Verif.TableInit.C153_complete_partial
#print axioms Verif.TableInit.C153_indices_first
#print axioms Verif.TableInit.C153_unnamed_fails
#print axioms Verif.TableInit.C153_ragged_enum_fails
#print axioms Verif.TableInit.C154_column
#print axioms Verif.TableInit.C154_index_partial
#print axioms Verif.TableInit.C154_attribute
#print axioms Verif.TableInit.C154_absent
#print axioms Verif.TableInit.C154_inner_index_fails
#print axioms Verif.TableInit.C155_copy_partial
#print axioms Verif.TableInit.C155_shared_fails
#print axioms Verif.Hier.C156_links_partial
#print axioms Verif.Hier.C156_no_table_fails
#print axioms Verif.Hier.C156_aligned_fails
#print axioms Verif.Hier.C156_has_foreign
#print axioms Verif.Hier.C157_rows_partial
#print axioms Verif.Hier.C157_count_partial
#print axioms Verif.Hier.C157_dropped_fails
#print axioms Verif.Hier.C157_empty_middle_fails
#print axioms Verif.Hier.C157_same_id_fails
#print axioms Verif.Hier.C157_nested_index_fails
#print axioms Verif.Hier.C158_width
#print axioms Verif.Hier.C158_labels
#print axioms Verif.Hier.C159_flat
#print axioms Verif.Hier.C159_drop
#print axioms Verif.Hier.C159_levels
#print axioms Verif.Hier.C159_commute
#print axioms Verif.Hier.C159_ambiguous_fails
#print axioms Verif.Table.C16_rejected_unchanged_partial
#print axioms Verif.Table.C16_fails
#print axioms Verif.Hier.C160_cells
#print axioms Verif.Hier.C160_ragged_partial
#print axioms Verif.Hier.C160_accepts_partial
#print axioms Verif.Hier.C160_empty_fails
#print axioms Verif.Hier.C160_mixed_fails
#print axioms Verif.Hier.C160_described_fails
#print axioms Verif.ClassGen.C161_nodup
#print axioms Verif.ClassGen.C161_arguments_partial
#print axioms Verif.ClassGen.C161_required_partial
#print axioms Verif.ClassGen.C161_order
#print axioms Verif.ClassGen.C161_required_fails
#print axioms Verif.ClassGen.C161_override_fails
#print axioms Verif.ClassGen.C162_fields_partial
#print axioms Verif.ClassGen.C162_accepts_partial
#print axioms Verif.ClassGen.C162_checked
#print axioms Verif.ClassGen.C162_names
#print axioms Verif.ClassGen.C162_default_fails
#print axioms Verif.ClassGen.C162_name_fails
#print axioms Verif.ClassGen.C162_single_fails
#print axioms Verif.ClassGen.C162_readonly_fails
#print axioms Verif.ClassGen.C163_fields_partial
#print axioms Verif.ClassGen.C163_mixed_fails
#print axioms Verif.ClassGen.C164_calls_partial
#print axioms Verif.ClassGen.C164_none
#print axioms Verif.ClassGen.C164_once_fails
#print axioms Verif.ClassGen.C164_skip_fails
#print axioms Verif.ClassGen.C165_taken_partial
#print axioms Verif.ClassGen.C165_defined_partial
#print axioms Verif.ClassGen.C165_defined_fails
#print axioms Verif.ClassGen.C165_precision_fails
#print axioms Verif.FileIO.C166_readonly
#print axioms Verif.FileIO.C166_kept
#print axioms Verif.FileIO.C166_create
#print axioms Verif.FileIO.C166_refused
#print axioms Verif.FileIO.C167_read_partial
#print axioms Verif.FileIO.C167_again
#print axioms Verif.FileIO.C167_written_partial
#print axioms Verif.FileIO.C167_stale_fails
#print axioms Verif.FileIO.C167_closed_fails
#print axioms Verif.FileIO.C167_reopen_fails
#print axioms Verif.FileIO.C168_written_partial
#print axioms Verif.FileIO.C168_reused_fails
#print axioms Verif.FileIO.C169_herd_partial
#print axioms Verif.FileIO.C169_failed_fails
#print axioms Verif.FileIO.C169_ignored_fails
#print axioms Verif.Table.C17_rejected
#print axioms Verif.Table.C17_accepted
#print axioms Verif.Table.C17_rejected_children_fails
#print axioms Verif.FileIO.C170_source
#print axioms Verif.FileIO.C170_all_partial
#print axioms Verif.FileIO.C170_stale_fails
#print axioms Verif.FileIO.C170_container
#print axioms Verif.Changes.C171_export_partial
#print axioms Verif.Changes.C171_unchanged
#print axioms Verif.Changes.C171_cleared
#print axioms Verif.Changes.C171_set_fails
#print axioms Verif.DataIO.C172_accepts_partial
#print axioms Verif.DataIO.C172_settings
#print axioms Verif.DataIO.C172_later_fails
#print axioms Verif.DataIO.C172_scalar_fails
#print axioms Verif.DataIO.C172_dtype_fails
#print axioms Verif.DataIO.C172_opts_fails
#print axioms Verif.DataIO.C173_remade_partial
#print axioms Verif.DataIO.C173_plugin_fails
#print axioms Verif.DataIO.C174_array
#print axioms Verif.DataIO.C174_dataset
#print axioms Verif.DataIO.C174_iterator_partial
#print axioms Verif.DataIO.C174_empty_partial
#print axioms Verif.DataIO.C174_empty_twice_fails
#print axioms Verif.DataIO.C174_dtype_fails
#print axioms Verif.DataIO.C174_reused_fails
#print axioms Verif.DataIO.C175_copy_partial
#print axioms Verif.DataIO.C175_settings_fails
#print axioms Verif.DataIO.C175_empty_fails
#print axioms Verif.NsWrite.C176_loaded_partial
#print axioms Verif.NsWrite.C176_one_source
#print axioms Verif.NsWrite.C176_export_spec
#print axioms Verif.NsWrite.C176_sources_fails
#print axioms Verif.NsWrite.C176_clash_fails
#print axioms Verif.NsWrite.C176_untyped_fails
#print axioms Verif.NsWrite.C176_same_source_fails
#print axioms Verif.NsWrite.C177_files
#print axioms Verif.NsWrite.C177_again
#print axioms Verif.NsWrite.C177_title_fails
#print axioms Verif.NsWrite.C177_empty_source_fails
#print axioms Verif.NsWrite.C177_path_fails
#print axioms Verif.NsWrite.C177_name_fails
#print axioms Verif.NsWrite.C177_refused_fails
#print axioms Verif.NsWrite.C178_included_partial
#print axioms Verif.NsWrite.C178_whole_fails
#print axioms Verif.Rows.C179_accepts
#print axioms Verif.Rows.C179_refused
#print axioms Verif.Rows.C179_added
#print axioms Verif.Rows.C179_kept
#print axioms Verif.Rows.C179_views_partial
#print axioms Verif.Rows.C179_unknown_column_fails
#print axioms Verif.Rows.C179_which_row_fails
#print axioms Verif.Rows.C179_init_fails
#print axioms Verif.Rows.C179_not_list_fails
#print axioms Verif.Ragged.C18_nested
#print axioms Verif.Rows.C180_new
#print axioms Verif.Rows.C180_index
#print axioms Verif.Rows.C180_same
#print axioms Verif.Rows.C180_getter_partial
#print axioms Verif.Rows.C180_equal_partial
#print axioms Verif.Rows.C180_distinct_partial
#print axioms Verif.Rows.C180_negative_fails
#print axioms Verif.Rows.C180_row_column_fails
#print axioms Verif.Rows.C180_no_table_fails
#print axioms Verif.Rows.C180_detached_fails
#print axioms Verif.Rows.C181_accepts_partial
#print axioms Verif.Rows.C181_values_partial
#print axioms Verif.Rows.C181_round_partial
#print axioms Verif.Rows.C181_extra_fails
#print axioms Verif.Rows.C181_large_fails
#print axioms Verif.Rows.C182_first_partial
#print axioms Verif.Rows.C182_first_columns_partial
#print axioms Verif.Rows.C182_derived_fails
#print axioms Verif.Parents.C183_parent_partial
#print axioms Verif.Parents.C183_total
#print axioms Verif.Parents.C183_external_fails
#print axioms Verif.Parents.C183_same_name_fails
#print axioms Verif.Parents.C183_renamed_fails
#print axioms Verif.Parents.C183_other_type_fails
#print axioms Verif.Parents.C184_children
#print axioms Verif.Parents.C184_all_children
#print axioms Verif.Parents.C184_proxy_partial
#print axioms Verif.Parents.C184_resolve_fails
#print axioms Verif.Parents.C184_resolve_partial
#print axioms Verif.RefData.C185_item
#print axioms Verif.RefData.C185_unread
#print axioms Verif.RefData.C185_negative
#print axioms Verif.RefData.C185_slice
#print axioms Verif.RefData.C185_slice_total
#print axioms Verif.RefData.C185_list
#print axioms Verif.RefData.C185_iter
#print axioms Verif.RefData.C185_inverse
#print axioms Verif.RefData.C185_two_indices_fails
#print axioms Verif.RefData.C185_rows_fails
#print axioms Verif.RefData.C185_row_partial
#print axioms Verif.RefData.C185_region_partial
#print axioms Verif.RefData.C185_region_builder_fails
#print axioms Verif.RefData.C185_region_slice_fails
#print axioms Verif.RefData.C185_region_iter_fails
#print axioms Verif.RefData.C185_invert_fails
#print axioms Verif.RefData.C185_table_partial
#print axioms Verif.RefData.C185_table_rows
#print axioms Verif.RefData.C186_append_partial
#print axioms Verif.RefData.C186_refused
#print axioms Verif.RefData.C186_written_fails
#print axioms Verif.RefData.C186_other_file_fails
#print axioms Verif.RefData.C187_order
#print axioms Verif.RefData.C187_upper_partial
#print axioms Verif.RefData.C187_eq_partial
#print axioms Verif.RefData.C187_ne_partial
#print axioms Verif.RefData.C187_max_fails
#print axioms Verif.RefData.C187_absent_fails
#print axioms Verif.RefData.C187_stale_fails
#print axioms Verif.Nested.C188_expands
#print axioms Verif.Nested.C188_determined
#print axioms Verif.Nested.C188_total_partial
#print axioms Verif.Nested.C188_self_fails
#print axioms Verif.Nested.C188_endless
#print axioms Verif.Nested.C188_empty_cell_fails
#print axioms Verif.Nested.C189_row
#print axioms Verif.Nested.C189_cell
#print axioms Verif.Nested.C189_region
#print axioms Verif.Nested.C189_ragged_region
#print axioms Verif.Region.C19_rows_resolved
#print axioms Verif.Region.C19_succeeds_partial
#print axioms Verif.Region.C19_empty_selection_fails
#print axioms Verif.Nested.C190_same
#print axioms Verif.Nested.C190_total_partial
#print axioms Verif.Nested.C190_empty_fails
#print axioms Verif.Nested.C191_numbers
#print axioms Verif.Nested.C191_total
#print axioms Verif.Share.C192_once
#print axioms Verif.Share.C192_later_first
#print axioms Verif.Share.C192_used
#print axioms Verif.Share.C192_default
#print axioms Verif.Share.C192_copy
#print axioms Verif.Share.C192_merge_order
#print axioms Verif.Share.C192_merge_partial
#print axioms Verif.Share.C192_merge_forgets
#print axioms Verif.Share.C192_merge_fails
#print axioms Verif.Share.C192_self_fails
#print axioms Verif.Share.C193_last_wins_partial
#print axioms Verif.Share.C193_own_namespace
#print axioms Verif.Share.C193_own_namespace_fails
#print axioms Verif.Share.C193_direct
#print axioms Verif.Share.C194_copy
#print axioms Verif.Share.C194_refines_partial
#print axioms Verif.Share.C194_load_partial
#print axioms Verif.Share.C194_add_partial
#print axioms Verif.Share.C194_merge_partial
#print axioms Verif.Share.C194_add_fails
#print axioms Verif.Share.C194_load_fails
#print axioms Verif.AlignedGet.C195_rows
#print axioms Verif.AlignedGet.C195_total
#print axioms Verif.AlignedGet.C195_labels
#print axioms Verif.AlignedGet.C196_all
#print axioms Verif.AlignedGet.C196_total
#print axioms Verif.AlignedGet.C196_names
#print axioms Verif.AlignedGet.C196_ignore_ids
#print axioms Verif.AlignedGet.C196_ignore_ids_partial
#print axioms Verif.AlignedGet.C196_ignore_ids_fails
#print axioms Verif.AlignedGet.C197_pair
#print axioms Verif.AlignedGet.C197_pair_total
#print axioms Verif.AlignedGet.C197_orders
#print axioms Verif.AlignedGet.C197_column
#print axioms Verif.AlignedGet.C197_cell
#print axioms Verif.AlignedGet.C197_agree_partial
#print axioms Verif.AlignedGet.C197_region_fails
#print axioms Verif.AlignedGet.C197_none_fails
#print axioms Verif.AlignedGet.C198_category_partial
#print axioms Verif.AlignedGet.C198_category_fails
#print axioms Verif.AlignedGet.C198_main_partial
#print axioms Verif.AlignedGet.C198_main_fails
#print axioms Verif.AlignedGet.C198_main_row_fails
#print axioms Verif.AlignedGet.C199_pair_partial
#print axioms Verif.AlignedGet.C199_unknown_fails
#print axioms Verif.AlignedGet.C199_id_fails
#print axioms Verif.AlignedGet.C199_name_partial
#print axioms Verif.AlignedGet.C199_self_fails
#print axioms Verif.Region.C20_entry
#print axioms Verif.Region.C20_row
#print axioms Verif.Region.C20_dangling_fails
#print axioms Verif.Same.C200_pass_partial
#print axioms Verif.Same.C200_equal_partial
#print axioms Verif.Same.C200_data_fails
#print axioms Verif.Same.C200_kinds_fails
#print axioms Verif.Same.C201_refl_partial
#print axioms Verif.Same.C201_dict_fails
#print axioms Verif.Same.C201_scalar_data_fails
#print axioms Verif.Same.C201_bytes_fails
#print axioms Verif.Same.C202_symm_partial
#print axioms Verif.Same.C202_fails
#print axioms Verif.Same.C203_written_partial
#print axioms Verif.Same.C203_exported_fails
#print axioms Verif.HerdZip.C204_roundtrip_partial
#print axioms Verif.HerdZip.C204_directory_fails
#print axioms Verif.HerdZip.C205_column_partial
#print axioms Verif.HerdZip.C205_text_fails
#print axioms Verif.HerdZip.C205_key_fails
#print axioms Verif.HerdZip.C206_others_partial
#print axioms Verif.HerdZip.C206_removed_fails
#print axioms Verif.HerdZip.C207_equal_partial
#print axioms Verif.HerdZip.C207_entity_keys_fails
#print axioms Verif.HerdZip.C208_recorded_partial
#print axioms Verif.HerdZip.C208_only
#print axioms Verif.HerdZip.C208_atomic_fails
#print axioms Verif.HerdZip.C209_object_type_partial
#print axioms Verif.HerdZip.C209_empty_fails
#print axioms Verif.Enum.C21_terms_distinct
#print axioms Verif.Enum.C21_added
#print axioms Verif.Enum.C21_added_index
#print axioms Verif.Enum.C21_stable_partial
#print axioms Verif.Enum.C21_fits
#print axioms Verif.Enum.C21_negative_index_fails
#print axioms Verif.Enum.C21_many_terms_fails
#print axioms Verif.Subspec.C210_data_type
#print axioms Verif.Subspec.C210_target_type
#print axioms Verif.Subspec.C210_accepted
#print axioms Verif.Subspec.C210_order
#print axioms Verif.Subspec.C211_retrievable_partial
#print axioms Verif.Subspec.C211_given
#print axioms Verif.Subspec.C211_repeated_fails
#print axioms Verif.Subspec.C212_by_name_partial
#print axioms Verif.Subspec.C212_by_type_partial
#print axioms Verif.Subspec.C212_other_fails
#print axioms Verif.Subspec.C212_bytes_fails
#print axioms Verif.NsCache.C213_files
#print axioms Verif.NsCache.C213_all
#print axioms Verif.NsCache.C213_merged_fails
#print axioms Verif.NsCache.C214_loaded_partial
#print axioms Verif.NsCache.C214_selected_fails
#print axioms Verif.NsCache.C214_selection_fails
#print axioms Verif.NsCache.C214_both_fails
#print axioms Verif.NsCache.C215_cached_partial
#print axioms Verif.NsCache.C215_directory_fails
#print axioms Verif.NsCache.C215_loads_fails
#print axioms Verif.NsCache.C215_namespace_fails
#print axioms Verif.NsCache.C215_source_name
#print axioms Verif.TypeTree.C216_tree
#print axioms Verif.TypeTree.C216_each_partial
#print axioms Verif.TypeTree.C216_missing_fails
#print axioms Verif.TypeTree.C216_self_fails
#print axioms Verif.TypeTree.C216_cycle_fails
#print axioms Verif.VErr.C217_field
#print axioms Verif.VErr.C217_same_partial
#print axioms Verif.VErr.C217_name
#print axioms Verif.VErr.C217_equivalence
#print axioms Verif.VErr.C217_brackets_fails
#print axioms Verif.VErr.C217_other_fails
#print axioms Verif.VErr.C217_text_fails
#print axioms Verif.VErr.C217_location_fails
#print axioms Verif.VErr.C218_first
#print axioms Verif.VErr.C218_result
#print axioms Verif.VErr.C218_again
#print axioms Verif.VErr.C218_lost_fails
#print axioms Verif.VErr.C219_expected_partial
#print axioms Verif.VErr.C219_missing_partial
#print axioms Verif.VErr.C219_quantity_partial
#print axioms Verif.VErr.C219_ambiguous_fails
#print axioms Verif.VErr.C219_classes
#print axioms Verif.Aligned.C22_aligned
#print axioms Verif.Aligned.C22_columns_partial
#print axioms Verif.Aligned.C22_init_fails
#print axioms Verif.Aligned.C22_after_rejection_fails
#print axioms Verif.Aligned.C22_init_order
#print axioms Verif.TableFile.C220_order_partial
#print axioms Verif.TableFile.C220_empty
#print axioms Verif.TableFile.C220_order_fails
#print axioms Verif.TableFile.C220_no_columns
#print axioms Verif.IsoDate.C221_date
#print axioms Verif.IsoDate.C221_datetime_partial
#print axioms Verif.IsoDate.C221_offset_fails
#print axioms Verif.IsoDate.C221_injective
#print axioms Verif.IsoDate.C222_accepted
#print axioms Verif.IsoDate.C222_validated
#print axioms Verif.IsoDate.C222_bytes
#print axioms Verif.IsoDate.C222_no_date_fails
#print axioms Verif.IsoDate.C222_other_formats_fails
#print axioms Verif.Ids.C223_history
#print axioms Verif.Ids.C223_append
#print axioms Verif.Ids.C223_arrays
#print axioms Verif.Ids.C223_list_partial
#print axioms Verif.Ids.C223_first_fails
#print axioms Verif.Ids.C223_empty_array_fails
#print axioms Verif.Ids.C223_unsigned_fails
#print axioms Verif.Ids.C223_reread_partial
#print axioms Verif.Ids.C223_reread_fails
#print axioms Verif.Ids.C223_reread_values
#print axioms Verif.Sparse.C224_values
#print axioms Verif.Sparse.C224_accepts
#print axioms Verif.Sparse.C224_idem
#print axioms Verif.Sparse.C224_lists_partial
#print axioms Verif.Sparse.C224_empty_list_fails
#print axioms Verif.Sparse.C225_dense
#print axioms Verif.Sparse.C225_ok
#print axioms Verif.Sparse.C225_round_trip
#print axioms Verif.Sparse.C225_rejects
#print axioms Verif.Sparse.C225_columns_fails
#print axioms Verif.Monitor.C226_count_partial
#print axioms Verif.Monitor.C226_exhausted
#print axioms Verif.Monitor.C226_for_loop
#print axioms Verif.Monitor.C226_abstract_fails
#print axioms Verif.Monitor.C226_not_yet_fails
#print axioms Verif.Monitor.C226_for_loop_fails
#print axioms Verif.TypeConf.C227_shared_partial
#print axioms Verif.TypeConf.C227_history
#print axioms Verif.TypeConf.C227_independent
#print axioms Verif.TypeConf.C227_all_maps_fails
#print axioms Verif.Builders.C228_contains
#print axioms Verif.Builders.C228_keys
#print axioms Verif.Builders.C228_getitem_partial
#print axioms Verif.Builders.C228_get_partial
#print axioms Verif.Builders.C228_path_fails
#print axioms Verif.Builders.C228_len_fails
#print axioms Verif.Builders.C228_slash_fails
#print axioms Verif.BuilderEq.C229_exact_partial
#print axioms Verif.BuilderEq.C229_equivalence
#print axioms Verif.BuilderEq.C229_dtype_fails
#print axioms Verif.BuilderEq.C229_source_fails
#print axioms Verif.BuilderEq.C229_link_fails
#print axioms Verif.Aligned.C23_rejected_partial
#print axioms Verif.Aligned.C23_category_fails
#print axioms Verif.Aligned.C23_dict_fails
#print axioms Verif.Html.C230_codes_partial
#print axioms Verif.Html.C230_list_fails
#print axioms Verif.Html.C230_nested_fails
#print axioms Verif.Html.C230_number_fails
#print axioms Verif.Html.C230_quote_fails
#print axioms Verif.Html.C231_page_partial
#print axioms Verif.Html.C231_escape_fails
#print axioms Verif.Html.C231_quote_fails
#print axioms Verif.Html.C231_break_fails
#print axioms Verif.Hooks.C232_runs
#print axioms Verif.Hooks.C232_once
#print axioms Verif.Hooks.C232_private
#print axioms Verif.Hooks.C232_order_fails
#print axioms Verif.Hooks.C232_same_name_fails
#print axioms Verif.Hooks.C232_dunder_fails
#print axioms Verif.Hooks.C232_underscore_fails
#print axioms Verif.Raises.C233_raises_partial
#print axioms Verif.Raises.C233_warns_partial
#print axioms Verif.Raises.C233_newline_fails
#print axioms Verif.ReadIo.C234_once
#print axioms Verif.ReadIo.C234_nearest_partial
#print axioms Verif.ReadIo.C234_inherits
#print axioms Verif.ReadIo.C234_returns
#print axioms Verif.ReadIo.C234_cycle_fails
#print axioms Verif.ReadIo.C234_proxy_fails
#print axioms Verif.Repr.C235_fields_partial
#print axioms Verif.Repr.C235_hidden_fails
#print axioms Verif.Repr.C236_list
#print axioms Verif.Repr.C236_dict
#print axioms Verif.Repr.C236_set
#print axioms Verif.Repr.C237_shown_partial
#print axioms Verif.Repr.C237_cycle_fails
#print axioms Verif.Repr.C237_keys_fails
#print axioms Verif.Repr.C237_dict_iff
#print axioms Verif.Wrap.C238_read
#print axioms Verif.Wrap.C238_once
#print axioms Verif.Wrap.C238_iterator_fails
#print axioms Verif.Wrap.C239_list
#print axioms Verif.Wrap.C239_array_partial
#print axioms Verif.Wrap.C239_refused
#print axioms Verif.Wrap.C239_extend_fails
#print axioms Verif.Tree.C24_agree_partial
#print axioms Verif.Tree.C24_data_parent_fails
#print axioms Verif.Tree.C24_equal_children_fails
#print axioms Verif.Wrap.C240_invalid_partial
#print axioms Verif.Wrap.C240_made
#print axioms Verif.Wrap.C240_shape_fails
#print axioms Verif.SpecDict.C241_rebuild
#print axioms Verif.SpecDict.C241_attribute
#print axioms Verif.SpecDict.C241_link
#print axioms Verif.SpecDict.C241_dataset
#print axioms Verif.SpecDict.C241_group
#print axioms Verif.SpecDict.C242_once_partial
#print axioms Verif.SpecDict.C242_group_partial
#print axioms Verif.SpecDict.C242_once_fails
#print axioms Verif.SpecDict.C243_values_partial
#print axioms Verif.SpecDict.C243_refused
#print axioms Verif.SpecDict.C243_values_fails
#print axioms Verif.SpecDict.C244_dims_partial
#print axioms Verif.SpecDict.C244_dims_fails
#print axioms Verif.SpecDict.C245_types_partial
#print axioms Verif.SpecDict.C245_types_fails
#print axioms Verif.SpecDict.C246_attribute
#print axioms Verif.SpecDict.C246_group
#print axioms Verif.SpecDict.C246_dataset
#print axioms Verif.Orphan.C247_warns_partial
#print axioms Verif.Orphan.C247_only
#print axioms Verif.Orphan.C247_warns_fails
#print axioms Verif.Orphan.C248_not_missed_partial
#print axioms Verif.Orphan.C248_final_fails
#print axioms Verif.Orphan.C249_placed_partial
#print axioms Verif.Orphan.C249_placed_fails
#print axioms Verif.Tree.C25_acyclic_partial
#print axioms Verif.Tree.C25_cycle_after_error_fails
#print axioms Verif.Tree.C25_data_parent_fails
#print axioms Verif.AllObj.C250_current_partial
#print axioms Verif.AllObj.C250_refreshed
#print axioms Verif.AllObj.C250_current_fails
#print axioms Verif.AllObj.C251_ends
#print axioms Verif.AllObj.C251_whole_partial
#print axioms Verif.AllObj.C251_whole_fails
#print axioms Verif.AllObj.C252_stays
#print axioms Verif.AllObj.C252_own
#print axioms Verif.StoreType.C253_names_partial
#print axioms Verif.StoreType.C253_agree_partial
#print axioms Verif.StoreType.C253_names_fails
#print axioms Verif.StoreType.C254_fields_partial
#print axioms Verif.StoreType.C254_fields_fails
#print axioms Verif.StoreType.C255_inferred_partial
#print axioms Verif.StoreType.C255_of_a_part
#print axioms Verif.StoreType.C255_known
#print axioms Verif.StoreType.C255_inferred_fails
#print axioms Verif.DocShare.C256_arguments
#print axioms Verif.DocShare.C256_found
#print axioms Verif.DocShare.C257_stay_partial
#print axioms Verif.DocShare.C257_stay_fails
#print axioms Verif.DocShare.C258_macro_partial
#print axioms Verif.DocShare.C258_added
#print axioms Verif.DocShare.C258_macro_fails
#print axioms Verif.SpecKeys.C259_keys
#print axioms Verif.SpecKeys.C259_includes_partial
#print axioms Verif.SpecKeys.C259_loads
#print axioms Verif.SpecKeys.C259_includes_fails
#print axioms Verif.Tree.C26_marks
#print axioms Verif.Tree.C26_all_ancestors
#print axioms Verif.Tree.C26_clear
#print axioms Verif.Tree.C26_attach_marks
#print axioms Verif.Delegate.C260_found_partial
#print axioms Verif.Delegate.C260_empty_fails
#print axioms Verif.Delegate.C260_blank_fails
#print axioms Verif.Delegate.C261_copy_partial
#print axioms Verif.Delegate.C261_lost
#print axioms Verif.Delegate.C261_copy_fails
#print axioms Verif.Hier.C262_exact
#print axioms Verif.Hier.C262_has
#print axioms Verif.Hier.C262_links
#print axioms Verif.Collapse.C263_same_partial
#print axioms Verif.Collapse.C263_same_fails
#print axioms Verif.Tree.C27_all_children
#print axioms Verif.Builders.C28_builder
#print axioms Verif.Once.C28_field_fixed
#print axioms Verif.Once.C28_field_history
#print axioms Verif.Once.C28_field_origin
#print axioms Verif.Once.C28_single
#print axioms Verif.Once.C28_dataset_builder
#print axioms Verif.Once.C28_dataio
#print axioms Verif.Herd.C29_integrity
#print axioms Verif.Herd.C29_foreign_key_fails
#print axioms Verif.Herd.C30_recorded
#print axioms Verif.Herd.C30_object_row
#print axioms Verif.Herd.C30_kept
#print axioms Verif.Herd.C30_exact
#print axioms Verif.Herd.C30_lookup
#print axioms Verif.Herd.C31_unique
#print axioms Verif.Herd.C31_repeat_partial
#print axioms Verif.Herd.C31_repeat_row
#print axioms Verif.Herd.C31_repeat_fails
#print axioms Verif.Herd.C32_uri_stable
#print axioms Verif.Herd.C32_no_uri
#print axioms Verif.Herd.C32_rejected_partial
#print axioms Verif.Herd.C32_missing_key_fails
#print axioms Verif.Builders.C33_names_unique
#print axioms Verif.Builders.C33_rejected_unchanged
#print axioms Verif.Builders.C33_rejected_iff
#print axioms Verif.Builders.C34_stored_partial
#print axioms Verif.Builders.C34_stays
#print axioms Verif.Builders.C34_attribute
#print axioms Verif.Builders.C34_path
#print axioms Verif.Builders.C34_dots
#print axioms Verif.Builders.C34_slash_name_fails
#print axioms Verif.Builders.C34_equal_builder_fails
#print axioms Verif.Manager.C35_inverse_partial
#print axioms Verif.Manager.C35_stable
#print axioms Verif.Manager.C35_prebuilt_fails
#print axioms Verif.Manager.C36_order
#print axioms Verif.Manager.C36_done
#print axioms Verif.Spec.C37_attributes
#print axioms Verif.Spec.C37_named_partial
#print axioms Verif.Spec.C37_typed_partial
#print axioms Verif.Spec.C37_copy
#print axioms Verif.Spec.C37_classified_partial
#print axioms Verif.Spec.C37_kind_fails
#print axioms Verif.Spec.C37_repeated_fails
#print axioms Verif.Spec.C37_type_fails
#print axioms Verif.Catalog.C38_hierarchy_partial
#print axioms Verif.Catalog.C38_hierarchy_shape
#print axioms Verif.Catalog.C38_stale_fails
#print axioms Verif.Catalog.C38_cycle_fails
#print axioms Verif.Catalog.C39_kept
#print axioms Verif.Catalog.C39_rejected_partial
#print axioms Verif.Catalog.C39_repeat
#print axioms Verif.Catalog.C39_rejected_fails
#print axioms Verif.Catalog.C40_subtypes
#print axioms Verif.Catalog.C40_direct
#print axioms Verif.Catalog.C40_unregistered_fails
#print axioms Verif.Catalog.C41_copy_partial
#print axioms Verif.Catalog.C41_copy_fails
#print axioms Verif.Vtypes.C42_exact_partial
#print axioms Verif.Vtypes.C42_fails
#print axioms Verif.Vtypes.C42_order
#print axioms Verif.Vtypes.C43_compound_partial
#print axioms Verif.Vtypes.C43_date_fails
#print axioms Verif.Vtypes.C44_any
#print axioms Verif.Vtypes.C44_shape_partial
#print axioms Verif.Vtypes.C44_alternatives_partial
#print axioms Verif.Vtypes.C44_fails
#print axioms Verif.Vmatch.C45_assignment
#print axioms Verif.Vmatch.C45_total
#print axioms Verif.Vmatch.C45_choice
#print axioms Verif.Vmatch.C45_unambiguous
#print axioms Verif.Vmatch.C46_exact_partial
#print axioms Verif.Vmatch.C46_fails
#print axioms Verif.Vmap.C47_valid_types_partial
#print axioms Verif.Vmap.C47_order_fails
#print axioms Verif.Convert.C48_resolve
#print axioms Verif.Convert.C48_refused_iff
#print axioms Verif.Convert.C48_nested
#print axioms Verif.Convert.C48_reported_dtype_fails
#print axioms Verif.Convert.C48_trailing_empty_fails
#print axioms Verif.Convert.C48_reported_dtype_partial
#print axioms Verif.Convert.C48_names
#print axioms Verif.Convert.C49_alternatives
#print axioms Verif.Convert.C49_single
#print axioms Verif.Convert.C49_scalar_fails
#print axioms Verif.Convert.C49_refinement
#print axioms Verif.Convert.C49_refined_shape_keeps_labels_fails
#print axioms Verif.SortKeys.C50_content
#print axioms Verif.SortKeys.C50_order_partial
#print axioms Verif.SortKeys.C50_name_first
#print axioms Verif.SortKeys.C50_order_fails
#print axioms Verif.Arrays.C51_lt
#print axioms Verif.Arrays.C51_ge
#print axioms Verif.Arrays.C51_le_partial
#print axioms Verif.Arrays.C51_gt_partial
#print axioms Verif.Arrays.C51_eq_partial
#print axioms Verif.Arrays.C51_error
#print axioms Verif.Arrays.C51_max_fails
#print axioms Verif.Arrays.C52_order_partial
#print axioms Verif.Arrays.C52_eq_partial
#print axioms Verif.Arrays.C52_fails
#print axioms Verif.Terms.C53_invariant
#print axioms Verif.Terms.C53_exact_partial
#print axioms Verif.Terms.C53_iterator_fails
#print axioms Verif.Terms.C53_array_fails
#print axioms Verif.Terms.C53_insert_fails
#print axioms Verif.Terms.C54_last_writer_partial
#print axioms Verif.Terms.C54_malformed_fails
#print axioms Verif.Namespace.C55_retry_fails
#print axioms Verif.Namespace.C55_load_keeps_partial
#print axioms Verif.Namespace.C55_failed_unchanged_partial
#print axioms Verif.Spec.C56_numeric_partial
#print axioms Verif.Spec.C56_names_fails
#print axioms Verif.Spec.C56_columns_partial
#print axioms Verif.Shape.C57_exact_partial
#print axioms Verif.Shape.C57_fails
#print axioms Verif.TypeMap.C58_class_most_recent
#print axioms Verif.TypeMap.C58_type_stable
#print axioms Verif.TypeMap.C58_type_first
#print axioms Verif.Slicer.C59_slice
#print axioms Verif.Slicer.C59_list_partial
#print axioms Verif.Slicer.C59_single_fails
#print axioms Verif.Slicer.C59_stable
#print axioms Verif.Utils.C60_getargs
#print axioms Verif.Utils.C60_popargs_partial
#print axioms Verif.Utils.C60_popargs_fails
#print axioms Verif.Utils.C60_popargs_to_dict
#print axioms Verif.LabelledDict.C61_callbacks_partial
#print axioms Verif.LabelledDict.C61_callbacks_fails
#print axioms Verif.LabelledDict.C62_lookup_partial
#print axioms Verif.LabelledDict.C62_lookup_fails
#print axioms Verif.LabelledDict.C62_query
#print axioms Verif.Utils.C63_ragged_sound_partial
#print axioms Verif.Utils.C63_two_levels_partial
#print axioms Verif.Utils.C63_is_ragged_fails
#print axioms Verif.Utils.C63_shape
#print axioms Verif.Utils.C64_forward_partial
#print axioms Verif.Utils.C64_forward_none_fails
#print axioms Verif.GenericChunks.C65_default_buffer
#print axioms Verif.GenericChunks.C65_loop_terminates
#print axioms Verif.GenericChunks.C65_default_chunk_partial
#print axioms Verif.GenericChunks.C65_default_chunk_fails
#print axioms Verif.ChunkStream.C66_fits
#print axioms Verif.ChunkStream.C66_minimal
#print axioms Verif.Ragged.C67_rows_exist
#print axioms Verif.Ragged.C67_slice
#print axioms Verif.Ragged.C67_list_partial
#print axioms Verif.Ragged.C67_mask_partial
#print axioms Verif.Ragged.C67_negative_partial
#print axioms Verif.Ragged.C67_first_from_end_fails
#print axioms Verif.Table.C68_unique_ids
#print axioms Verif.Table.C68_auto_ids
#print axioms Verif.Table.C68_mixed_ids_fails
#print axioms Verif.Docval.C69_accepted_enum
#print axioms Verif.Docval.C69_all_ok_accepted
#print axioms Verif.Region.C70_create_region
#print axioms Verif.Tree.C71_ancestors
#print axioms Verif.Tree.C71_returns
#print axioms Verif.Tree.C71_nearest
#print axioms Verif.Multi.C72_get
#print axioms Verif.Multi.C72_get_only
#print axioms Verif.Multi.C72_add
#print axioms Verif.Multi.C72_create
#print axioms Verif.Multi.C72_rejected
#print axioms Verif.Multi.C72_remove
#print axioms Verif.Multi.C72_detach_partial
#print axioms Verif.Multi.C72_detach_fails
#print axioms Verif.Multi.C72_clear
#print axioms Verif.Builders.C73_source_propagates
#print axioms Verif.Builders.C73_source_returns
#print axioms Verif.Builders.C73_explicit_parent_fails
#print axioms Verif.Once.C74_children_adopted
#print axioms Verif.Once.C74_required_name
#print axioms Verif.Once.C74_rejected_fails
#print axioms Verif.Herd.C75_from_zip_partial
#print axioms Verif.Herd.C75_from_zip_accepts
#print axioms Verif.Herd.C75_negative_index_fails
#print axioms Verif.Herd.C76_flat
#print axioms Verif.Herd.C76_empty_fails
#print axioms Verif.Herd.C77_key_found_partial
#print axioms Verif.Herd.C77_key_sound
#print axioms Verif.Herd.C77_all
#print axioms Verif.Herd.C77_unknown_object_fails
#print axioms Verif.Herd.C77_two_keys_fails
#print axioms Verif.Aligned.C78_add_row
#print axioms Verif.Aligned.C78_accepts
#print axioms Verif.Aligned.C78_read_back
#print axioms Verif.Aligned.C78_row
#print axioms Verif.Aligned.C78_add_column
#print axioms Verif.Aligned.C78_add_category
#print axioms Verif.Aligned.C78_name_clash_fails
#print axioms Verif.Aligned.C78_id_in_data_fails
#print axioms Verif.Arrays.C79_ne_partial
#print axioms Verif.Arrays.C79_range_partial
#print axioms Verif.Arrays.C79_list_partial
#print axioms Verif.Arrays.C79_list_fails
#print axioms Verif.Arrays.C79_range_fails
#print axioms Verif.Vtypes.C80_synonyms_partial
#print axioms Verif.Vtypes.C80_fails
#print axioms Verif.Vmatch.C81_sound
#print axioms Verif.Vmatch.C81_complete_partial
#print axioms Verif.Vmatch.C81_fails
#print axioms Verif.Terms.C82_validate_partial
#print axioms Verif.Terms.C82_fails
#print axioms Verif.Manager.C83_once
#print axioms Verif.Manager.C84_targets
#print axioms Verif.Spec.C85_override_partial
#print axioms Verif.Spec.C85_dtype_fails
#print axioms Verif.Convert.C86_silent_keeps_dtypes
#print axioms Verif.Convert.C86_silent_array_untouched
#print axioms Verif.Convert.C86_values_kept_fails
#print axioms Verif.Convert.C86_values_kept_partial
#print axioms Verif.Convert.C87_ascii_is_ascii
#print axioms Verif.Convert.C87_ascii_injective_fails
#print axioms Verif.Convert.C87_ascii_faithful_partial
#print axioms Verif.Convert.C87_number_refused
#print axioms Verif.Convert.C87_number_array_refused_fails
#print axioms Verif.Convert.C88_open_dtype_untouched
#print axioms Verif.Convert.C88_numeric_refuses_fails
#print axioms Verif.Convert.C88_numeric_refuses_partial
#print axioms Verif.Namespace.C89_reload
#print axioms Verif.Namespace.C89_not_replaced
#print axioms Verif.Namespace.C90_closure
#print axioms Verif.Namespace.C90_order
#print axioms Verif.Namespace.C90_cycle_refused
#print axioms Verif.Namespace.C90_include_loaded_fails
#print axioms Verif.Namespace.C91_report_complete_fails
#print axioms Verif.Namespace.C91_report_partial
#print axioms Verif.Namespace.C92_reachable
#print axioms Verif.Namespace.C92_types
#print axioms Verif.Namespace.C92_file_specs
#print axioms Verif.Namespace.C93_partial_file_fails
#print axioms Verif.Namespace.C93_filter_partial
#print axioms Verif.Namespace.C94_same_file_name_fails
#print axioms Verif.Namespace.C94_independent_partial
#print axioms Verif.Namespace.C95_merge_atomic_fails
#print axioms Verif.Namespace.C95_merge_partial
#print axioms Verif.TypeMap.C96_attr_last
#print axioms Verif.TypeMap.C96_attr_fails
#print axioms Verif.TypeMap.C96_attr_agrees_partial
#print axioms Verif.TypeMap.C97_same_class_again
#print axioms Verif.TypeMap.C97_generated
#print axioms Verif.TypeMap.C97_keeps
#print axioms Verif.TypeMap.C98_total_partial
#print axioms Verif.TypeMap.C98_cycle
#print axioms Verif.TypeMap.C98_total_fails
#print axioms Verif.TypeMap.C99_linked
#print axioms Verif.TypeMap.C99_linked_rev
#print axioms Verif.TypeMap.C99_late_registration_fails
