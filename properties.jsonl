{"id": "C01", "title": "LabelledDict keys always agree with the values' key attribute", "statement": "After any sequence of operations on a LabelledDict (add, d[k]=v, del d[k], pop, popitem, clear), successful or rejected, every stored value v is stored under exactly the key v.<key_attr>, and no key occurs twice.", "quantifier": "all finite histories of dict operations on all keys and values", "why_tests_cant": "The invariant ranges over every interleaving of accepted and rejected operations; tests fix a few histories.", "anchors": ["src/hdmf/utils.py:LabelledDict.__setitem__", "src/hdmf/utils.py:LabelledDict.add", "src/hdmf/utils.py:LabelledDict.pop"]}
{"id": "C02", "title": "LabelledDict never overwrites and rejected operations change nothing", "statement": "Storing under a key already present, a value with no key attribute, or a value whose key attribute differs from the key is rejected, with TypeError, ValueError and KeyError respectively in that order of precedence; any rejected operation leaves the dict exactly as before; any accepted store leaves every other entry and its order as before.", "quantifier": "all dict states, keys and values", "why_tests_cant": "Needs every state/key/value combination, including those where several rejection reasons apply at once.", "anchors": ["src/hdmf/utils.py:LabelledDict.__setitem__"]}
{"id": "C03", "title": "docval binds every argument to the parameter the caller meant", "statement": "If a docval-decorated call is accepted then the function receives exactly one value for each declared parameter: the keyword value if that parameter was given by keyword, else the value of the positional argument at that parameter's position, else the default; a parameter given both ways is rejected.", "quantifier": "all parameter lists and all positional/keyword argument combinations", "why_tests_cant": "The number of signature/call combinations is unbounded and the parser keeps a hand-maintained positional cursor.", "anchors": ["src/hdmf/utils.py:__parse_args", "src/hdmf/utils.py:docval"]}
{"id": "C04", "title": "docval admits only values of the declared types", "statement": "If a docval-decorated call is accepted (type checking on), every value given by the caller for a declared parameter satisfies the declared type, or is None for a parameter whose default is None or that declares allow_none; and if the call is refused for a type reason, some value does not.", "quantifier": "all parameter lists, calls and values", "why_tests_cant": "Soundness of the decorator is used by every API entry point, for every value.", "anchors": ["src/hdmf/utils.py:__parse_args", "src/hdmf/utils.py:check_type"]}
{"id": "C05", "title": "docval never discards an argument", "statement": "If a docval-decorated call is accepted, every positional and every keyword value supplied by the caller reaches the function (as a declared parameter, or as an extra when allow_extra is set).", "quantifier": "all parameter lists and calls", "why_tests_cant": "Silent loss is only visible for particular combinations of extra arguments and allow_extra.", "anchors": ["src/hdmf/utils.py:__parse_args"]}
{"id": "C06", "title": "Shape constraints on arguments are decided exactly", "statement": "A value passes a declared shape iff it has the same number of dimensions and every declared dimension that is not None equals the actual one; for a list of alternatives, iff it passes one of them.", "quantifier": "all shapes and shape specifications", "why_tests_cant": "Infinite input space of shapes.", "anchors": ["src/hdmf/utils.py:__shape_okay", "src/hdmf/utils.py:__shape_okay_multi"]}
{"id": "C07", "title": "GenericDataChunkIterator buffers partition the array", "statement": "For every array shape and every accepted buffer shape, the buffer selections produced by the iterator cover every index of the array exactly once and contain no index outside it; the number of selections equals num_buffers, and no selection is larger than the buffer shape in any axis.", "quantifier": "all ranks, array shapes and buffer shapes", "why_tests_cant": "Off-by-one errors at ragged edges depend on the divisibility pattern over all axes.", "anchors": ["src/hdmf/data_utils.py:GenericDataChunkIterator.__init__", "src/hdmf/data_utils.py:GenericDataChunkIterator._get_data"]}
{"id": "C08", "title": "Writing buffers reproduces the array", "statement": "Writing each buffer yielded by a GenericDataChunkIterator into its selection of an empty dataset, in any order, yields a dataset equal to the source array.", "quantifier": "all arrays, buffer shapes and orders of writing", "why_tests_cant": "Quantifies over every permutation of buffers and every array.", "anchors": ["src/hdmf/data_utils.py:GenericDataChunkIterator.__next__", "src/hdmf/backends/hdf5/h5_utils.py:HDF5IODataChunkIteratorQueue._write_chunk"]}
{"id": "C09", "title": "DataChunkIterator loses and reorders nothing", "statement": "For every finite stream and buffer size, the chunks yielded by DataChunkIterator, written at their selections, place the k-th item of the stream at position k for every non-None item and leave positions of None items untouched; selections are pairwise disjoint and increasing, and no chunk holds more than buffer_size items.", "quantifier": "all finite streams (with None gaps anywhere) and all buffer sizes >= 1", "why_tests_cant": "Gap handling has boundary cases at every alignment of gaps and buffer ends.", "anchors": ["src/hdmf/data_utils.py:DataChunkIterator._read_next_chunk", "src/hdmf/data_utils.py:DataChunkIterator.__next__"]}
{"id": "C10", "title": "Queued chunked writes are independent of each other", "statement": "Exhausting the HDF5 write queue terminates for finite iterators, and each dataset ends with exactly the content it would have if its iterator had been drained alone, whatever other iterators are queued and in whatever order.", "quantifier": "all queues of datasets and finite chunk streams", "why_tests_cant": "Round-robin interleavings are unbounded.", "anchors": ["src/hdmf/backends/hdf5/h5_utils.py:HDF5IODataChunkIteratorQueue.exhaust_queue", "src/hdmf/backends/hdf5/h5_utils.py:HDF5IODataChunkIteratorQueue._write_chunk"]}
{"id": "C11", "title": "Ragged columns return what was added", "statement": "After any sequence of add_row/add_vector calls on a ragged column, reading row i returns exactly the i-th vector added, for every i, including empty vectors.", "quantifier": "all histories of added vectors and all row numbers", "why_tests_cant": "Requires induction over the history; each row's bounds depend on all earlier rows.", "anchors": ["src/hdmf/common/table.py:VectorIndex.add_vector", "src/hdmf/common/table.py:VectorIndex.__getitem_helper", "src/hdmf/common/table.py:VectorIndex.get"]}
{"id": "C12", "title": "Ragged index well-formedness", "statement": "After any sequence of additions the index of a ragged column is non-decreasing, has one entry per row and ends at the length of the target column, so consecutive rows are contiguous and cover the target exactly.", "quantifier": "all histories of additions", "why_tests_cant": "Inductive invariant over histories.", "anchors": ["src/hdmf/common/table.py:VectorIndex.add_vector", "src/hdmf/common/table.py:VectorIndex.add_row"]}
{"id": "C13", "title": "Index integer width always suffices", "statement": "Every value stored in a VectorIndex is representable in the index's unsigned integer width at all times, and widening never changes a stored value.", "quantifier": "all histories of additions, for totals below 2^64", "why_tests_cant": "Boundary behaviour at 2^8, 2^16, 2^32 is out of reach of tests.", "anchors": ["src/hdmf/common/table.py:VectorIndex.__check_precision", "src/hdmf/common/table.py:VectorIndex.__adjust_precision"]}
{"id": "C14", "title": "All columns of a table have as many entries as the table has rows", "statement": "After any sequence of successful add_row and add_column calls, every column (through its index if ragged) has exactly len(table) entries, and len(table) equals the number of ids.", "quantifier": "all histories of table operations, any number and kind of columns", "why_tests_cant": "Invariant over histories.", "anchors": ["src/hdmf/common/table.py:DynamicTable.add_row", "src/hdmf/common/table.py:DynamicTable.add_column"]}
{"id": "C15", "title": "Rows read back as written", "statement": "After any sequence of successful add_row calls, table[i] returns for every column the value passed in the i-th call, and for every earlier row the value is unaffected by later calls.", "quantifier": "all histories of rows, all column kinds (plain, ragged)", "why_tests_cant": "Induction over histories.", "anchors": ["src/hdmf/common/table.py:DynamicTable.add_row", "src/hdmf/common/table.py:DynamicTable.get"]}
{"id": "C16", "title": "A rejected add_row leaves the table unchanged", "statement": "If add_row raises, the table's ids and all columns are as before the call.", "quantifier": "all tables and all rejected rows", "why_tests_cant": "Crash points inside the operation are not enumerated by tests.", "anchors": ["src/hdmf/common/table.py:DynamicTable.add_row"]}
{"id": "C17", "title": "Adding a column never disturbs existing columns", "statement": "add_column with data of the wrong length or an existing name is rejected; if accepted, existing columns, ids and their order are unchanged and the new column is last in colnames and holds the given data.", "quantifier": "all tables and all new columns", "why_tests_cant": "All table states.", "anchors": ["src/hdmf/common/table.py:DynamicTable.add_column"]}
{"id": "C18", "title": "Doubly ragged columns return what was added", "statement": "After any sequence of add_row calls on a column with two levels of index, reading row i returns exactly the i-th list of lists added.", "quantifier": "all histories of lists of lists, and all row numbers", "why_tests_cant": "Two interacting index levels; induction over histories.", "anchors": ["src/hdmf/common/table.py:VectorIndex.add_vector", "src/hdmf/common/table.py:VectorIndex.get", "src/hdmf/common/table.py:DynamicTable.__build_columns"]}
{"id": "C19", "title": "Table regions resolve duplicates and order exactly", "statement": "Selecting several rows through a DynamicTableRegion returns, for each selected region entry in order and with repetition, exactly the row of the target table that entry points to.", "quantifier": "all target tables, region contents and selections", "why_tests_cant": "The implementation deduplicates, sorts and re-expands; correctness is a permutation argument over all lists.", "anchors": ["src/hdmf/common/table.py:DynamicTableRegion.get", "src/hdmf/common/table.py:DynamicTableRegion._index_lol"]}
{"id": "C20", "title": "Out-of-range table region access is rejected", "statement": "Reading entry k of a DynamicTableRegion of length n raises IndexError iff k is outside [-n, n).", "quantifier": "all integers k and all n", "why_tests_cant": "Boundary cases for all n.", "anchors": ["src/hdmf/common/table.py:DynamicTableRegion.get"]}
{"id": "C21", "title": "Enumerated columns keep their terms", "statement": "After any sequence of add_row calls on an EnumData column (by term or by index), every earlier entry still resolves to the same term, terms are never duplicated by adding rows by term, and every index fits the column's integer width.", "quantifier": "all histories of additions", "why_tests_cant": "Precision changes rewrite all stored values; depends on number of terms.", "anchors": ["src/hdmf/common/table.py:EnumData.add_row", "src/hdmf/common/table.py:EnumData.__add_term", "src/hdmf/common/table.py:_uint_precision"]}
{"id": "C22", "title": "Aligned tables stay aligned", "statement": "After any sequence of add_row, add_column and add_category calls on an AlignedDynamicTable that succeed, all category tables have the same number of rows as the main table.", "quantifier": "all histories of operations", "why_tests_cant": "Invariant over histories and over numbers of categories.", "anchors": ["src/hdmf/common/alignedtable.py:AlignedDynamicTable.add_row", "src/hdmf/common/alignedtable.py:AlignedDynamicTable.add_category"]}
{"id": "C23", "title": "Rejected aligned-table rows change nothing", "statement": "If AlignedDynamicTable.add_row raises, the main table and all category tables keep their rows, and the caller's data dict is not modified.", "quantifier": "all tables and rejected rows", "why_tests_cant": "Crash points between the per-category appends.", "anchors": ["src/hdmf/common/alignedtable.py:AlignedDynamicTable.add_row"]}
{"id": "C24", "title": "Container parent and children agree", "statement": "After any sequence of parent assignments, additions and removals, an object c lists x among its children iff x.parent is c, and no child is listed twice.", "quantifier": "all histories of operations over any number of containers", "why_tests_cant": "Relational invariant over a heap, for all histories.", "anchors": ["src/hdmf/container.py:AbstractContainer.parent", "src/hdmf/container.py:AbstractContainer._remove_child", "src/hdmf/container.py:AbstractContainer.reset_parent"]}
{"id": "C25", "title": "Container ancestry is acyclic", "statement": "No sequence of public operations on containers makes a container its own ancestor (so get_ancestor, set_modified and traversal terminate).", "quantifier": "all histories of parent assignments", "why_tests_cant": "Reachability over an unbounded heap.", "anchors": ["src/hdmf/container.py:AbstractContainer.parent", "src/hdmf/container.py:AbstractContainer.get_ancestor"]}
{"id": "C26", "title": "Modification propagates to every ancestor", "statement": "After set_modified() on a container, it and every container above it are marked modified and nothing else changes its mark; set_modified(False) affects only the container itself.", "quantifier": "all container trees", "why_tests_cant": "All tree shapes and depths.", "anchors": ["src/hdmf/container.py:AbstractContainer.set_modified"]}
{"id": "C27", "title": "all_children enumerates the subtree exactly once", "statement": "all_children of a container returns it and every descendant exactly once, and nothing else, and terminates on every finite tree.", "quantifier": "all finite trees", "why_tests_cant": "All tree shapes.", "anchors": ["src/hdmf/container.py:AbstractContainer.all_children"]}
{"id": "C28", "title": "Write-once attributes stay fixed", "statement": "Once a container field has a non-None value, every further attempt to set it to a non-None value raises and leaves it; setting None is ignored; likewise container_source, Builder.source/parent, DataIO.data and Spec.parent.", "quantifier": "all histories of assignments", "why_tests_cant": "Histories.", "anchors": ["src/hdmf/container.py:AbstractContainer._setter", "src/hdmf/container.py:AbstractContainer.container_source", "src/hdmf/build/builders.py:Builder.source", "src/hdmf/build/builders.py:DatasetBuilder.data", "src/hdmf/data_utils.py:DataIO.data", "src/hdmf/spec/spec.py:Spec.parent"]}
{"id": "C29", "title": "HERD relations never dangle", "statement": "After any sequence of add_ref calls, accepted or rejected, every row of the relation tables refers to existing rows of the objects, keys, entities and files tables.", "quantifier": "all histories of add_ref calls with new or existing keys, entities and objects", "why_tests_cant": "Referential integrity over histories.", "anchors": ["src/hdmf/common/resources.py:HERD.add_ref", "src/hdmf/common/resources.py:HERD._add_object_key", "src/hdmf/common/resources.py:HERD._add_entity_key"]}
{"id": "C30", "title": "HERD records what was asked", "statement": "After an accepted add_ref(container, field, key, entity), looking up the entities of that container and field returns the entity under that key name, and all previously retrievable (object, key, entity) triples remain retrievable.", "quantifier": "all HERD states and accepted calls", "why_tests_cant": "Depends on the whole history of keys and their reuse.", "anchors": ["src/hdmf/common/resources.py:HERD.add_ref", "src/hdmf/common/resources.py:HERD.get_object_entities"]}
{"id": "C31", "title": "HERD does not duplicate rows", "statement": "Repeating an accepted add_ref call with the same string key and entity leaves the tables as they were; entity ids are unique in the entities table.", "quantifier": "all HERD states", "why_tests_cant": "Histories.", "anchors": ["src/hdmf/common/resources.py:HERD.add_ref"]}
{"id": "C32", "title": "HERD entity URIs are stable", "statement": "Once an entity id is registered, its URI never changes; a new entity without a URI is rejected before any table is modified.", "quantifier": "all histories", "why_tests_cant": "Histories and crash points.", "anchors": ["src/hdmf/common/resources.py:HERD.add_ref", "src/hdmf/common/resources.py:HERD.get_entity"]}
{"id": "C33", "title": "Builder names are unique within a group", "statement": "After any sequence of set_group/set_dataset/set_link/set_attribute calls on a GroupBuilder, no name occurs in two of its categories, and an attempt to reuse a name in another category is rejected without changing the builder.", "quantifier": "all histories of calls", "why_tests_cant": "Histories.", "anchors": ["src/hdmf/build/builders.py:GroupBuilder.__set_builder", "src/hdmf/build/builders.py:GroupBuilder.__check_obj_type", "src/hdmf/build/builders.py:GroupBuilder.set_attribute"]}
{"id": "C34", "title": "Builder lookup finds what was stored", "statement": "After set_group/set_dataset/set_link of a builder b, group[b.name] returns b until replaced; path lookup g['a/b/c'] equals chained lookup through groups.", "quantifier": "all builder trees and paths", "why_tests_cant": "All tree shapes and path lengths.", "anchors": ["src/hdmf/build/builders.py:GroupBuilder.__getitem__", "src/hdmf/build/builders.py:GroupBuilder.__get_rec"]}
{"id": "C35", "title": "Each container is built once", "statement": "Within one BuildManager, building or looking up the same unmodified container always yields the same builder, building different containers never yields the same builder, and get_builder/get_container relations are inverse to each other after any history of build, construct and prebuilt calls.", "quantifier": "all histories of build manager calls", "why_tests_cant": "Cache coherence over histories.", "anchors": ["src/hdmf/build/manager.py:BuildManager.build", "src/hdmf/build/manager.py:BuildManager.construct", "src/hdmf/build/manager.py:BuildManager.prebuilt"]}
{"id": "C36", "title": "All queued references are resolved", "statement": "When a root build returns, every reference queued during the build (including those queued while resolving other references) has been processed exactly once in order, and the queue is empty.", "quantifier": "all build trees and queued actions", "why_tests_cant": "Re-entrant queueing.", "anchors": ["src/hdmf/build/manager.py:BuildManager.build", "src/hdmf/build/manager.py:BuildManager.queue_ref", "src/hdmf/build/manager.py:BuildManager.__add_refs"]}
{"id": "C37", "title": "Specs inherit everything exactly once", "statement": "After resolving a type spec against its parent, every attribute, dataset, group and link of the parent is present under its name exactly once, entries defined by the child take precedence over the parent's, and nothing else is added; inherited, overridden and new entries are classified correctly.", "quantifier": "all pairs of specs", "why_tests_cant": "All combinations of names and types.", "anchors": ["src/hdmf/spec/spec.py:BaseStorageSpec.resolve_spec", "src/hdmf/spec/spec.py:GroupSpec.resolve_spec", "src/hdmf/spec/spec.py:BaseStorageSpec.is_inherited_attribute", "src/hdmf/spec/spec.py:BaseStorageSpec.is_overridden_attribute"]}
{"id": "C38", "title": "Type hierarchies are correct", "statement": "get_hierarchy(t) is t followed by the chain of registered parents up to a root, regardless of the order in which types were registered and queried.", "quantifier": "all histories of register_spec and get_hierarchy", "why_tests_cant": "The memo makes the answer depend on history.", "anchors": ["src/hdmf/spec/catalog.py:SpecCatalog.get_hierarchy", "src/hdmf/spec/catalog.py:SpecCatalog.register_spec"]}
{"id": "C39", "title": "A registered type is never replaced", "statement": "Once a type is registered, attempts to register a different spec under the same name are rejected and leave the catalog (specs, sources, hierarchy) unchanged; re-registering the same spec from the same source is accepted and changes nothing.", "quantifier": "all catalog histories", "why_tests_cant": "Histories, including rejected calls.", "anchors": ["src/hdmf/spec/catalog.py:SpecCatalog.register_spec"]}
{"id": "C40", "title": "Subtypes and hierarchies are consistent", "statement": "u is in get_subtypes(t) iff t is a strict ancestor of u (t in get_hierarchy(u), t != u), for all registered types.", "quantifier": "all catalogs with acyclic inheritance", "why_tests_cant": "All inheritance forests.", "anchors": ["src/hdmf/spec/catalog.py:SpecCatalog.get_subtypes", "src/hdmf/spec/catalog.py:SpecCatalog.get_hierarchy"]}
{"id": "C41", "title": "Copying a catalog preserves its answers", "statement": "copy(catalog) answers get_spec, get_hierarchy, get_registered_types and get_spec_source_file as the original does.", "quantifier": "all catalogs", "why_tests_cant": "All catalogs.", "anchors": ["src/hdmf/spec/catalog.py:SpecCatalog.__copy__"]}
{"id": "C42", "title": "Data type validation accepts exactly the allowed precisions", "statement": "The validator accepts a value of a numeric dtype for a specified dtype iff it is of the same kind (or an unsigned integer for a signed/numeric spec as documented) with at least the specified precision; acceptance is reflexive and transitive along widening.", "quantifier": "all pairs of dtypes", "why_tests_cant": "The relation is a finite table, but its consequences (transitivity, compound) range over all values.", "anchors": ["src/hdmf/validate/validator.py:check_type", "src/hdmf/validate/validator.py:__allowable"]}
{"id": "C43", "title": "Every field of a compound dtype is validated", "statement": "A compound value is accepted iff every one of its fields is accepted for the corresponding field of the spec.", "quantifier": "all lists of fields", "why_tests_cant": "Lists of any length and order.", "anchors": ["src/hdmf/validate/validator.py:check_type"]}
{"id": "C44", "title": "Shape validation is exact", "statement": "The validator accepts a shape iff it matches the specified shape (None matches any) or one of the specified alternatives.", "quantifier": "all shapes and specifications", "why_tests_cant": "Infinite input space.", "anchors": ["src/hdmf/validate/validator.py:check_shape"]}
{"id": "C45", "title": "Each child is matched to at most one sub-spec, of its own name and type", "statement": "When validating a group every child builder is assigned to exactly one sub-spec whose name (if any) and type (or a supertype) it has, or reported as unmatched; it is reported unmatched only if no sub-spec fits.", "quantifier": "all lists of children and sub-specs", "why_tests_cant": "All assignments.", "anchors": ["src/hdmf/validate/validator.py:SpecMatcher.assign_to_specs", "src/hdmf/validate/validator.py:SpecMatcher._best_matching_spec"]}
{"id": "C46", "title": "Quantities are enforced", "statement": "A group is reported as having too few/too many of a sub-spec iff the number of children matched to it violates its quantity (1, '?', '*', '+', n).", "quantifier": "all counts and quantities", "why_tests_cant": "All naturals.", "anchors": ["src/hdmf/validate/validator.py:GroupValidator.__incorrect_quantity", "src/hdmf/validate/validator.py:GroupValidator.__validate_presence_and_quantity"]}
{"id": "C47", "title": "Validators know all subtypes", "statement": "For every registered type t, the valid types for t computed by ValidatorMap are t and all its descendants, irrespective of the order of registration.", "quantifier": "all inheritance forests and registration orders", "why_tests_cant": "Order dependence.", "anchors": ["src/hdmf/validate/validator.py:ValidatorMap.__init__", "src/hdmf/validate/validator.py:ValidatorMap.valid_types"]}
{"id": "C48", "title": "Numeric conversion never lowers precision", "statement": "When writing a value for a spec with numeric dtype, the dtype used has at least the item size of both the given value and the spec, and is of the spec's kind unless conversion is refused.", "quantifier": "all pairs of numeric dtypes", "why_tests_cant": "Stated for every pair and propagated through nested lists.", "anchors": ["src/hdmf/build/objectmapper.py:ObjectMapper.__resolve_numeric_dtype", "src/hdmf/build/objectmapper.py:ObjectMapper.convert_dtype"]}
{"id": "C49", "title": "Dimension labels come from the most specific matching shape", "statement": "The labels attached to a written dataset are those of a shape alternative that the data matches, having the fewest None entries among all matching alternatives; none are attached iff no alternative matches.", "quantifier": "all shapes, alternatives and labels", "why_tests_cant": "Infinite input space.", "anchors": ["src/hdmf/build/objectmapper.py:ObjectMapper.__get_dimension_labels_from_spec"]}
{"id": "C50", "title": "Spec files keep all content when keys are sorted", "statement": "Writing a spec to YAML reorders dict keys but drops, adds and duplicates none, at any depth; keys of the fixed order come first in that order.", "quantifier": "all nested dict/list structures", "why_tests_cant": "All trees.", "anchors": ["src/hdmf/spec/write.py:YAMLSpecWriter.sort_keys"]}
{"id": "C51", "title": "Sorted array queries are exact", "statement": "For a sorted array a and a value v, a<v, a<=v, a>v, a>=v and a==v select exactly the positions whose element satisfies the comparison.", "quantifier": "all sorted arrays and values", "why_tests_cant": "All arrays; boundary values.", "anchors": ["src/hdmf/array.py:AbstractSortedArray.__lt__", "src/hdmf/array.py:AbstractSortedArray.__le__", "src/hdmf/array.py:AbstractSortedArray.__eq__"]}
{"id": "C52", "title": "LinSpace queries are exact", "statement": "For a LinSpace and a value v, the comparison operators select exactly the positions whose element satisfies the comparison.", "quantifier": "all start/stop/step and values", "why_tests_cant": "Boundary values outside the range.", "anchors": ["src/hdmf/array.py:LinSpace.find_point", "src/hdmf/array.py:LinSpace.__getidx__"]}
{"id": "C53", "title": "Wrapped values are always terms of the term set", "statement": "After construction and any sequence of append and extend calls, accepted or rejected, every element of a TermSetWrapper is a term of its TermSet; rejected calls leave the value unchanged.", "quantifier": "all histories of append/extend", "why_tests_cant": "Histories.", "anchors": ["src/hdmf/term_set.py:TermSetWrapper.__validate", "src/hdmf/term_set.py:TermSetWrapper.append", "src/hdmf/term_set.py:TermSetWrapper.extend"]}
{"id": "C54", "title": "Type configuration merging is last-writer-wins", "statement": "After loading several type configuration files, the configuration of a data type is that of the last loaded file that mentions it, and loading never removes the configuration of another type.", "quantifier": "all sequences of loads and unloads", "why_tests_cant": "Histories.", "anchors": ["src/hdmf/term_set.py:TypeConfigurator.load_type_config", "src/hdmf/term_set.py:TypeConfigurator.get_config"]}
{"id": "C55", "title": "Failed namespace loads can be retried", "statement": "If loading a namespace raises, the catalog is as before, so the load can be retried after the cause is fixed.", "quantifier": "all catalogs and failure points", "why_tests_cant": "Crash points.", "anchors": ["src/hdmf/spec/namespace.py:NamespaceCatalog.load_namespaces", "src/hdmf/spec/namespace.py:NamespaceCatalog.__load_spec_file"]}
{"id": "C56", "title": "Compound dtype refinement only widens within a kind", "statement": "A compound dtype of a child spec is accepted as refining its parent's only if each shared column keeps its kind and does not lose precision.", "quantifier": "all pairs of dtypes", "why_tests_cant": "All pairs of names.", "anchors": ["src/hdmf/spec/spec.py:DatasetSpec.__is_sub_dtype", "src/hdmf/spec/spec.py:DatasetSpec.__get_prec_level", "src/hdmf/spec/spec.py:DatasetSpec.resolve_spec"]}
{"id": "C57", "title": "Shape comparison of two arrays is exact", "statement": "assertEqualShape reports equality iff the compared axes exist in both arrays and have equal length, or one is unlimited when that is to be ignored; its reported unmatched axes are exactly the differing ones.", "quantifier": "all shapes and axis lists", "why_tests_cant": "Infinite input space.", "anchors": ["src/hdmf/data_utils.py:assertEqualShape"]}
{"id": "C58", "title": "Class/type registration is consistent", "statement": "After any history of register_container_type calls, get_container_cls_dt of a class returns the first type registered for the nearest registered class in its MRO, and get_cls of a type returns the class most recently registered for it.", "quantifier": "all histories and class hierarchies", "why_tests_cant": "Histories.", "anchors": ["src/hdmf/build/manager.py:TypeMap.register_container_type", "src/hdmf/build/manager.py:TypeMap.get_container_cls_dt"]}
{"id": "C59", "title": "Region slicers behave as slices", "statement": "For every dataset and region, len(slicer) equals the number of selected elements and slicer[i] is the i-th element of dataset restricted to the region.", "quantifier": "all datasets, regions and indices", "why_tests_cant": "All slices incl. negative steps.", "anchors": ["src/hdmf/region.py:ListSlicer"]}
{"id": "C60", "title": "getargs/popargs return the requested values or fail without effect", "statement": "getargs returns the values of the requested names in order; popargs returns the same and removes exactly those names; if a name is missing both raise and leave the dict unchanged.", "quantifier": "all dicts and name lists", "why_tests_cant": "Crash points: a failing popargs in the middle.", "anchors": ["src/hdmf/utils.py:getargs", "src/hdmf/utils.py:popargs"]}
{"id": "C61", "title": "LabelledDict callbacks tell the true story", "statement": "After any history of LabelledDict operations, for every value the number of add_callable calls minus the number of remove_callable calls made with it equals the number of times it is stored.", "quantifier": "all finite histories of operations", "why_tests_cant": "Histories mixing accepted and rejected operations with arbitrary keys.", "anchors": ["src/hdmf/utils.py:LabelledDict"]}
{"id": "C62", "title": "LabelledDict lookups return what is stored", "statement": "d[k] returns v iff v is stored under k; d['attr == val'] returns exactly the stored values whose attribute attr equals val.", "quantifier": "all histories, keys and queries", "why_tests_cant": "All keys, including ones that look like queries.", "anchors": ["src/hdmf/utils.py:LabelledDict.__getitem__"]}
{"id": "C63", "title": "Raggedness and shape of nested lists are reported correctly", "statement": "is_ragged(data) is True iff the nested list is not a rectangular array; for a rectangular array get_data_shape(data) is its shape.", "quantifier": "all nested lists", "why_tests_cant": "Infinite input space, any depth.", "anchors": ["src/hdmf/utils.py:is_ragged", "src/hdmf/utils.py:get_data_shape"]}
{"id": "C64", "title": "Forwarding keyword arguments preserves them", "statement": "call_docval_func(f, kwargs) delivers to f every declared parameter's value found in kwargs, and defaults for the others.", "quantifier": "all signatures and kwargs dicts", "why_tests_cant": "All combinations of required/optional parameters and values.", "anchors": ["src/hdmf/utils.py:fmt_docval_args", "src/hdmf/utils.py:call_docval_func"]}
{"id": "C65", "title": "Default chunk and buffer shapes are always usable", "statement": "For every non-empty array shape, item size, chunk size and buffer size in megabytes, the chunk shape and buffer shape computed by default by GenericDataChunkIterator satisfy the constructor's own shape requirements (each axis at least 1 and at most the array's extent, buffer a multiple of the chunk or the full extent), and computing them terminates.", "quantifier": "All array shapes without empty axes, item sizes, chunk size limits and scale factors", "why_tests_cant": "Tests try a few shapes; whether the shrinking loop terminates and whether the result is legal depends on arithmetic over all shapes and sizes.", "anchors": ["src/hdmf/data_utils.py: GenericDataChunkIterator._get_default_chunk_shape", "src/hdmf/data_utils.py: GenericDataChunkIterator._get_default_buffer_shape"]}
{"id": "C66", "title": "Datasets grow exactly as far as a chunk needs", "statement": "Before a chunk is written the dataset is extended so that every axis holds the chunk's selection; no axis ever shrinks, and an axis that has to grow ends exactly where the selection ends.", "quantifier": "All dataset extents and all chunk selections (tuples of slices and integers, of any rank)", "why_tests_cant": "Tests try a few ranks and bounds; off-by-one errors at particular selection kinds or axes need all of them.", "anchors": ["src/hdmf/data_utils.py: DataChunk.get_min_bounds", "src/hdmf/backends/hdf5/h5_utils.py: HDF5IODataChunkIteratorQueue._write_chunk"]}
{"id": "C67", "title": "Negative and multiple row selections of ragged columns", "statement": "Selecting rows of a ragged column by a slice, a list of row numbers or a boolean mask returns exactly the rows selected, in order; a negative row number -k means row n-k.", "quantifier": "All ragged columns, slices, index lists and masks", "why_tests_cant": "Boundary rows, empty selections and negative numbers interact with the start/end computation; tests cover a handful.", "anchors": ["src/hdmf/common/table.py: VectorIndex.get", "src/hdmf/common/table.py: VectorIndex.__getitem__"]}
{"id": "C68", "title": "Row ids are unique when enforced and sequential when automatic", "statement": "If every add_row uses enforce_unique_id=True the ids of a table built without data are pairwise distinct; if no id is ever passed, the ids are 0,1,2,... in row order.", "quantifier": "all histories of add_row/add_column", "why_tests_cant": "Invariant over histories; mixing explicit and automatic ids is a corner no fixed example settles.", "anchors": ["src/hdmf/common/table.py:DynamicTable.add_row"]}
{"id": "C69", "title": "Enumerated arguments are decided exactly", "statement": "If a docval call is accepted, each value received by a parameter that declares enum (and no shape) is one of the enumerated values, None being let through only for parameters with a default; conversely a correctly formed call whose values all have the declared types and are among the enumerated ones is accepted.", "quantifier": "all signatures, calls and values", "why_tests_cant": "Soundness and completeness over all signatures and calls.", "anchors": ["src/hdmf/utils.py:__check_enum", "src/hdmf/utils.py:__parse_args"]}
{"id": "C70", "title": "Regions created from a table refer to its rows", "statement": "DynamicTable.create_region with a list returns a region holding exactly that list, all of whose entries are rows of the table, and raises IndexError if any is not; with a slice it holds exactly the rows Python's slice selects.", "quantifier": "All tables, lists of integers and slices", "why_tests_cant": "Boundary values of start, stop and step, including negative ones, against every table length.", "anchors": ["src/hdmf/common/table.py:DynamicTable.create_region"]}
{"id": "C71", "title": "Ancestors are found, nearest first", "statement": "get_ancestors returns exactly the chain of parents of an object, nearest first; get_ancestor(t) the nearest of type t or None; both return for every object in a tree built without errors.", "quantifier": "all container trees", "why_tests_cant": "Trees of any depth and every placement of types; termination.", "anchors": ["src/hdmf/container.py:AbstractContainer.get_ancestor", "src/hdmf/container.py:AbstractContainer.get_ancestors"]}
{"id": "C73", "title": "Setting a source reaches exactly the sub-builders without one", "statement": "Assigning Builder.source (also by assigning a parent) gives the source to the builder and to every sub-builder at any depth reached through builders that have none; no existing source is changed; the assignment returns for every graph of builders.", "quantifier": "all reachable builder graphs, including shared and cyclic ones", "why_tests_cant": "The traversal changes what it tests while it runs; sharing and cycles matter.", "anchors": ["src/hdmf/build/builders.py:GroupBuilder.source", "src/hdmf/build/builders.py:Builder.parent"]}
{"id": "C74", "title": "Child fields adopt their values", "statement": "After an accepted assignment to a child field every container in the value has a parent (its old one, else the container assigned to), a required name is enforced, and an assignment that raises leaves the field unset.", "quantifier": "all field configurations, values and prior states", "why_tests_cant": "Combination of three nested setters over all configurations and list values.", "anchors": ["src/hdmf/container.py:Container._setter"]}
{"id": "C75", "title": "Tables read from a zip are consistent", "statement": "HERD.from_zip accepts exactly archives in which every index in the relation and object tables refers to an existing row.", "quantifier": "all six tables with arbitrary integer indices", "why_tests_cant": "Any combination of tables; the checks are written per column.", "anchors": ["src/hdmf/common/resources.py:HERD.from_zip"]}
{"id": "C76", "title": "The flat table shows exactly the recorded references", "statement": "HERD.to_dataframe returns, for every object-key row and every entity-key row with the same key, one row with the right file, object, key and entity, hence exactly the retrievable (object, key, entity) triples.", "quantifier": "all reachable HERD states", "why_tests_cant": "Join over all histories, with keys shared between objects and entities.", "anchors": ["src/hdmf/common/resources.py:HERD.to_dataframe"]}
{"id": "C77", "title": "A key can be looked up by name and object", "statement": "After an accepted add_ref with a string key, HERD.get_key(name, container) returns the key of that name that this object uses and that the entity was attached to; without a container it returns all keys of that name; for unknown names or objects it raises ValueError.", "quantifier": "all reachable HERD states, names and objects", "why_tests_cant": "Name reuse across objects makes the answer depend on the history.", "anchors": ["src/hdmf/common/resources.py:HERD.get_key", "src/hdmf/common/resources.py:HERD.add_ref"]}
{"id": "C78", "title": "Aligned tables add and read rows table by table", "statement": "An accepted AlignedDynamicTable.add_row adds one row to the main table (the entries that are not categories) and to each category (its entries); it is accepted whenever each table accepts its part; table[i] returns the rows i of all tables, and these hold the values given, whatever calls follow; add_column and add_category change only the table addressed.", "quantifier": "all aligned tables, rows, histories", "why_tests_cant": "Composition over arbitrary numbers of categories and histories.", "anchors": ["src/hdmf/common/alignedtable.py:AlignedDynamicTable.add_row", "src/hdmf/common/alignedtable.py:AlignedDynamicTable.get", "src/hdmf/common/alignedtable.py:AlignedDynamicTable.add_column", "src/hdmf/common/alignedtable.py:AlignedDynamicTable.add_category"]}
{"id": "C79", "title": "Set, range and inequality queries on sorted arrays are exact", "statement": "For a sorted array a: a != v selects exactly the positions of elements different from v; a == (lo, hi) exactly those of elements from lo up to but excluding hi; a == [v1, v2, ...] exactly those of elements equal to one of the values.", "quantifier": "all sorted arrays, values, ranges and lists of values", "why_tests_cant": "The results merge positions and slices in ways that depend on how many matches there are and whether they are neighbours; tests cover a few combinations.", "anchors": ["src/hdmf/array.py:AbstractSortedArray.__eq__", "src/hdmf/array.py:AbstractSortedArray.__ne__"]}
{"id": "C80", "title": "Synonymous dtype names validate alike", "statement": "Two names of the same dtype in a spec (e.g. 'int' and 'int32', 'text' and 'utf8') accept exactly the same data.", "quantifier": "all pairs of dtype names and all received types", "why_tests_cant": "The acceptance table is derived by nested loops; agreement of synonyms is a property of all pairs and all data.", "anchors": ["src/hdmf/validate/validator.py:check_type", "src/hdmf/spec/spec.py:DtypeHelper"]}
{"id": "C81", "title": "A group is accepted iff its children can be assigned to its sub-specs", "statement": "No quantity error is reported for a group iff there is an assignment of its children to the sub-specs they fit such that every quantity is respected.", "quantifier": "all lists of sub-specs and children, in any order", "why_tests_cant": "The greedy assignment depends on the order of children and sub-specs.", "anchors": ["src/hdmf/validate/validator.py:SpecMatcher", "src/hdmf/validate/validator.py:GroupValidator.__validate_presence_and_quantity"]}
{"id": "C82", "title": "A term is valid iff the schema permits it", "statement": "TermSet.validate(term) is True iff the term is one of the permissible values of the schema and False otherwise.", "quantifier": "all schemas and strings", "why_tests_cant": "Depends on the meaning and prefixes of every term.", "anchors": ["src/hdmf/term_set.py:TermSet.validate", "src/hdmf/term_set.py:TermSet.__perm_value_key_info"]}
{"id": "C83", "title": "A container is mapped at most once per build", "statement": "During one root build, whatever references and shared children there are, the mapper of an unmodified container that already has a builder does not run, and the mapper of a container that had no builder before runs at most once, if the build returns normally or no container is its own descendant.", "quantifier": "all mapper behaviours (also with containers that contain themselves), all histories in which prebuilt registers only objects not yet registered, all containers", "why_tests_cant": "Depends on sharing in the container graph and on the cache left by earlier calls.", "anchors": ["src/hdmf/build/manager.py:BuildManager.build", "src/hdmf/build/manager.py:BuildManager.__is_active_builder"]}
{"id": "C84", "title": "Reference targets are built when a build returns", "statement": "When a root build returns normally, the container it was called with and every target looked up while resolving the queued references has a builder in the manager.", "quantifier": "all mapper behaviours, all histories", "why_tests_cant": "Order of queueing and building is arbitrary.", "anchors": ["src/hdmf/build/manager.py:BuildManager.__add_refs", "src/hdmf/build/objectmapper.py:ObjectMapper.__get_target_builder"]}
{"id": "C85", "title": "An override is at least as strict as what it overrides", "statement": "A dataset spec that overrides a dataset of the parent type keeps every constraint the parent put on it: its attributes, the columns of a compound dtype, its dtype, shape and dims, unless it restates them more strictly.", "quantifier": "all pairs of dataset specs", "why_tests_cant": "Combinations of stated and omitted keys in both specs.", "anchors": ["src/hdmf/spec/spec.py:DatasetSpec.resolve_spec", "src/hdmf/spec/spec.py:BaseStorageSpec.resolve_spec"]}
{"id": "C86", "title": "Silent conversions change nothing", "statement": "If writing a value for a numeric spec gives no conversion warning, every array and scalar in it keeps its dtype (arrays are not even copied); whenever a dtype is changed a warning is given and the dtype chosen holds every value of the given one.", "quantifier": "all values (nested lists of arrays and scalars) and all numeric specs", "why_tests_cant": "Quantifies over all nestings and dtype pairs.", "anchors": ["src/hdmf/build/objectmapper.py:ObjectMapper.convert_dtype", "src/hdmf/build/objectmapper.py:ObjectMapper.__resolve_numeric_dtype"]}
{"id": "C87", "title": "Text conversion is faithful", "statement": "Under an ascii spec what is written is ASCII and different strings are written as different bytes; numbers are refused under text and ascii specs.", "quantifier": "all strings and all values", "why_tests_cant": "Infinite string space; collisions are rare points.", "anchors": ["src/hdmf/build/objectmapper.py:ObjectMapper.convert_dtype", "src/hdmf/build/objectmapper.py:_ascii", "src/hdmf/build/objectmapper.py:_unicode"]}
{"id": "C88", "title": "Open dtypes leave values alone", "statement": "With no dtype or dtype 'numeric' in the spec the value is written exactly as given, and 'numeric' accepts only values all of whose pieces are integers or floats.", "quantifier": "all values", "why_tests_cant": "Nested inputs of any depth and mixture.", "anchors": ["src/hdmf/build/objectmapper.py:ObjectMapper.convert_dtype", "src/hdmf/build/objectmapper.py:ObjectMapper.__check_edgecases"]}
{"id": "C89", "title": "Reloading a namespace file is harmless", "statement": "Loading a namespace file that was loaded before gives the same report and changes nothing, and a namespace in the catalog is never replaced by a later load.", "quantifier": "all catalogs, files and later contents of files", "why_tests_cant": "Depends on what files say at any later time.", "anchors": ["src/hdmf/spec/namespace.py:NamespaceCatalog.load_namespaces"]}
{"id": "C90", "title": "Including types brings in what they need", "statement": "Including types from a loaded namespace brings in exactly those types and everything they depend on, with the same specs and source files, each after what it depends on, whatever the order asked for; every loaded namespace can be included.", "quantifier": "all catalogs, requests and orders", "why_tests_cant": "Closure over arbitrary dependency graphs.", "anchors": ["src/hdmf/spec/namespace.py:NamespaceCatalog.__register_type", "src/hdmf/spec/namespace.py:NamespaceCatalog.__register_dependent_types"]}
{"id": "C91", "title": "Reported dependencies are complete", "statement": "The report of a load names, for every namespace included, all types brought in from it.", "quantifier": "all namespace definitions", "why_tests_cant": "All schemas; the type map relies on it.", "anchors": ["src/hdmf/spec/namespace.py:NamespaceCatalog.__load_namespace"]}
{"id": "C92", "title": "A loaded namespace has exactly its types", "statement": "After any history of loads, the types of a loaded namespace are exactly those its files define and those it includes with their dependencies; each is found under its name with its file as source, and the types listed for a file are those it defines.", "quantifier": "all histories and namespace definitions", "why_tests_cant": "Histories with failures.", "anchors": ["src/hdmf/spec/namespace.py:NamespaceCatalog.__load_namespace", "src/hdmf/spec/namespace.py:NamespaceCatalog.__load_spec_file", "src/hdmf/spec/namespace.py:NamespaceCatalog.get_types"]}
{"id": "C93", "title": "Asking for some types of a file loads those", "statement": "A schema entry that names types of a source file loads those types and no others.", "quantifier": "all files and requests", "why_tests_cant": "All files.", "anchors": ["src/hdmf/spec/namespace.py:NamespaceCatalog.__load_spec_file"]}
{"id": "C94", "title": "Namespaces from different places do not interfere", "statement": "Whether a namespace can be loaded depends only on its own files and on the namespaces it includes.", "quantifier": "all catalogs and namespaces", "why_tests_cant": "Depends on everything loaded before.", "anchors": ["src/hdmf/spec/namespace.py:NamespaceCatalog.__load_spec_file"]}
{"id": "C95", "title": "Merging catalogs is all or nothing", "statement": "Merging a catalog adds all its namespaces and lists their types, or raises and changes nothing.", "quantifier": "all pairs of catalogs", "why_tests_cant": "Crash points.", "anchors": ["src/hdmf/spec/namespace.py:NamespaceCatalog.merge", "src/hdmf/spec/namespace.py:NamespaceCatalog.add_namespace"]}
{"id": "C96", "title": "Class attributes name the type that is written", "statement": "The namespace and data_type attributes set on a class by register_container_type name the type its objects are written as.", "quantifier": "all histories of registrations and loads", "why_tests_cant": "A test registers a class once; the two records diverge only after further registrations.", "anchors": ["src/hdmf/build/manager.py:TypeMap.register_container_type", "src/hdmf/build/manager.py:TypeMap.get_container_cls_dt"]}
{"id": "C97", "title": "Generated classes are unique and mirror the type hierarchy", "statement": "get_dt_container_cls returns the same class for a type every time until another class is registered for it; a class it generates is new, is written as that type, has the class of the parent type as its parent class, and generation never changes existing registrations.", "quantifier": "all type maps, catalogs of any depth, recursion through dependencies, and later histories", "why_tests_cant": "Generation recurses through arbitrary dependency graphs; a nested call could register the type being generated.", "anchors": ["src/hdmf/build/manager.py:TypeMap.get_dt_container_cls", "src/hdmf/build/manager.py:TypeMap.__check_dependent_types", "src/hdmf/build/manager.py:TypeMap.__get_parent_cls", "src/hdmf/build/manager.py:TypeMap.__get_container_cls"]}
{"id": "C98", "title": "Every type with a specification gets a class", "statement": "If a type and everything it depends on have specifications, get_dt_container_cls returns a class for it.", "quantifier": "all catalogs", "why_tests_cant": "Depends on the shape of the dependency graph.", "anchors": ["src/hdmf/build/manager.py:TypeMap.get_dt_container_cls", "src/hdmf/build/manager.py:TypeMap.__check_dependent_types"]}
{"id": "C99", "title": "A type included from another namespace has one class", "statement": "After load_namespaces, a type taken from a source namespace has the same class when asked for under either namespace, in either order.", "quantifier": "all loads, and all calls in between that register nothing for the type itself", "why_tests_cant": "Interleavings of lookups, generation and loads.", "anchors": ["src/hdmf/build/manager.py:TypeMap.load_namespaces", "src/hdmf/build/manager.py:TypeMap.__get_container_cls"]}
{"id": "C100", "title": "The mapper of an object", "statement": "get_map returns a mapper of the class registered for the nearest class in the MRO with the specification of the type of the object or builder.", "quantifier": "all histories", "why_tests_cant": "Mappers are cached per class, so the order of calls matters.", "anchors": ["src/hdmf/build/manager.py:TypeMap.get_map", "src/hdmf/build/manager.py:TypeMap.register_map"]}
{"id": "C101", "title": "A copied type map behaves like the original", "statement": "Copying a type map succeeds; the copy has the same class for each type and writes each class as the same type.", "quantifier": "all reachable type maps", "why_tests_cant": "The copy replays registrations in another order than they were made.", "anchors": ["src/hdmf/build/manager.py:TypeMap.__copy__", "src/hdmf/build/manager.py:TypeMap.merge"]}
{"id": "C102", "title": "Objects are read back as the class they were written from", "statement": "The namespace and type written for an object of a registered class lead get_cls back to that class.", "quantifier": "all histories", "why_tests_cant": "Histories of registrations.", "anchors": ["src/hdmf/build/manager.py:TypeMap.build", "src/hdmf/build/manager.py:TypeMap.get_cls", "src/hdmf/build/manager.py:TypeMap.get_container_cls_dt"]}
{"id": "C103", "title": "get_container_classes lists the classes of a namespace", "statement": "get_container_classes(namespace) lists the registered classes whose type is in the namespace and nothing else.", "quantifier": "all histories", "why_tests_cant": "Placeholders are left by loads.", "anchors": ["src/hdmf/build/manager.py:TypeMap.get_container_classes"]}
{"id": "C104", "title": "A failed build leaves nothing behind", "statement": "After a root build that raised, the container that failed is not cached and can be built again, later builds of unrelated containers are not affected, and repeating the build after the cause was removed gives the same result as if the failed build had not happened.", "quantifier": "all mapper behaviours, all histories, all points of failure", "why_tests_cant": "State left behind by an exception depends on where it was raised.", "anchors": ["src/hdmf/build/manager.py:BuildManager.build", "src/hdmf/build/manager.py:BuildManager.__add_refs"]}
{"id": "C105", "title": "A modified container is mapped once per build", "statement": "During one root build the mapper of a container that was read from a file and modified since runs at most once, however often the container is met.", "quantifier": "all container graphs with shared children", "why_tests_cant": "Needs a shared, modified, previously built container.", "anchors": ["src/hdmf/build/manager.py:BuildManager.build", "src/hdmf/build/manager.py:BuildManager.__is_active_builder"]}
{"id": "C106", "title": "A builder without validation errors conforms to its spec", "statement": "If validation of a builder returns an empty list of errors then the builder conforms to the specification at every depth: required attributes are there and have the dtype and shape of the spec, reference attributes point to a builder of the target type, datasets have the dtype and shape of the spec, the children of every group can be distributed over the sub-specs in the allowed numbers, links occur only where allowed, and every child conforms to the spec of its own type, of the type the sub-spec asks for and of the sub-spec itself. Conversely a conforming builder gives no errors.", "quantifier": "all specs (any nesting, any namespace), all builder trees and graphs with links, all depths", "why_tests_cant": "The claim is recursive over unboundedly deep specs and builders, and each case goes through the matching of children to sub-specs.", "anchors": ["src/hdmf/validate/validator.py:GroupValidator.validate", "src/hdmf/validate/validator.py:DatasetValidator.validate", "src/hdmf/validate/validator.py:AttributeValidator.validate", "src/hdmf/validate/validator.py:BaseStorageValidator.validate"]}
{"id": "C107", "title": "The list of errors is complete, without duplicates, and located", "statement": "The errors of a group contain no error twice, contain all errors of every child with respect to its own type, to the type asked for and to the sub-spec, and every error is located at a builder below the one validated or at one of its attributes.", "quantifier": "all specs, all builders, all depths", "why_tests_cant": "Duplicates are removed by comparing strings; whether anything else is removed depends on all combinations of errors.", "anchors": ["src/hdmf/validate/validator.py:GroupValidator._remove_duplicates", "src/hdmf/validate/validator.py:GroupValidator.__validate_children", "src/hdmf/validate/validator.py:GroupValidator.__get_child_validators", "src/hdmf/validate/errors.py:Error.__eq__"]}
{"id": "C108", "title": "Validation terminates with a list of errors", "statement": "Validation of any builder returns a list of errors; it does not raise.", "quantifier": "all specs, all builders, including links in cycles", "why_tests_cant": "Needs specs and data that do not go together in every way; the cyclic case needs an unbounded stack.", "anchors": ["src/hdmf/validate/validator.py:ValidatorMap.validate", "src/hdmf/validate/validator.py:GroupValidator.validate", "src/hdmf/validate/validator.py:get_type", "src/hdmf/validate/validator.py:check_type"]}
{"id": "C109", "title": "Validation does not depend on how the data is stored", "statement": "The same data gives the same validation errors whether it is held in lists, in a numpy array or in a dataset of an open file, and whether a reference was just made or read.", "quantifier": "all arrays of any number of dimensions and any size, all dtypes and shapes in specs", "why_tests_cant": "Sizes and numbers of dimensions are unbounded; the representations take different branches.", "anchors": ["src/hdmf/validate/validator.py:get_type", "src/hdmf/utils.py:get_data_shape", "src/hdmf/validate/validator.py:DatasetValidator.validate", "src/hdmf/validate/validator.py:AttributeValidator.validate"]}
{"id": "C110", "title": "Validated values are those of the spec", "statement": "If no error is reported for an attribute then it has the fixed value of its spec, if any, and every element of the data is of the dtype of the spec.", "quantifier": "all attributes, all lists", "why_tests_cant": "A check of all elements against only the first cannot be told apart by samples that are homogeneous.", "anchors": ["src/hdmf/validate/validator.py:AttributeValidator.validate", "src/hdmf/validate/validator.py:get_type"]}
{"id": "C72", "title": "Objects in a multi-container are found under their names", "statement": "For a MultiContainerInterface container: get(name) / c[name] returns x iff x is in the dictionary and has that name; get() returns x iff it is the only one; an accepted add puts exactly the given objects in and loses nothing; nothing is ever overwritten; create makes, names, parents and adds one new object; del/pop/clear remove exactly what they say and detach an object from the container iff the container was its parent.", "quantifier": "all histories of calls (new, parent assignment, reset_parent, add, create, attribute assignment, del, pop, popitem, clear) on any number of containers, attributes and objects, including calls that raise", "why_tests_cant": "depends on the whole history, on sharing of objects between containers, and on the interplay of LabelledDict callbacks and the parent setter", "anchors": ["src/hdmf/container.py: MultiContainerInterface.__make_add, __make_get, __make_getitem, __make_create, __make_getter, __make_setter", "src/hdmf/utils.py: LabelledDict"]}
{"id": "C111", "title": "Objects held by a multi-container are never orphans", "statement": "An object in the dictionary of a container has a parent (objects without one make a later write fail with OrphanContainerBuildError).", "quantifier": "all histories of calls, all containers and dictionaries", "why_tests_cant": "an object may be shared between containers, and loses its parent through one of them or through reset_parent", "anchors": ["src/hdmf/container.py: MultiContainerInterface.__make_add, __make_getter._remove_child, AbstractContainer.reset_parent"]}
{"id": "C112", "title": "A rejected add leaves no trace", "statement": "If add raises, the objects given are as they were before: not children of the container, not in the dictionary.", "quantifier": "all histories, all arguments of add", "why_tests_cant": "the error path is tested for its message, not for the state it leaves behind", "anchors": ["src/hdmf/container.py: MultiContainerInterface.__make_add"]}
{"id": "C113", "title": "A multi-container only holds objects of its declared types", "statement": "Every object in the dictionary is an instance of one of the types declared in __clsconf__.", "quantifier": "all histories, all arguments (single objects, lists, tuples, dicts)", "why_tests_cant": "docval checks the argument, of which the objects may be elements", "anchors": ["src/hdmf/container.py: MultiContainerInterface.__make_add, __make_setter"]}
{"id": "C114", "title": "Assigning the attribute sets its content", "statement": "After an accepted c.attr = xs the attribute holds exactly xs.", "quantifier": "all histories, all lists", "why_tests_cant": "tests assign once, to an empty attribute", "anchors": ["src/hdmf/container.py: MultiContainerInterface.__make_setter"]}
{"id": "C115", "title": "A container is read back as it was written", "statement": "If a container can be stored by its specification, building it and constructing the resulting builder gives the same container: object id, name, data type, parent and every attribute; every container below it comes back too, and no other; only the modified flag and the source change.", "quantifier": "every set of types, every tree of containers of any size and depth, every heap of attribute values", "why_tests_cant": "unit tests round-trip chosen containers of chosen types; the claim is about every type and every tree", "anchors": ["src/hdmf/build/objectmapper.py::ObjectMapper.build", "src/hdmf/build/objectmapper.py::ObjectMapper.construct", "src/hdmf/build/manager.py::BuildManager.build", "src/hdmf/build/manager.py::BuildManager.construct"]}
{"id": "C116", "title": "A builder identifies its container", "statement": "Every builder made from a container carries its name (or the name fixed by the type), data type, namespace and object id, and is a dataset iff the type is; containers with different object ids never share a builder.", "quantifier": "every container and type", "why_tests_cant": "tests look at builders of chosen types", "anchors": ["src/hdmf/build/objectmapper.py::ObjectMapper.build", "src/hdmf/build/manager.py::TypeMap.build"]}
{"id": "C117", "title": "What a builder stores as an attribute", "statement": "Each attribute in the specification of a container is stored with the fixed value of the specification, else with the value the container holds (a container as a reference), else with the default, else not at all.", "quantifier": "every container, type and attribute specification", "why_tests_cant": "tests try one combination of fixed value, value and default at a time", "anchors": ["src/hdmf/build/objectmapper.py::ObjectMapper.build", "src/hdmf/build/objectmapper.py::ObjectMapper.__add_attributes"]}
{"id": "C118", "title": "Empty groups are left out", "statement": "A group without data type is written iff it is required or some specification in it, at any depth, has something to store.", "quantifier": "every type, every nesting of groups, every container", "why_tests_cant": "the nesting of groups is unbounded", "anchors": ["src/hdmf/build/objectmapper.py::ObjectMapper.__add_groups", "src/hdmf/build/builders.py::GroupBuilder.is_empty"]}
{"id": "C119", "title": "What cannot be written makes the build fail", "statement": "A build succeeds only if every container that a specification selects has a parent (or is already built from another file) and is modified, exported or already written; and only if the build of every modified child succeeds.", "quantifier": "every type and every tree of containers", "why_tests_cant": "a container that is silently left out shows up only on reading; tests cover single failing children", "anchors": ["src/hdmf/build/objectmapper.py::ObjectMapper.__add_containers"]}
{"id": "C120", "title": "Warnings about quantities", "statement": "A build warns about the containers of a specification iff their number is not allowed by its quantity.", "quantifier": "every quantity and every number of containers", "why_tests_cant": "tests use a few numbers", "anchors": ["src/hdmf/build/objectmapper.py::ObjectMapper.__check_quantity"]}
{"id": "C121", "title": "A link that is not there is not read", "statement": "An optional link for which the container holds nothing is read back as nothing.", "quantifier": "every type with links and every container", "why_tests_cant": "tests have one link per target type", "anchors": ["src/hdmf/build/objectmapper.py::ObjectMapper.__get_subspec_values"]}
{"id": "C122", "title": "The order of a collection survives", "statement": "The containers of a collection are read back in the order in which they were held.", "quantifier": "every collection, of own and linked containers, in any order", "why_tests_cant": "tests use collections of own containers only", "anchors": ["src/hdmf/build/objectmapper.py::ObjectMapper.__add_containers", "src/hdmf/build/objectmapper.py::ObjectMapper.__get_sub_builders"]}
{"id": "C123", "title": "A container for a specification with a name is found again", "statement": "The container held for a specification with a name is read back into the same attribute.", "quantifier": "every type, named specification and container", "why_tests_cant": "tests give the container the name of the specification", "anchors": ["src/hdmf/build/objectmapper.py::ObjectMapper.__add_containers", "src/hdmf/build/objectmapper.py::ObjectMapper.__get_sub_builders"]}
{"id": "C124", "title": "Each specification reads its own members", "statement": "For a specification without a name, exactly the containers it selected on writing are read back.", "quantifier": "every type, every set of specifications, every container", "why_tests_cant": "tests have one specification per type hierarchy", "anchors": ["src/hdmf/build/objectmapper.py::ObjectMapper.__get_sub_builders", "src/hdmf/build/objectmapper.py::ObjectMapper.__get_subspec_values"]}
{"id": "C125", "title": "Reading a file ends, and fails only for cause", "statement": "HDF5IO.read_builder returns for every file without an endless chain of members, links and reference attributes, given a high enough recursion limit, and then gives the same builders for every higher limit; a file with such a chain can never be read. Among the files without such a chain, only those with a missing object, an attribute that is a region reference, a scalar dataset that refers to a group, or a group with an attribute and a member of one name are refused.", "quantifier": "all graphs of HDF5 groups, datasets, links, reference attributes and scalar references; all recursion limits", "why_tests_cant": "The set of link and reference graphs is unbounded; tests read a few files that the library wrote itself, none of which refers back to an enclosing group.", "anchors": ["src/hdmf/backends/hdf5/h5tools.py: HDF5IO.read_builder, __read_group, __read_dataset, __read_attrs, __read_ref", "src/hdmf/build/builders.py: GroupBuilder.__init__"]}
{"id": "C126", "title": "One builder per object in the file", "statement": "After reading, every place that leads to an HDF5 object - the group that holds it, soft and external links, reference attributes - has the same builder, the one that get_builder returns for the object, and different objects have different builders.", "quantifier": "all files that can be read, all objects in them and all places that lead to them", "why_tests_cant": "Sharing depends on the order in which members, links and references are visited; tests check identity for one or two links.", "anchors": ["src/hdmf/backends/hdf5/h5tools.py: HDF5IO.__read_group, __read_dataset, __read_ref, __set_built, __get_built, get_builder"]}
{"id": "C127", "title": "Nothing in a file is lost or invented by reading", "statement": "The builder of every HDF5 object has exactly the attributes of the object (without the location of the cached specifications), the builder of a group exactly the groups, datasets and unbroken links it holds, each under its own name, and the builder of a dataset its data.", "quantifier": "all files that can be read and all objects in them", "why_tests_cant": "Whether an entry survives depends on the other entries of its group; tests look at files with distinct names.", "anchors": ["src/hdmf/backends/hdf5/h5tools.py: HDF5IO.__read_group, __read_dataset, __read_attrs"]}
{"id": "C128", "title": "Every object of a file that was read can be looked up", "statement": "After reading a file, get_builder returns a builder for every HDF5 object that can be reached from the root, so that every element of a dataset of references can be resolved, and raises ValueError for any other object.", "quantifier": "all files that can be read and all HDF5 objects", "why_tests_cant": "The cache is filled as a side effect of the traversal; whether it is complete depends on every branch of it.", "anchors": ["src/hdmf/backends/hdf5/h5tools.py: HDF5IO.get_builder, __set_built, read_builder", "src/hdmf/backends/hdf5/h5_utils.py: BuilderResolverMixin, BuilderH5ReferenceDataset"]}
{"id": "C129", "title": "A new file shows exactly the builders that were written to it", "statement": "After write_builder on a new file every GroupBuilder and DatasetBuilder of the tree is at its path with its data and exactly its attributes, every LinkBuilder is a link at its path, there is nothing else in the file, and no deferred call is left. A write that fails leaves nothing behind.", "quantifier": "all trees of builders with distinct names in each group whose references lead into the tree", "why_tests_cant": "Attributes and references are set at different times, some from a queue after the traversal; tests look at trees with one or two references.", "anchors": ["src/hdmf/backends/hdf5/h5tools.py: HDF5IO.write_builder, write_group, write_dataset, write_link, set_attributes, __add_refs"]}
{"id": "C130", "title": "References lead to their builders or the write fails", "statement": "Every reference attribute and every element of a dataset of references is written as a reference to the object of the very builder it names; if a builder is not in the file there is an error, and after success no reference dangles and no dataset of references is left unfilled.", "quantifier": "all trees of builders and all references in them", "why_tests_cant": "Whether a deferred call succeeds depends on what the other calls have done before, and a failing call is tried again; tests have one forward reference.", "anchors": ["src/hdmf/backends/hdf5/h5tools.py: HDF5IO.__add_refs, __queue_ref, __get_ref, __get_path, _create_ref, write_dataset"]}
{"id": "C131", "title": "Appending does not alter what is in a file", "statement": "Writing to a file that already has content, whether or not it succeeds, removes no object and changes no content and no attribute of objects already there, other than the attributes the tree sets on groups it shares with the file.", "quantifier": "all files, all trees of builders, all sets of builders marked as written, also for writes that fail", "why_tests_cant": "The unchanged part is everything that a test does not look at.", "anchors": ["src/hdmf/backends/hdf5/h5tools.py: HDF5IO.write_builder, write_group, write_dataset, set_attributes"]}
{"id": "C132", "title": "Appending writes everything that is new", "statement": "When a tree is written of which part is already in the file, all new groups, datasets and links are written with their content and attributes, groups that were there get the new attributes, and so do datasets; nothing else is new.", "quantifier": "all files, all trees that extend what was written and whose references lead into the tree or the file", "why_tests_cant": "The written part and the new part can be interleaved in any way in the tree.", "anchors": ["src/hdmf/backends/hdf5/h5tools.py: HDF5IO.write_builder, write_group, write_dataset, write_link", "src/hdmf/backends/utils.py: WriteStatusTracker"]}
{"id": "C133", "title": "Writing again is harmless", "statement": "Writing the same tree a second time raises no error and leaves the file as it is; and a write that has failed because a builder was missing can be completed by writing again with it.", "quantifier": "all trees that can be written", "why_tests_cant": "Tests write a second time with one or two builders and do not compare all objects.", "anchors": ["src/hdmf/backends/hdf5/h5tools.py: HDF5IO.write_builder, get_written, __add_refs"]}
{"id": "C134", "title": "Links lead to their targets", "statement": "A LinkBuilder becomes a soft link with the path of its target if the target comes from the same file as the link (or from the exported file, or from the file that is written), an external link to the file and path of the target otherwise, and the write fails if that file is not known or the target is nowhere.", "quantifier": "all trees of builders, all links in them, writing and exporting", "why_tests_cant": "The choice depends on the combination of the sources of link and target, the export source and the file name.", "anchors": ["src/hdmf/backends/hdf5/h5tools.py: HDF5IO.write_link, __get_path"]}
{"id": "C135", "title": "What was written is read back", "statement": "A tree of builders that is written to a new file can be read back from it, and what is read has every builder of the tree at its place, of the same kind, with the same name, data, attributes, groups, datasets and links and no others, where each reference and link leads to the builder of its target.", "quantifier": "all trees of builders whose references and links lead into the tree", "why_tests_cant": "Round trip tests are run for particular trees; the statement is about the composition of two recursive traversals with caches and deferred calls.", "anchors": ["src/hdmf/backends/hdf5/h5tools.py: HDF5IO.write_builder, read_builder, write_group, write_dataset, write_link, __read_group, __read_dataset, __read_attrs, __add_refs"]}
{"id": "C136", "title": "The namespaces of a file are loaded each once and after those they include", "statement": "HDF5IO.load_namespaces orders the namespaces cached in a file so that each appears exactly once, and so that a namespace comes after every namespace of the file it includes, directly or not, unless that one depends on it in turn.", "quantifier": "all dependency graphs between any number of namespaces, also with circles, with namespaces missing, and with repeated entries", "why_tests_cant": "tests check a handful of small graphs; the order is the result of a depth-first search with removal over arbitrary graphs", "anchors": ["src/hdmf/backends/hdf5/h5tools.py:HDF5IO._order_deps", "src/hdmf/backends/hdf5/h5tools.py:HDF5IO.__order_deps_aux"]}
{"id": "C137", "title": "The version of a cached namespace that is used is the latest, and the one the file was written with", "statement": "If a file has several versions of a namespace, get_namespaces and load_namespaces use the latest, never one of the groups for a missing version if there is another; a file written with some version is read with that version.", "quantifier": "all files with any number of namespaces and versions, and all sequences of writing and reading", "why_tests_cant": "tests use versions that sort alike as text and as numbers; the failures need two or more digits", "anchors": ["src/hdmf/backends/hdf5/h5tools.py:HDF5IO.__get_namespaces", "src/hdmf/backends/hdf5/h5tools.py:HDF5IO.__cache_spec"]}
{"id": "C138", "title": "Caching the namespaces in a file is complete, idempotent, and overwrites nothing", "statement": "After write with cache_spec, each namespace of the catalog is in the file under its version, as it is in the catalog; what was cached before is unchanged; doing it again changes nothing; a write that broke off can be repeated.", "quantifier": "all files, all catalogs, all outcomes of exporting the specs", "why_tests_cant": "tests write to new files; the cases depend on what an earlier write, successful or not, left in the file", "anchors": ["src/hdmf/backends/hdf5/h5tools.py:HDF5IO.__cache_spec"]}
{"id": "C139", "title": "Loading the cached namespaces gives all of them, in the reported versions, and replaces none", "statement": "After load_namespaces without an error every namespace of the file is in the catalog, in the version get_namespaces reports unless the catalog had it already; namespaces of the catalog are never replaced; loading never fails because an included namespace of the file was not loaded yet.", "quantifier": "all files as write makes them, all catalogs, all inclusions between the namespaces", "why_tests_cant": "the guarantee combines the order, the choice of versions and the loading of each namespace for arbitrary sets of namespaces", "anchors": ["src/hdmf/backends/hdf5/h5tools.py:HDF5IO.__load_namespaces", "src/hdmf/spec/namespace.py:NamespaceCatalog.load_namespaces"]}
{"id": "C140", "title": "A type read back from the specs cached in a file is the type that was written", "statement": "NamespaceToBuilderHelper copies of each group type the sub-specs that are new or overridden; resolving the copy against the type's parent, as is done when the cached namespace is loaded, gives the same attributes, the same named datasets, groups and links, at any depth, and the same unnamed specs for each type.", "quantifier": "all group types with any number of attributes, datasets, groups and links, nested to any depth, and all parents", "why_tests_cant": "the tests copy a few simple types; what is lost depends on coincidences of names, types and quantities between a type and its parents", "anchors": ["src/hdmf/backends/utils.py:NamespaceToBuilderHelper.__copy_spec", "src/hdmf/backends/utils.py:NamespaceToBuilderHelper.__get_new_specs", "src/hdmf/spec/spec.py:GroupSpec.is_inherited_spec", "src/hdmf/spec/spec.py:GroupSpec.is_overridden_spec"]}
{"id": "C141", "title": "The cached spec of a type has what the type defines and nothing it inherits", "statement": "The copy of a group type has exactly the attributes and the named datasets, groups and links which the type itself defines or overrides.", "quantifier": "all group types and all parents", "why_tests_cant": "the tests compare with a few expected outputs", "anchors": ["src/hdmf/backends/utils.py:NamespaceToBuilderHelper.__get_new_specs", "src/hdmf/spec/spec.py:GroupSpec.is_inherited_spec", "src/hdmf/spec/spec.py:GroupSpec.is_overridden_spec"]}
{"id": "C142", "title": "The cached spec of a dataset type keeps every key of the type", "statement": "Every key of a dataset type other than its sub-specs (doc, dtype, shape, dims, value, default_value, ...) has the same value in the copy.", "quantifier": "all dataset types with any of the keys", "why_tests_cant": "a test checks the keys of its example; the set of keys copied has to be compared with all keys that a spec may have", "anchors": ["src/hdmf/backends/utils.py:NamespaceToBuilderHelper.__copy_spec"]}
{"id": "C143", "title": "The attributes of a dataset type read back from the cached specs are those that were written", "statement": "The attributes of a dataset type, resolved against its parent, copied and resolved again, are the same; the copy has those the type defines and no others.", "quantifier": "all lists of attributes of a type and of its parent", "why_tests_cant": "ranges over arbitrary overlaps of the attributes of a type and its parent", "anchors": ["src/hdmf/backends/utils.py:NamespaceToBuilderHelper.__get_new_specs", "src/hdmf/spec/spec.py:BaseStorageSpec.is_inherited_spec", "src/hdmf/spec/spec.py:BaseStorageSpec.is_overridden_spec"]}
{"id": "C144", "title": "The attribute name made from a type is the type in snake case", "statement": "ObjectMapper.convert_dt_name of a spec without name keeps every letter of the type, in small letters: only underscores between words, and an s at the end if there may be many, are added. Words that begin with a capital are joined by one underscore. Different types have different names.", "quantifier": "all names of types and both kinds of quantity", "why_tests_cant": "the tests try a handful of names; the two regular expressions act on all strings", "anchors": ["src/hdmf/build/objectmapper.py:ObjectMapper.convert_dt_name"]}
{"id": "C145", "title": "get_attr_names names every spec below a type", "statement": "ObjectMapper.get_attr_names gives each attribute, dataset, group and link below a type, down to and including specs that have a type, the names on the path to it joined by two underscores.", "quantifier": "all specs with any number of sub-specs nested to any depth", "why_tests_cant": "the tests use specs with two or three sub-specs; clashes depend on names, types and quantities anywhere in a type", "anchors": ["src/hdmf/build/objectmapper.py:ObjectMapper.get_attr_names", "src/hdmf/build/objectmapper.py:ObjectMapper.__get_fields"]}
{"id": "C146", "title": "Sub-specs with different names have different attributes", "statement": "If within the type and within each untyped spec below it the names differ, then different specs have different attribute names, at any depth; joining with two underscores loses nothing.", "quantifier": "all specs of any depth", "why_tests_cant": "ranges over all names and depths; injectivity of a join cannot be tested on examples", "anchors": ["src/hdmf/build/objectmapper.py:ObjectMapper.__get_fields", "src/hdmf/build/objectmapper.py:ObjectMapper.convert_dt_name"]}
{"id": "C147", "title": "A new mapper maps each spec to its attribute and back", "statement": "After construction get_attribute, get_attr_spec, get_const_arg and get_carg_spec are inverse to each other and map every spec below the type to its name.", "quantifier": "all specs and names", "why_tests_cant": "the tests look up a few specs", "anchors": ["src/hdmf/build/objectmapper.py:ObjectMapper.__init__", "src/hdmf/build/objectmapper.py:ObjectMapper.__map_spec", "src/hdmf/build/objectmapper.py:ObjectMapper.map_spec", "src/hdmf/build/objectmapper.py:ObjectMapper.get_attribute", "src/hdmf/build/objectmapper.py:ObjectMapper.get_attr_spec", "src/hdmf/build/objectmapper.py:ObjectMapper.get_carg_spec", "src/hdmf/build/objectmapper.py:ObjectMapper.get_const_arg"]}
{"id": "C148", "title": "The last call that maps a spec decides", "statement": "After any calls of map_attr, map_const_arg, map_spec and unmap, get_attribute and get_const_arg of a spec give what the last call for that spec set, get_attr_spec gives the spec of the last call for that attribute, and the two agree with each other.", "quantifier": "all histories of calls on a mapper", "why_tests_cant": "ranges over unbounded histories of calls", "anchors": ["src/hdmf/build/objectmapper.py:ObjectMapper.map_attr", "src/hdmf/build/objectmapper.py:ObjectMapper.map_const_arg", "src/hdmf/build/objectmapper.py:ObjectMapper.map_spec", "src/hdmf/build/objectmapper.py:ObjectMapper.unmap", "src/hdmf/build/objectmapper.py:ObjectMapper.get_attribute", "src/hdmf/build/objectmapper.py:ObjectMapper.get_attr_spec"]}
{"id": "C149", "title": "The most derived mapper class decides on constructor arguments and attributes", "statement": "The function used for a constructor argument or object attribute is the one decorated for it in the most derived class of the mapper; overriding a method replaces it.", "quantifier": "all chains of mapper classes with any members", "why_tests_cant": "the tests have single classes with one or two decorated methods", "anchors": ["src/hdmf/build/objectmapper.py:ObjectMapper.__gather_procedures", "src/hdmf/build/objectmapper.py:ObjectMapper.__get_override_carg", "src/hdmf/build/objectmapper.py:ObjectMapper.__get_override_attr", "src/hdmf/build/objectmapper.py:ObjectMapper.constructor_arg", "src/hdmf/build/objectmapper.py:ObjectMapper.object_attr"]}
{"id": "C150", "title": "Every column of a new DynamicTable has one row per id", "statement": "A DynamicTable constructed from columns has as many ids as each column looked up by its name has rows, whatever indices lie on it; columns with equal numbers of rows are accepted.", "quantifier": "all lists of VectorData, VectorIndex of any nesting and EnumData, all ids and colnames", "why_tests_cant": "the tests construct a few tables; the check of lengths pops columns in an order that depends on the list given", "anchors": ["src/hdmf/common/table.py:DynamicTable.__init__", "src/hdmf/common/table.py:DynamicTable.get"]}
{"id": "C151", "title": "Ids given are kept, ids not given are counted", "statement": "If ids are given and not empty they are the ids of the table, or the construction fails because a column has another number of rows; otherwise the ids are 0, 1, ..., n-1.", "quantifier": "all ids, columns and colnames", "why_tests_cant": "ranges over all lengths", "anchors": ["src/hdmf/common/table.py:DynamicTable.__init__"]}
{"id": "C152", "title": "Without colnames the table lists its columns in the order given", "statement": "If colnames is omitted, colnames are the names of the columns that are neither indices nor the elements of an EnumData, in the order of the columns, and columns are the columns given.", "quantifier": "all lists of columns", "why_tests_cant": "the tests have two or three columns; an EnumData before or after its elements takes different paths", "anchors": ["src/hdmf/common/table.py:DynamicTable.__init__"]}
{"id": "C153", "title": "With colnames the order in which the columns are given does not matter", "statement": "If colnames is given, permuting the columns gives the same table; each column follows its indices, the outermost first; and no column is lost if colnames names all those that are neither indices nor elements.", "quantifier": "all permutations of all lists of columns", "why_tests_cant": "ranges over permutations; a table read from a file gets its columns in the order of the file", "anchors": ["src/hdmf/common/table.py:DynamicTable.__init__"]}
{"id": "C154", "title": "A name gives the outermost index of the column, an attribute the column itself", "statement": "table[name] of a column is its outermost VectorIndex, or the column if it has none; table[name] of an index is that index; table.name is the column or index of that name; names of no column give a KeyError.", "quantifier": "all tables and names, indices nested to any depth", "why_tests_cant": "ranges over nestings and orders of columns; the tests look at single and double indices by the column's name", "anchors": ["src/hdmf/common/table.py:DynamicTable.__init__", "src/hdmf/common/table.py:DynamicTable.__set_table_attr", "src/hdmf/common/table.py:DynamicTable.get"]}
{"id": "C155", "title": "A copy of a table has the same ids, names and columns", "statement": "DynamicTable.copy of a table succeeds and gives a table with the same ids, colnames and columns, and the same column for each name.", "quantifier": "all tables that can be constructed from columns", "why_tests_cant": "the tests copy one table", "anchors": ["src/hdmf/common/table.py:DynamicTable.copy", "src/hdmf/common/table.py:DynamicTable.__init__"]}
{"id": "C156", "title": "get_linked_tables finds every table that can be reached, once", "statement": "get_linked_tables terminates whatever cycles the DynamicTableRegion columns form, and its result lists exactly the region columns of the tables that can be reached from the table (and other_tables) through region columns, table by table, each table once.", "quantifier": "all finite graphs of tables and region columns, with cycles and self references", "why_tests_cant": "ranges over graphs; the tests use chains of at most four tables without cycles", "anchors": ["src/hdmf/common/table.py:DynamicTable.get_linked_tables", "src/hdmf/common/table.py:DynamicTable.get_foreign_columns", "src/hdmf/common/table.py:DynamicTable.has_foreign_columns", "src/hdmf/common/alignedtable.py:AlignedDynamicTable.get_linked_tables"]}
{"id": "C157", "title": "A hierarchical data frame has one row per chain of references", "statement": "The rows of to_hierarchical_dataframe are exactly the chains of references from a row of the first table down to a row of the last, in order, each with the ids and values of the rows on the chain.", "quantifier": "all hierarchies of tables of any depth, all ids, values and references", "why_tests_cant": "ranges over depth and references; the tests have two or three levels with every row referring to something", "anchors": ["src/hdmf/common/hierarchicaltable.py:to_hierarchical_dataframe"]}
{"id": "C158", "title": "Labels and rows of a hierarchical data frame fit", "statement": "Every index tuple has as many entries as the index has names, every row as many values as there are columns, and names and columns list for each table of the hierarchy its id and its columns except the one that is expanded.", "quantifier": "all hierarchies of any depth", "why_tests_cant": "the tests compare a few frames", "anchors": ["src/hdmf/common/hierarchicaltable.py:to_hierarchical_dataframe"]}
{"id": "C159", "title": "Flattening labels and dropping ids", "statement": "flatten_column_index gives each label the strings of the nested label in order, cut to the last max_levels; drop_id_columns keeps exactly the columns whose last string is not 'id'; the two operations commute.", "quantifier": "all labels nested to any depth, all max_levels, all lists of columns", "why_tests_cant": "ranges over nestings of labels", "anchors": ["src/hdmf/common/hierarchicaltable.py:drop_id_columns", "src/hdmf/common/hierarchicaltable.py:flatten_column_index"]}
{"id": "C160", "title": "from_dataframe keeps every cell", "statement": "DynamicTable.from_dataframe gives a table with the columns of the data frame in order, in which every row of every column is the cell of the data frame, also where lists of different lengths are stored with an index.", "quantifier": "all data frames, all descriptions of columns", "why_tests_cant": "ranges over contents; the tests convert a few frames", "anchors": ["src/hdmf/common/table.py:DynamicTable.from_dataframe", "src/hdmf/common/table.py:DynamicTable.__build_columns"]}
{"id": "C161", "title": "A generated constructor takes the fields of the specification", "statement": "The constructor of a generated class has each argument once: the name, unless it is fixed, and every field of the type and of the types it extends that has no fixed value; an argument must be given exactly if its specification and those around it are required; arguments that must be given come first.", "quantifier": "all chains of type definitions of any length, with any fields", "why_tests_cant": "ranges over specifications; the tests generate a few classes one or two levels deep", "anchors": ["src/hdmf/build/classgenerator.py:CustomClassGenerator.process_field_spec", "src/hdmf/build/classgenerator.py:CustomClassGenerator._check_spec_optional", "src/hdmf/build/classgenerator.py:CustomClassGenerator._add_to_docval_args", "src/hdmf/build/classgenerator.py:CustomClassGenerator.post_process", "src/hdmf/build/classgenerator.py:ClassGenerator.generate_class"]}
{"id": "C162", "title": "An object of a generated class has the values given", "statement": "A constructor call with arguments that suit the specification succeeds, and then every field of every class in the chain holds its fixed value, the value given or the default, fields of many containers hold them by name, no other field is set, and the name is the fixed one, the one given or the default; a call with unknown, missing or unsuitable arguments fails.", "quantifier": "all chains of type definitions, all keyword arguments", "why_tests_cant": "ranges over specifications and arguments; the tests try a few", "anchors": ["src/hdmf/build/classgenerator.py:CustomClassGenerator.set_init", "src/hdmf/build/classgenerator.py:MCIClassGenerator.set_init", "src/hdmf/build/classgenerator.py:MCIClassGenerator.process_field_spec", "src/hdmf/common/io/table.py:DynamicTableGenerator", "src/hdmf/container.py:Container._setter", "src/hdmf/container.py:MultiContainerInterface"]}
{"id": "C163", "title": "A generated class knows the fields of its bases", "statement": "__fields__ of a generated class lists each field of the type and of the types it extends once, those of the bases first.", "quantifier": "all chains of type definitions", "why_tests_cant": "ranges over chains of classes; the tests look at classes with one base", "anchors": ["src/hdmf/container.py:AbstractContainer.__gather_fields", "src/hdmf/build/classgenerator.py:MCIClassGenerator.post_process", "src/hdmf/build/classgenerator.py:MCIClassGenerator.apply_generator_to_field"]}
{"id": "C164", "title": "post_init_method runs once, when the object is complete", "statement": "Constructing an object of a class with a post_init_method calls it once with the value of every argument, when all fields are set; not at all if skip_post_init is given.", "quantifier": "all chains of type definitions, all arguments", "why_tests_cant": "the tests call it for classes with one generated level", "anchors": ["src/hdmf/build/classgenerator.py:CustomClassGenerator.set_init", "src/hdmf/build/classgenerator.py:MCIClassGenerator.set_init"]}
{"id": "C165", "title": "The argument of a field takes values of its dtype", "statement": "For each valid dtype the argument of a scalar field takes exactly the values of that dtype or of a higher precision.", "quantifier": "all dtypes, all values", "why_tests_cant": "ranges over dtypes and classes of values; the tests try a few dtypes", "anchors": ["src/hdmf/build/classgenerator.py:CustomClassGenerator._get_type_from_spec_dtype", "src/hdmf/build/classgenerator.py:CustomClassGenerator._get_type", "src/hdmf/utils.py:check_type", "src/hdmf/spec/spec.py:DtypeHelper"]}
{"id": "C166", "title": "The mode of a file decides what can happen to it", "statement": "However files are opened, read, written, exported and closed: a file opened only with mode r keeps its contents; a file not opened with mode w is never lost and its contents change only as writing changes them. r and r+ need a file, w- and x need none, w empties it, a keeps it. What a mode does not allow is refused and changes nothing.", "quantifier": "all histories of operations on any number of files and file objects, all contents", "why_tests_cant": "ranges over histories; the tests try single operations in each mode", "anchors": ["src/hdmf/backends/hdf5/h5tools.py:HDF5IO.__init__", "src/hdmf/backends/hdf5/h5tools.py:HDF5IO.open", "src/hdmf/backends/hdf5/h5tools.py:HDF5IO.close", "src/hdmf/backends/hdf5/h5tools.py:HDF5IO.write", "src/hdmf/backends/hdf5/h5tools.py:HDF5IO.read", "src/hdmf/backends/hdf5/h5tools.py:HDF5IO.export"]}
{"id": "C167", "title": "Reading gives what is in the file", "statement": "read on a file object gives the container for the contents of the file, what has been written before included, or an error, and changes no file.", "quantifier": "all states, all contents", "why_tests_cant": "ranges over histories; the tests read files just written", "anchors": ["src/hdmf/backends/io.py:HDMFIO.read", "src/hdmf/backends/hdf5/h5tools.py:HDF5IO.read", "src/hdmf/backends/hdf5/h5tools.py:HDF5IO.read_builder", "src/hdmf/backends/hdf5/h5tools.py:HDF5IO.open", "src/hdmf/backends/hdf5/h5tools.py:HDF5IO.close"]}
{"id": "C168", "title": "get_written tells which builders have been written", "statement": "A builder counts as written exactly if set_written was called with it.", "quantifier": "all sequences in which builders are made, marked and dropped", "why_tests_cant": "depends on the addresses of objects, which tests do not control", "anchors": ["src/hdmf/backends/utils.py:WriteStatusTracker"]}
{"id": "C169", "title": "write puts the references of the container in the HERD file", "statement": "A write that succeeds puts the builder in the file and the references of the container, added to the HERD given, in the HERD file; a write that fails changes neither.", "quantifier": "all states, all containers, all HERDs", "why_tests_cant": "ranges over states; the tests write one container that can be built", "anchors": ["src/hdmf/backends/io.py:HDMFIO.write", "src/hdmf/backends/hdf5/h5tools.py:HDF5IO.write", "src/hdmf/backends/hdf5/h5tools.py:HDF5IO.write_builder"]}
{"id": "C170", "title": "An export changes no other file", "statement": "An export leaves every file but its own and every HERD file as they were, also if it fails. Without a container it writes what is in the source; a container is exported only if it is a root the manager of the source knows.", "quantifier": "all states, all sources, all containers", "why_tests_cant": "ranges over states; the tests export a few files", "anchors": ["src/hdmf/backends/io.py:HDMFIO.export", "src/hdmf/backends/hdf5/h5tools.py:HDF5IO.export", "src/hdmf/backends/hdf5/h5tools.py:HDF5IO.write_builder"]}
{"id": "C171", "title": "What is exported is what the containers have", "statement": "However containers that were read are changed, marked, added, removed, given new ids and exported, an export writes what they have now. Without changes it writes what was read.", "quantifier": "all trees of containers, all histories of changes and exports, any length", "why_tests_cant": "ranges over histories; the tests make one change and export", "anchors": ["src/hdmf/container.py:AbstractContainer.set_modified", "src/hdmf/container.py:AbstractContainer._setter", "src/hdmf/container.py:AbstractContainer._remove_child", "src/hdmf/container.py:AbstractContainer.generate_new_id", "src/hdmf/container.py:AbstractContainer.parent", "src/hdmf/container.py:Container.set_data_io", "src/hdmf/container.py:Data.set_data_io", "src/hdmf/container.py:Data.transform", "src/hdmf/build/manager.py:BuildManager.purge_outdated", "src/hdmf/build/manager.py:BuildManager.clear_cache", "src/hdmf/build/manager.py:BuildManager.build", "src/hdmf/backends/io.py:HDMFIO.export"]}
{"id": "C172", "title": "H5DataIO keeps the settings it is given and refuses those that cannot be used", "statement": "H5DataIO can be made if there are data, or a shape and a dtype, and if the options go with the compression and there is such a filter; otherwise it is refused. The settings are then those given, with the chunks and the greatest shape of an iterator where none are given.", "quantifier": "all arguments, all sets of filters", "why_tests_cant": "ranges over all combinations of arguments; the tests try some of them", "anchors": ["src/hdmf/backends/hdf5/h5_utils.py:H5DataIO.__init__", "src/hdmf/backends/hdf5/h5_utils.py:H5DataIO.filter_available", "src/hdmf/data_utils.py:DataIO.__init__"]}
{"id": "C173", "title": "Data that are converted keep the options of their wrapper", "statement": "When the mapper converts the data of an H5DataIO, the wrapper it makes for the new data has the options of the one given, however often this has been written before.", "quantifier": "all wrappers, all sequences of writes, all data", "why_tests_cant": "ranges over wrappers and histories; the tests convert a few", "anchors": ["src/hdmf/backends/hdf5/h5_utils.py:H5DataIO.get_io_params", "src/hdmf/build/objectmapper.py:ObjectMapper.__convert_string", "src/hdmf/data_utils.py:DataIO.get_io_params"]}
{"id": "C174", "title": "A wrapped dataset is written with its options", "statement": "The dataset made for an H5DataIO has the shape of the data, the type of the builder or the data, and the options of the wrapper, each time it is written; a wrapped dataset is linked or copied as the wrapper says.", "quantifier": "all arguments of H5DataIO, all sequences of writes, all types", "why_tests_cant": "ranges over options and histories; the tests write a wrapper once", "anchors": ["src/hdmf/backends/hdf5/h5tools.py:HDF5IO.write_dataset", "src/hdmf/backends/hdf5/h5tools.py:HDF5IO.__setup_chunked_dset__", "src/hdmf/backends/hdf5/h5tools.py:HDF5IO.__setup_empty_dset__", "src/hdmf/backends/hdf5/h5tools.py:HDF5IO.__list_fill__", "src/hdmf/backends/hdf5/h5_utils.py:H5DataIO"]}
{"id": "C175", "title": "A copy of a wrapper is written like the wrapper", "statement": "copy.copy and copy.deepcopy of an H5DataIO give something that is written as the wrapper is.", "quantifier": "all wrappers", "why_tests_cant": "ranges over settings; the tests compare the data of the copy only", "anchors": ["src/hdmf/data_utils.py:DataIO.__copy__", "src/hdmf/data_utils.py:DataIO.__deepcopy__", "src/hdmf/backends/hdf5/h5tools.py:HDF5IO.write_dataset"]}
{"id": "C176", "title": "A namespace that was exported can be loaded, with the types that were added", "statement": "Loading the files that NamespaceBuilder.export or export_spec wrote gives a namespace with the types that were added and those of the included namespaces, each with its source, and no others.", "quantifier": "all sequences of calls of the builder, all specs, all catalogs into which it is loaded", "why_tests_cant": "ranges over histories and orders of specs; the tests export one spec and load it", "anchors": ["src/hdmf/spec/write.py:NamespaceBuilder.add_spec", "src/hdmf/spec/write.py:NamespaceBuilder.export", "src/hdmf/spec/write.py:export_spec", "src/hdmf/spec/write.py:SpecFileBuilder.add_spec", "src/hdmf/spec/namespace.py:NamespaceCatalog.load_namespaces", "src/hdmf/spec/namespace.py:YAMLSpecReader"]}
{"id": "C177", "title": "export writes what was added, and nothing else", "statement": "Every spec that was added is in the file of its source, in the order in which it was added; the namespace lists the included namespaces and the sources with the doc and title given; other files are left alone; what fails leaves everything as it was.", "quantifier": "all sequences of calls of the builder, all files", "why_tests_cant": "ranges over histories; the tests look at single files", "anchors": ["src/hdmf/spec/write.py:NamespaceBuilder.add_spec", "src/hdmf/spec/write.py:NamespaceBuilder.add_source", "src/hdmf/spec/write.py:NamespaceBuilder.include_type", "src/hdmf/spec/write.py:NamespaceBuilder.export", "src/hdmf/spec/write.py:YAMLSpecWriter.write_spec", "src/hdmf/spec/write.py:YAMLSpecWriter.write_namespace"]}
{"id": "C178", "title": "include_namespace includes the whole namespace, include_type the types asked for", "statement": "A namespace that was included is listed as a whole; otherwise with the types that were asked for, in this order.", "quantifier": "all sequences of calls of the builder", "why_tests_cant": "depends on the order of calls; the tests include a namespace once", "anchors": ["src/hdmf/spec/write.py:NamespaceBuilder.include_type", "src/hdmf/spec/write.py:NamespaceBuilder.include_namespace"]}
{"id": "C179", "title": "The rows of a Table are those that were added", "statement": "add_row takes a value of the right kind for each column and nothing else, and appends a row with these values under the index it returns; what is refused changes nothing; a row once stored never changes; t[i], t[column], t[column, i] and which(column=value) agree about the stored values.", "quantifier": "all table classes, all sequences of calls, all values", "why_tests_cant": "ranges over histories and classes; the tests add two rows to one class", "anchors": ["src/hdmf/container.py:Table.add_row", "src/hdmf/container.py:Table.__getitem__", "src/hdmf/container.py:Table.which", "src/hdmf/container.py:Table.__build_table_class"]}
{"id": "C180", "title": "A Row object stands for one row of one table", "statement": "A Row that is constructed with a table adds one row and has its index and values; the index never changes; t.row[i] gives for each row an object with this index, table and these values, the same one each time and equal to the one that was constructed.", "quantifier": "all table classes, all sequences of calls, all values", "why_tests_cant": "ranges over histories, with objects cached and shared; the tests look at one row", "anchors": ["src/hdmf/container.py:Row", "src/hdmf/container.py:Row.idx", "src/hdmf/container.py:Row.table", "src/hdmf/container.py:RowGetter.__getitem__", "src/hdmf/container.py:Row.__eq__"]}
{"id": "C181", "title": "Tables and data frames can be made from each other without loss", "statement": "from_dataframe takes frames with the columns of the class in any order (one of them may be the index; further ones with extra_ok) and gives a table with their values; to_dataframe gives a frame with the columns and values of the table, from which the table can be made again.", "quantifier": "all classes, frames and tables", "why_tests_cant": "ranges over values and combinations of column kinds; the tests use two rows of a string and a number", "anchors": ["src/hdmf/container.py:Table.from_dataframe", "src/hdmf/container.py:Table.to_dataframe"]}
{"id": "C182", "title": "A class derived from a Table class can be used", "statement": "A class derived from a class with columns, with or without columns of its own, can be constructed and has its columns.", "quantifier": "all chains of derived classes", "why_tests_cant": "ranges over chains of classes; the tests derive from Table only", "anchors": ["src/hdmf/container.py:Table.__build_table_class", "src/hdmf/container.py:Table.__init__"]}
{"id": "C183", "title": "After reading, the parent of a container is the container in which it is stored", "statement": "Whatever order containers are constructed in, and wherever links to them are met first, the parent of a container is afterwards the container of the nearest group with a type around it in the file.", "quantifier": "all trees of builders with links among them, all orders of construction", "why_tests_cant": "ranges over orders in which links are met; the tests have one link", "anchors": ["src/hdmf/build/manager.py:BuildManager.construct", "src/hdmf/build/manager.py:Proxy.matches", "src/hdmf/build/manager.py:BuildManager._get_proxy_builder", "src/hdmf/build/manager.py:BuildManager._get_proxy_container", "src/hdmf/container.py:AbstractContainer.parent"]}
{"id": "C184", "title": "Proxies stand for containers that have yet to be constructed", "statement": "The children of a container have it as their parent and are never proxies; the proxy of a container is that of its builder; a proxy for which no candidate fits is reported with a ValueError.", "quantifier": "all trees of builders with links among them", "why_tests_cant": "ranges over orders of construction and names; the tests compare two proxies", "anchors": ["src/hdmf/build/manager.py:Proxy.resolve", "src/hdmf/build/manager.py:Proxy.matches", "src/hdmf/build/manager.py:BuildManager.__resolve_parents", "src/hdmf/build/manager.py:BuildManager._get_proxy_container"]}
{"id": "C185", "title": "Datasets of references give the objects to which the references lead", "statement": "Every index, slice, list of indices and iteration over a dataset of references gives the builders or containers of the objects to which the references lead, elements for regions, and rows with objects in place of references for compound datasets; all of these agree; the inverted dataset gives the containers of the builders, and is one object.", "quantifier": "all datasets of references, all indices, all contents of the file", "why_tests_cant": "ranges over indices, contents and kinds of references; the tests read a few items by index", "anchors": ["src/hdmf/backends/hdf5/h5_utils.py:AbstractH5ReferenceDataset.__getitem__", "src/hdmf/backends/hdf5/h5_utils.py:AbstractH5RegionDataset.__getitem__", "src/hdmf/backends/hdf5/h5_utils.py:AbstractH5TableDataset.__getitem__", "src/hdmf/backends/hdf5/h5_utils.py:AbstractH5TableDataset.resolve", "src/hdmf/backends/hdf5/h5_utils.py:DatasetOfReferences.invert", "src/hdmf/backends/hdf5/h5_utils.py:DatasetOfReferences.__iter__", "src/hdmf/query.py:HDMFDataset.__getitem__"]}
{"id": "C186", "title": "What is appended to a dataset of references is its last item", "statement": "append of a container that is in the file adds one item, which is this container, and changes no other; of anything else it raises an error.", "quantifier": "all datasets of references, all containers", "why_tests_cant": "ranges over the states of file and manager; the tests append one container that was read", "anchors": ["src/hdmf/backends/hdf5/h5_utils.py:H5Dataset.append", "src/hdmf/backends/hdf5/h5tools.py:HDF5IO._create_ref", "src/hdmf/backends/hdf5/h5tools.py:HDF5IO.get_container"]}
{"id": "C187", "title": "Indexing with a comparison selects the elements for which it is true", "statement": "For a sorted array in an HDMFDataset, ds[ds < v], <=, >, >=, == and != give the elements for which the comparison with v is true, in order.", "quantifier": "all sorted arrays and values", "why_tests_cant": "ranges over arrays with repeated and missing values; the tests compare with one value inside the array", "anchors": ["src/hdmf/query.py:Query.evaluate", "src/hdmf/query.py:HDMFDataset.__getitem__", "src/hdmf/array.py:Array.__getitem__", "src/hdmf/array.py:AbstractSortedArray.__eq__"]}
{"id": "C188", "title": "Regions into other tables are expanded into the rows they refer to", "statement": "get(rows, index=False) and to_dataframe() of a table give a data frame with the ids and one cell per row and column, in which each cell of a DynamicTableRegion is a frame of the row referred to, and each cell of a ragged region a frame of the rows referred to, in order and with repetitions, through any number of tables.", "quantifier": "all families of tables with any columns, all selections by integer, list and slice, any depth of nesting", "why_tests_cant": "ranges over graphs of tables and repeated, unsorted entries; the tests expand one region into one flat table", "anchors": ["src/hdmf/common/table.py:DynamicTable.get", "src/hdmf/common/table.py:DynamicTable.to_dataframe", "src/hdmf/common/table.py:DynamicTableRegion.get", "src/hdmf/common/table.py:VectorIndex.get"]}
{"id": "C189", "title": "All ways to get a row of a table agree", "statement": "The row that get(i) gives is the row that a list or slice containing i gives at its place, table[i, name] is the cell of that row, and the cells of regions are what get of the table referred to gives for the entries.", "quantifier": "all families of tables, all selections, all rows and columns", "why_tests_cant": "relates different code paths (single row, several rows, single cell) for all tables; the tests look at each alone", "anchors": ["src/hdmf/common/table.py:DynamicTable.get", "src/hdmf/common/table.py:DynamicTableRegion.get"]}
{"id": "C190", "title": "The data frame of a region is that of its rows", "statement": "region.to_dataframe() and region[:] give the same frame, with one row for each entry of the region.", "quantifier": "all regions, all tables they refer to", "why_tests_cant": "relates two code paths (expand the table then pick, pick then expand); the tests compare them for one region", "anchors": ["src/hdmf/common/table.py:DynamicTableRegion.to_dataframe", "src/hdmf/common/table.py:DynamicTableRegion.get"]}
{"id": "C191", "title": "Row numbers are given without following them", "statement": "table[rows] gives, for a region column, the numbers of the rows referred to, and works for every selection of existing rows whatever the regions refer to.", "quantifier": "all tables, all selections, all contents of the regions", "why_tests_cant": "ranges over regions into the table itself and with entries out of range; the tests use valid regions into other tables", "anchors": ["src/hdmf/common/table.py:DynamicTable.__getitem__", "src/hdmf/common/table.py:DynamicTable.get"]}
{"id": "C192", "title": "Class generators added later are used first, also after copying and merging", "statement": "register_generator puts a generator before all others and each is held once; a field of a generated class is given to the generator registered last among those that apply to it, and to the default ones otherwise. A copy of a type map has the same generators in the same order, and merging type maps keeps the generators of both in use.", "quantifier": "all histories of registrations, copies and merges of type maps, all generators and fields", "why_tests_cant": "ranges over histories with repeated registrations and over several type maps; the tests register one generator in one type map", "anchors": ["src/hdmf/build/classgenerator.py:ClassGenerator.register_generator", "src/hdmf/build/classgenerator.py:ClassGenerator.generate_class", "src/hdmf/build/manager.py:TypeMap.merge", "src/hdmf/build/manager.py:TypeMap.__copy__"]}
{"id": "C193", "title": "get_type_map with extensions has the classes of the extensions", "statement": "get_type_map(extensions=[...]) of type maps gives a type map in which every type has the class of the last extension that has one, and otherwise that of the package; a type map given alone keeps its classes.", "quantifier": "all type maps of the package and all lists of extensions", "why_tests_cant": "ranges over lists of type maps with overlapping and own namespaces; the tests pass a path", "anchors": ["src/hdmf/common/__init__.py:get_type_map", "src/hdmf/build/manager.py:TypeMap.merge"]}
{"id": "C194", "title": "A catalog and its copy are independent", "statement": "After copy(catalog), the copy shows the same namespaces, sources and types, and no load_namespaces, add_namespace or merge on either changes what the other shows or gives.", "quantifier": "all programs of calls on any number of catalogs and copies of copies", "why_tests_cant": "aliasing shows only in interleavings of calls on several objects; the tests check the copy right after it was made", "anchors": ["src/hdmf/spec/namespace.py:NamespaceCatalog.__copy__", "src/hdmf/spec/namespace.py:NamespaceCatalog.add_namespace", "src/hdmf/spec/namespace.py:NamespaceCatalog.load_namespaces", "src/hdmf/spec/namespace.py:NamespaceCatalog.merge"]}
{"id": "C195", "title": "Rows of an aligned table are the same rows of all its tables", "statement": "For an AlignedDynamicTable whose categories have as many rows as the main table, table[rows] (integer, list or slice) gives a frame whose index holds the ids of the main table at the selected rows and whose columns are, in the order of get_colnames(include_category_tables=True), the columns of the main table and the ids and columns of each category, every column holding its cells at the same selected rows; this succeeds for every selection of existing rows.", "quantifier": "all tables, categories, columns (values, ragged, regions, ragged regions) and selections", "why_tests_cant": "ranges over any number of categories, columns and rows; the tests use fixed tables of ten rows", "anchors": ["src/hdmf/common/alignedtable.py:AlignedDynamicTable.get", "src/hdmf/common/alignedtable.py:AlignedDynamicTable.get_colnames"]}
{"id": "C196", "title": "to_dataframe of an aligned table shows every row of every table side by side", "statement": "to_dataframe() shows row r of the main table beside row r of each category, with regions as frames; table[name] is the column of the main table or the whole category of that name; to_dataframe(ignore_category_ids=True) is the same frame without the id columns of the categories.", "quantifier": "all aligned tables, any ids of main table and categories", "why_tests_cant": "the row pairing depends on the ids of the categories; the tests use categories whose ids count up from 0", "anchors": ["src/hdmf/common/alignedtable.py:AlignedDynamicTable.to_dataframe", "src/hdmf/common/alignedtable.py:AlignedDynamicTable.get"]}
{"id": "C197", "title": "The ways to select a cell of an aligned table agree", "statement": "table[row, (category, column)], table[row, category, column] and table[category, column, row] give the same cell, that of the column in the row, the main table being named by its name or None; table[category, column] gives the column.", "quantifier": "all aligned tables, rows, categories, columns of all kinds", "why_tests_cant": "ranges over kinds of columns and names of tables; the tests compare the forms for a value column", "anchors": ["src/hdmf/common/alignedtable.py:AlignedDynamicTable.get", "src/hdmf/common/alignedtable.py:AlignedDynamicTable.get_category"]}
{"id": "C198", "title": "The ways to select a row of one table of an aligned table agree", "statement": "table[row, category] and table[category, row] give the row of that category, and of the main table under its name or None, as a frame.", "quantifier": "all aligned tables, rows, categories with any number of columns, and the main table", "why_tests_cant": "depends on the number of columns of the table; the tests use tables with several columns", "anchors": ["src/hdmf/common/alignedtable.py:AlignedDynamicTable.get"]}
{"id": "C199", "title": "in tells what can be selected from an aligned table", "statement": "name in table and (category, column) in table are True exactly for what table[name] and table[category, column] find, and False otherwise.", "quantifier": "all aligned tables, names and pairs of names", "why_tests_cant": "ranges over all names; the tests check a few present and absent ones", "anchors": ["src/hdmf/common/alignedtable.py:AlignedDynamicTable.__contains__"]}
{"id": "C200", "title": "assertContainerEqual passes only for containers with the same contents", "statement": "If assertContainerEqual(a, b) passes, then a and b are of the same class, with the same name (unless ignored), source and object id (unless ignored) and number of children, and every field of a holds what the field of b does at every depth: equal text and whole numbers, floats and arrays within the tolerance, sequences of the same length element by element, containers and the data of Data objects.", "quantifier": "all containers, nested to any depth, all fields and values, all options", "why_tests_cant": "ranges over all nestings of containers, data and sequences; the tests compare a handful of small containers", "anchors": ["src/hdmf/testing/testcase.py:TestCase.assertContainerEqual", "src/hdmf/testing/testcase.py:TestCase._assert_field_equal", "src/hdmf/testing/testcase.py:TestCase._assert_array_equal"]}
{"id": "C201", "title": "assertContainerEqual passes for a container and itself", "statement": "assertContainerEqual(a, a) passes for every container and Data object, with any options; with ignore_string_to_byte, bytes pass for the string they decode to wherever they are.", "quantifier": "all containers, nested to any depth, all options", "why_tests_cant": "ranges over all kinds of fields; the tests have no dictionaries and no Data with a single value", "anchors": ["src/hdmf/testing/testcase.py:TestCase.assertContainerEqual", "src/hdmf/testing/testcase.py:TestCase._assert_field_equal", "src/hdmf/testing/testcase.py:TestCase._assert_data_equal"]}
{"id": "C202", "title": "The order of the arguments of assertContainerEqual does not matter", "statement": "If assertContainerEqual(a, b) passes then assertContainerEqual(b, a) passes.", "quantifier": "all pairs of containers", "why_tests_cant": "ranges over pairs; the tests call it in one order", "anchors": ["src/hdmf/testing/testcase.py:TestCase.assertContainerEqual", "src/hdmf/testing/testcase.py:TestCase._assert_field_equal"]}
{"id": "C203", "title": "Round trip tests validate the written and the exported file", "statement": "H5RoundTripMixin.validate raises an error exactly if the validator finds one in the written file or in the exported file, of those that exist.", "quantifier": "all contents of the two files and all errors", "why_tests_cant": "the tests of the mixin have valid files only", "anchors": ["src/hdmf/testing/testcase.py:H5RoundTripMixin.validate"]}
{"id": "C204", "title": "External resources written to a zip file are read back", "statement": "HERD.from_zip(path) after to_zip(path) gives tables equal to those written, for any path, and leaves no other files behind.", "quantifier": "all tables that calls of add_ref can lead to, all paths and all contents of the file system", "why_tests_cant": "ranges over all paths and tables; the tests use names in the current directory", "anchors": ["src/hdmf/common/resources.py:HERD.to_zip", "src/hdmf/common/resources.py:HERD.from_zip", "src/hdmf/common/resources.py:HERD.get_zip_directory"]}
{"id": "C205", "title": "Text in external resources survives a zip file", "statement": "Every key, file id, entity id, URI, object id, type, path and field that is text when it is written by to_zip is the same text when it is read by from_zip.", "quantifier": "all columns of text", "why_tests_cant": "ranges over all texts, among them those that look like numbers, truth values or missing values", "anchors": ["src/hdmf/common/resources.py:HERD.from_zip", "src/hdmf/common/resources.py:HERD.to_zip"]}
{"id": "C206", "title": "to_zip writes its zip file and touches no other file", "statement": "After to_zip(path) the file at the path is a zip file of the six tables and every other file is as it was.", "quantifier": "all tables, paths and contents of the file system", "why_tests_cant": "ranges over what else is in the directory; the tests write to a directory without such files", "anchors": ["src/hdmf/common/resources.py:HERD.to_zip"]}
{"id": "C207", "title": "assert_external_resources_equal passes exactly for equal tables", "statement": "HERD.assert_external_resources_equal(left, right) returns True if all the tables of the two are equal and raises an error otherwise.", "quantifier": "all pairs of tables", "why_tests_cant": "ranges over pairs that differ in one table only; the tests miss one of them", "anchors": ["src/hdmf/common/resources.py:HERD.assert_external_resources_equal"]}
{"id": "C208", "title": "add_ref_container records the terms of all wrapped attributes", "statement": "After add_ref_container every term of every attribute wrapped in a TermSetWrapper, in the root container or below, can be retrieved from its object with the entity of the term set; nothing else has been added; and if a term is not in its term set the tables are as before.", "quantifier": "all trees of containers with wrapped attributes, all term sets, all previous tables", "why_tests_cant": "ranges over all numbers of wrapped attributes and terms; the tests have one file with two of them", "anchors": ["src/hdmf/common/resources.py:HERD.add_ref_container", "src/hdmf/common/resources.py:HERD.__check_termset_wrapper", "src/hdmf/common/resources.py:HERD.__find_all_termset_objects"]}
{"id": "C209", "title": "get_object_type gives exactly the references of objects of the type", "statement": "get_object_type(t, path, field) gives exactly the references recorded for objects of type t with that path and field, with all_instances for all objects of type t.", "quantifier": "all tables that calls of add_ref can lead to, all types, paths and fields", "why_tests_cant": "ranges over all histories of add_ref", "anchors": ["src/hdmf/common/resources.py:HERD.get_object_type"]}
{"id": "C210", "title": "get_data_type and get_target_type give what their documentation says, in whatever order specs are added", "statement": "For a group spec with sub-specs, get_data_type(t) is None if no group or dataset has the type, the only spec if there is one, the unnamed spec if there is one, and otherwise the list of all named specs in order; get_target_type likewise for links; adding fails exactly if two unnamed specs have the same type, and the order of adding makes no difference.", "quantifier": "all sequences of groups, datasets and links with and without names and types, and all permutations of them", "why_tests_cant": "ranges over all orders of adding any number of specs; the tests add two or three", "anchors": ["src/hdmf/spec/spec.py:GroupSpec.get_data_type", "src/hdmf/spec/spec.py:GroupSpec.get_target_type", "src/hdmf/spec/spec.py:GroupSpec.__add_data_type_inc", "src/hdmf/spec/spec.py:GroupSpec.__add_target_type"]}
{"id": "C211", "title": "Every sub-spec of a group spec can be retrieved by its name or its type", "statement": "After set_group, set_dataset and set_link every named spec is given by get_group, get_dataset or get_link under its name, every unnamed one by get_data_type or get_target_type, and what they give was added under that name.", "quantifier": "all sequences of sub-specs", "why_tests_cant": "ranges over all combinations of names and types", "anchors": ["src/hdmf/spec/spec.py:GroupSpec.set_group", "src/hdmf/spec/spec.py:GroupSpec.set_dataset", "src/hdmf/spec/spec.py:GroupSpec.set_link", "src/hdmf/spec/spec.py:GroupSpec.get_group", "src/hdmf/spec/spec.py:GroupSpec.get_dataset", "src/hdmf/spec/spec.py:GroupSpec.get_link"]}
{"id": "C212", "title": "get_subspec gives the sub-spec that a builder corresponds to", "statement": "get_subspec(spec, builder) is the sub-spec with the name of the builder if there is one of its kind, otherwise a sub-spec without a name of the nearest type in the hierarchy of the builder's type, and None if there is none; the type and the namespace may be text or bytes.", "quantifier": "all group specs, builders and hierarchies", "why_tests_cant": "ranges over all specs and builders; the tests have one of each kind", "anchors": ["src/hdmf/build/manager.py:TypeMap.get_subspec", "src/hdmf/build/manager.py:TypeMap.get_builder_dt", "src/hdmf/build/manager.py:TypeMap.get_builder_ns", "src/hdmf/build/manager.py:BuildManager.get_subspec"]}
{"id": "C213", "title": "Every type of a namespace is in the copy of the namespace that is cached in a file", "statement": "When a namespace is cached, each source with specs that are not nested in another one becomes a dataset with all of these specs, groups and datasets apart, in the order in which they were loaded; the dataset 'namespace' has the name, the version, the included namespaces and the sources; there is nothing else.", "quantifier": "all schemas, sources, types and specs of a namespace", "why_tests_cant": "ranges over all namespaces; the tests cache two or three fixed ones", "anchors": ["src/hdmf/backends/utils.py:NamespaceToBuilderHelper.convert_namespace", "src/hdmf/backends/utils.py:NamespaceToBuilderHelper.get_source_name", "src/hdmf/spec/write.py:NamespaceBuilder.export", "src/hdmf/backends/hdf5/h5tools.py:HDF5IO.__cache_spec"]}
{"id": "C214", "title": "A namespace loaded from the cache of a file is the namespace that was cached", "statement": "Loading a cached namespace into a catalog that has the included namespaces gives a namespace of this name and version that has the types of the sources and the included types, and no others.", "quantifier": "all namespaces that were cached, and all catalogs that do not have them yet", "why_tests_cant": "ranges over all namespaces and catalogs; the tests compare fixed ones", "anchors": ["src/hdmf/backends/utils.py:NamespaceToBuilderHelper.convert_namespace", "src/hdmf/backends/hdf5/h5tools.py:HDF5IO.load_namespaces", "src/hdmf/spec/namespace.py:NamespaceCatalog.load_namespaces"]}
{"id": "C215", "title": "A namespace that can be loaded can be cached", "statement": "HDF5IO.write with cache_spec can convert and export each namespace that was loaded from files.", "quantifier": "all namespaces", "why_tests_cant": "ranges over all names of sources and all schemas; the tests use base names with the ending yaml", "anchors": ["src/hdmf/backends/utils.py:NamespaceToBuilderHelper.convert_namespace", "src/hdmf/backends/utils.py:NamespaceToBuilderHelper.get_source_name", "src/hdmf/spec/write.py:NamespaceBuilder.add_source", "src/hdmf/backends/hdf5/h5tools.py:HDF5IO.__cache_spec"]}
{"id": "C216", "title": "The hierarchy of a catalog has every type once, below the type that it includes", "statement": "SpecCatalog.get_full_hierarchy returns a tree: at the top the types that include none, below each type its direct subtypes, sorted; each registered type is at one place.", "quantifier": "all catalogs", "why_tests_cant": "ranges over all catalogs and depths of inheritance; the tests use one with six types", "anchors": ["src/hdmf/spec/catalog.py:SpecCatalog.get_full_hierarchy", "src/hdmf/spec/catalog.py:SpecCatalog.get_subtypes"]}
{"id": "C217", "title": "Two validation errors are equal if they report the same problem of the same field at the same place", "statement": "Errors with a location are equal if reason, location and last part of the name are; errors without a location if reason and name are. No other errors are equal.", "quantifier": "all errors: names, reasons and locations", "why_tests_cant": "ranges over all texts of names and locations; the tests compare five pairs of fixed errors", "anchors": ["src/hdmf/validate/errors.py:Error.__eq__", "src/hdmf/validate/errors.py:Error.__hash__", "src/hdmf/validate/errors.py:Error.__equatable_str"]}
{"id": "C218", "title": "A validation reports each problem once and in the order in which it was found", "statement": "_remove_duplicates returns the first of each class of equal errors, in the order of the list, and nothing else; no problem is lost.", "quantifier": "all lists of errors", "why_tests_cant": "ranges over all lists of errors; the tests have one with a duplicate", "anchors": ["src/hdmf/validate/validator.py:GroupValidator._remove_duplicates", "src/hdmf/validate/errors.py:Error.__hash__"]}
{"id": "C219", "title": "The text of a validation error says what was expected and what was found", "statement": "Errors of one class with different expected or received types, dtypes, shapes, quantities or names have different reasons; errors of different classes have different reasons.", "quantifier": "all names, types, dtypes and shapes in the text of an error", "why_tests_cant": "ranges over all texts; the tests compare a few fixed texts", "anchors": ["src/hdmf/validate/errors.py:DtypeError", "src/hdmf/validate/errors.py:MissingDataType", "src/hdmf/validate/errors.py:IncorrectQuantityError", "src/hdmf/validate/errors.py:ShapeError", "src/hdmf/validate/errors.py:ExpectedArrayError", "src/hdmf/validate/errors.py:IncorrectDataType", "src/hdmf/validate/errors.py:IllegalLinkError"]}
{"id": "C220", "title": "A table that is read has the columns of the table that was written, in the same order", "statement": "Writing a DynamicTable and reading it gives a table with the same ids, the same column names in the same order and the same columns, and each name gives the same column.", "quantifier": "all tables: names, kinds and lengths of columns", "why_tests_cant": "ranges over all tables; the tests have one table without columns and several with rows", "anchors": ["src/hdmf/common/io/table.py:DynamicTableMap.attr_columns", "src/hdmf/container.py:Data.__bool__", "src/hdmf/common/table.py:DynamicTable.__init__"]}
{"id": "C221", "title": "Every date that is written as text passes validation as a date", "statement": "The isoformat text of a date or datetime, which is written for a dataset of dtype isodatetime, is accepted by the validator as isodatetime; different dates have different texts.", "quantifier": "all dates, times, microseconds and offsets from UTC", "why_tests_cant": "ranges over all dates and offsets; the tests use a few fixed texts", "anchors": ["src/hdmf/validate/validator.py:get_iso8601_regex", "src/hdmf/validate/validator.py:get_string_format", "src/hdmf/build/objectmapper.py:ObjectMapper.__convert_string"]}
{"id": "C222", "title": "A text passes validation as isodatetime if and only if it is a date", "statement": "get_string_format returns isodatetime exactly for the texts of a date, or of a date and time, in the format of ISO 8601.", "quantifier": "all texts", "why_tests_cant": "ranges over all texts; the tests use a few fixed ones", "anchors": ["src/hdmf/validate/validator.py:get_iso8601_regex", "src/hdmf/validate/validator.py:get_string_format", "src/hdmf/validate/validator.py:check_type"]}
{"id": "C223", "title": "The identifiers of the rows of a table are integers", "statement": "ElementIdentifiers accepts integers only: after any sequence of creating, appending and extending all identifiers are integers, arrays of any integer dtype are accepted, and identifiers that were written can be read.", "quantifier": "all data (lists, tuples, arrays, datasets, iterators), all sequences of append and extend", "why_tests_cant": "ranges over all data and histories; the tests use short lists of one kind of element", "anchors": ["src/hdmf/common/table.py:ElementIdentifiers._validate_new_data", "src/hdmf/common/table.py:ElementIdentifiers._validate_new_data_element", "src/hdmf/container.py:Data.append", "src/hdmf/container.py:Data.extend", "src/hdmf/data_utils.py:append_data"]}
{"id": "C224", "title": "Conversion to unsigned integers keeps the numbers", "statement": "to_uint_array returns an array of unsigned integers with the same numbers and the same size of elements if the numbers are integers and none is negative, and raises ValueError otherwise.", "quantifier": "all arrays of any dtype, all lists of integers", "why_tests_cant": "ranges over all numbers and dtypes; the tests use a few small arrays", "anchors": ["src/hdmf/utils.py:to_uint_array"]}
{"id": "C225", "title": "A sparse matrix has the elements of the array it was made from, and is the same after writing and reading", "statement": "CSRMatrix of a two-dimensional array has the elements of the array; the matrix made from the exposed data, indices, indptr and shape of a matrix is that matrix; parts that do not describe a matrix are rejected.", "quantifier": "all arrays, all matrices, all parts", "why_tests_cant": "ranges over all matrices; the tests use one matrix of 3 by 3", "anchors": ["src/hdmf/common/sparse.py:CSRMatrix.__init__", "src/hdmf/common/sparse.py:CSRMatrix.__check_arr", "src/hdmf/common/sparse.py:CSRMatrix.__getattr__"]}
{"id": "C226", "title": "The counter of samples reports the number of values that were iterated", "statement": "NumSampleCounter counts the values of all chunks: get_final_result is the sum of the lengths of the chunks when the iterator is exhausted, and raises NotYetExhausted before.", "quantifier": "all lists of chunks, all sequences of next, for loops and get_final_result", "why_tests_cant": "ranges over all iterators and histories; there are no tests", "anchors": ["src/hdmf/monitor.py:DataChunkProcessor", "src/hdmf/monitor.py:NumSampleCounter"]}
{"id": "C227", "title": "A type configuration is shared by all type maps", "statement": "Loading or unloading a configuration through any type map has the same effect as through the global one: all type maps see it, and it is the one by which the fields of containers are checked.", "quantifier": "all sequences of copying type maps, creating type maps, loading and unloading", "why_tests_cant": "ranges over all histories; the tests load one configuration through one map", "anchors": ["src/hdmf/common/__init__.py:load_type_config", "src/hdmf/common/__init__.py:unload_type_config", "src/hdmf/build/manager.py:TypeMap.__copy__", "src/hdmf/container.py:AbstractContainer._get_type_map"]}
{"id": "C228", "title": "A group builder is a dictionary of its items", "statement": "For a group builder, 'key in group' holds exactly for the keys; keys, values and items list the same items without repetition; looking up a key, or getting it with a default, gives the value listed for it; and the length and iteration are those of the keys.", "quantifier": "all histories of creating builders and setting groups, datasets, links and attributes, all keys and paths", "why_tests_cant": "ranges over all histories and keys; the tests look up a few names", "anchors": ["src/hdmf/build/builders.py:GroupBuilder.items", "src/hdmf/build/builders.py:GroupBuilder.keys", "src/hdmf/build/builders.py:GroupBuilder.values", "src/hdmf/build/builders.py:GroupBuilder.__contains__", "src/hdmf/build/builders.py:GroupBuilder.__getitem__", "src/hdmf/build/builders.py:GroupBuilder.get"]}
{"id": "C229", "title": "assertBuilderEqual passes exactly for equal builders", "statement": "TestCase.assertBuilderEqual passes if and only if the builders have the same class and name, if asked the same path and source, and no path from them leads to builders that differ.", "quantifier": "all pairs of trees of builders, both options", "why_tests_cant": "ranges over all trees; it is the function by which tests compare builders, and has itself a handful of tests", "anchors": ["src/hdmf/testing/testcase.py:TestCase.assertBuilderEqual"]}
{"id": "C230", "title": "The access codes in the HTML representation lead to the values shown", "statement": "In the HTML representation of a container, the text shown for a field, item or element (such as .a['b'][0]) evaluated on the container gives the value shown there, and every value that can be reached so is shown.", "quantifier": "all trees of containers, dictionaries, lists, arrays and scalars", "why_tests_cant": "ranges over all trees; the tests compare the page of one or two containers", "anchors": ["src/hdmf/container.py:Container._generate_html_repr", "src/hdmf/container.py:Container._generate_field_html"]}
{"id": "C231", "title": "The HTML representation is well formed and shows the names and values of the fields", "statement": "As a browser reads it, each tag of the page is closed in order, and the text seen is the names and values of all fields, whatever characters they have.", "quantifier": "all trees of values, all texts of names and values", "why_tests_cant": "ranges over all texts; the tests use names and values without special characters", "anchors": ["src/hdmf/container.py:Container._generate_html_repr", "src/hdmf/container.py:Container._generate_field_html", "src/hdmf/container.py:Container._generate_array_html"]}
{"id": "C232", "title": "The marked functions of all base classes run once when a class is created", "statement": "When a class with the metaclass ExtenderMeta is created, each function marked pre_init or post_init of the class and its base classes runs exactly once, those of base classes first.", "quantifier": "all classes with any method resolution order and any names of functions", "why_tests_cant": "ranges over all hierarchies; the tests create a few classes", "anchors": ["src/hdmf/utils.py:ExtenderMeta.__init__", "src/hdmf/utils.py:ExtenderMeta.pre_init", "src/hdmf/utils.py:ExtenderMeta.post_init"]}
{"id": "C233", "title": "assertRaisesWith and assertWarnsWith compare the message exactly", "statement": "TestCase.assertRaisesWith passes if and only if an exception of the class is raised whose message is exactly the one given, whatever characters it has; assertWarnsWith if and only if there is such a warning.", "quantifier": "all messages, exceptions and lists of warnings", "why_tests_cant": "ranges over all messages, also with characters special in regular expressions; it is the function by which tests check messages", "anchors": ["src/hdmf/testing/testcase.py:TestCase.assertRaisesWith", "src/hdmf/testing/testcase.py:TestCase.assertWarnsWith"]}
{"id": "C234", "title": "A container keeps the I/O object it was read with, and passes it to those below", "statement": "Once read_io of a container is set it never changes: another value is refused and changes nothing. get_read_io gives the I/O object of the nearest among the container and its ancestors that has one.", "quantifier": "all histories of creating containers, assigning and removing parents, and assigning I/O objects", "why_tests_cant": "ranges over all histories and depths; the tests use one parent and one child", "anchors": ["src/hdmf/container.py:AbstractContainer.read_io", "src/hdmf/container.py:AbstractContainer.get_read_io"]}
{"id": "C235", "title": "The text that shows a container has each of its fields once, in order", "statement": "repr(container) is its name and class followed by one line for each of its fields, in the order of their names, none twice and none left out.", "quantifier": "all containers with any fields, at any nesting", "why_tests_cant": "ranges over all containers; the tests compare the text of a few", "anchors": ["src/hdmf/container.py:Container.__repr__"]}
{"id": "C236", "title": "Lists, dictionaries and sets are shown with all elements, in order", "statement": "In repr(container) a list of containers is shown with every element in order, a dictionary with every key once and the type of its value, a set with every element, both sorted; elements are separated by commas and indented by their depth.", "quantifier": "all lists, dictionaries and sets, at any nesting", "why_tests_cant": "ranges over all nestings and lengths", "anchors": ["src/hdmf/container.py:Container.__smart_str", "src/hdmf/container.py:Container.__smart_str_list", "src/hdmf/container.py:Container.__smart_str_dict"]}
{"id": "C237", "title": "Every container can be shown", "statement": "repr(container) returns a text for every container, whatever its fields hold.", "quantifier": "all graphs of containers and all values of fields", "why_tests_cant": "ranges over all graphs; the tests show containers without cycles and with keys of one kind", "anchors": ["src/hdmf/container.py:Container.__repr__", "src/hdmf/container.py:Container.__smart_str"]}
{"id": "C238", "title": "A DataIO with data reads as its data", "statement": "After any use the length, the elements and the truth of a DataIO that has data are those of the data, and the data are never replaced by other data or taken away.", "quantifier": "all histories of setting, appending and extending through any number of DataIOs, and of changes of the wrapped lists by others", "why_tests_cant": "ranges over all histories; the tests make one or two calls", "anchors": ["src/hdmf/data_utils.py:DataIO.__len__", "src/hdmf/data_utils.py:DataIO.__bool__", "src/hdmf/data_utils.py:DataIO.__getitem__", "src/hdmf/data_utils.py:DataIO.data"]}
{"id": "C239", "title": "What is added through a DataIO is at the end of its data", "statement": "After any use the data of a DataIO are those it had, followed by all values appended and extended, in order; DataIOs with the same list see the same; a call that is refused changes nothing.", "quantifier": "all histories of setting, appending and extending through any number of DataIOs, and of changes of the wrapped lists by others", "why_tests_cant": "ranges over all histories and sharings; the tests append once", "anchors": ["src/hdmf/data_utils.py:DataIO.append", "src/hdmf/data_utils.py:DataIO.extend", "src/hdmf/data_utils.py:append_data", "src/hdmf/data_utils.py:extend_data"]}
{"id": "C240", "title": "A DataIO without data is not valid and gives nothing until data are set", "statement": "A DataIO made without data is false, and its length and elements are refused, until data are set; this is possible once if it has no dtype and shape, and never otherwise.", "quantifier": "all arguments and all histories", "why_tests_cant": "ranges over all histories", "anchors": ["src/hdmf/data_utils.py:DataIO.__init__", "src/hdmf/data_utils.py:DataIO.valid", "src/hdmf/data_utils.py:DataIO.__len__", "src/hdmf/data_utils.py:DataIO.data"]}
{"id": "C241", "title": "A spec built from a spec is the same spec, and says what its dictionary says", "statement": "For an AttributeSpec, LinkSpec, DatasetSpec or GroupSpec s made by build_spec, build_spec(s) == s; and s has the keys and values of the dictionary it was made from, up to keys with their default value, with the specs of its parts in the same order and of attributes with the same name the last.", "quantifier": "all dictionaries of specs that are accepted, groups nested to any depth", "why_tests_cant": "ranges over all nestings and combinations of keys; the tests build a few specs", "anchors": ["src/hdmf/spec/spec.py:ConstructableDict.build_spec", "src/hdmf/spec/spec.py:AttributeSpec.__init__", "src/hdmf/spec/spec.py:BaseStorageSpec.__init__", "src/hdmf/spec/spec.py:BaseStorageSpec.set_attribute", "src/hdmf/spec/spec.py:DatasetSpec.build_const_args", "src/hdmf/spec/spec.py:GroupSpec.build_const_args"]}
{"id": "C242", "title": "A spec with a name does not allow more than one instance", "statement": "No group, dataset or link spec has a name and a quantity that allows more than one instance, as the documentation of name and quantity says.", "quantifier": "all dictionaries of specs that are accepted", "why_tests_cant": "ranges over all quantities; the tests try '+' and '*'", "anchors": ["src/hdmf/spec/spec.py:BaseStorageSpec.__init__", "src/hdmf/spec/spec.py:DatasetSpec.__init__", "src/hdmf/spec/spec.py:LinkSpec.__init__"]}
{"id": "C243", "title": "A constant and a default value exclude each other, and decide whether an attribute is required", "statement": "No spec has both value and default_value; an attribute with a constant value is required, one with a default value is not, and otherwise required is as given.", "quantifier": "all dictionaries of attribute and dataset specs", "why_tests_cant": "ranges over all combinations of keys", "anchors": ["src/hdmf/spec/spec.py:AttributeSpec.__init__", "src/hdmf/spec/spec.py:DatasetSpec.__init__"]}
{"id": "C244", "title": "The names of dimensions agree with the shape", "statement": "In every attribute or dataset spec with dims, the shape allows the same numbers of dimensions as dims has names for; if only dims is given the shape has no limits on the lengths.", "quantifier": "all lists of names and shapes, with and without alternatives", "why_tests_cant": "ranges over all lists; the tests compare two lengths", "anchors": ["src/hdmf/spec/spec.py:AttributeSpec.__init__", "src/hdmf/spec/spec.py:DatasetSpec.__init__"]}
{"id": "C245", "title": "Specs have only types of data that the schema language has, and all of these", "statement": "The dtype of every attribute, dataset and column spec is a name the validator knows, a reference to an object or region, or (for datasets and columns) a list of columns; and each of these is accepted.", "quantifier": "all dtypes in all specs", "why_tests_cant": "ranges over all dtypes", "anchors": ["src/hdmf/spec/spec.py:DtypeHelper.check_dtype", "src/hdmf/spec/spec.py:DtypeSpec.check_valid_dtype", "src/hdmf/spec/spec.py:RefSpec.__init__", "src/hdmf/spec/spec.py:DatasetSpec.__init__"]}
{"id": "C246", "title": "Exactly the specs with one meaning are accepted", "statement": "build_spec accepts a group exactly if its keys and parts are accepted, no two of its groups and datasets without a name have the same type and no two of its links without a name have the same target; the order of the parts does not matter.  The conditions for attributes and datasets are exact as well.", "quantifier": "all dictionaries of specs, groups nested to any depth", "why_tests_cant": "ranges over all orders of named and unnamed parts", "anchors": ["src/hdmf/spec/spec.py:GroupSpec.__init__", "src/hdmf/spec/spec.py:GroupSpec.set_group", "src/hdmf/spec/spec.py:GroupSpec.set_dataset", "src/hdmf/spec/spec.py:GroupSpec.set_link", "src/hdmf/spec/spec.py:GroupSpec.__add_data_type_inc", "src/hdmf/spec/spec.py:GroupSpec.__add_target_type"]}
{"id": "C247", "title": "A region whose table is not in the same tree gives a warning, and no other", "statement": "When a container is given a parent, there is a warning for exactly those DynamicTableRegions in it whose table is neither in the same tree of containers nor read from a file.", "quantifier": "all trees of containers, all positions of regions and tables", "why_tests_cant": "ranges over all trees and orders of assembly; the tests build a few pairs of tables", "anchors": ["src/hdmf/common/table.py:DynamicTableRegion._validate_on_set_parent", "src/hdmf/container.py:AbstractContainer.parent", "src/hdmf/container.py:AbstractContainer.get_ancestors"]}
{"id": "C248", "title": "A region that points out of its tree in the end has given a warning", "statement": "If at the end of a history of setting parents and tables a DynamicTableRegion points to a table that is neither in its tree nor in a file, there was a warning about it; and there was none if it does not.", "quantifier": "all histories of setting parents and tables, of any length", "why_tests_cant": "ranges over all orders in which containers are put together", "anchors": ["src/hdmf/common/table.py:DynamicTableRegion._validate_on_set_parent", "src/hdmf/common/table.py:DynamicTableRegion.table", "src/hdmf/container.py:AbstractContainer.parent"]}
{"id": "C249", "title": "Setting a parent succeeds or changes nothing", "statement": "Setting the parent of a container that has none succeeds, and changes only its parent and the children of the parent; if it raises, nothing is changed.", "quantifier": "all trees of containers and all contents of the container", "why_tests_cant": "ranges over all trees", "anchors": ["src/hdmf/container.py:AbstractContainer.parent", "src/hdmf/common/table.py:DynamicTableRegion._validate_on_set_parent"]}
{"id": "C250", "title": "all_objects holds exactly the object and its descendants", "statement": "At any time, all_objects of a container holds exactly the container and its descendants, each under its object_id.", "quantifier": "all histories of building the tree, reading objects with ids, asking for and generating ids, all_children and all_objects", "why_tests_cant": "ranges over all trees and all histories; the tests ask once, after the tree is complete", "anchors": ["src/hdmf/container.py:AbstractContainer.all_objects", "src/hdmf/container.py:AbstractContainer.all_children", "src/hdmf/utils.py:LabelledDict.__setitem__"]}
{"id": "C251", "title": "all_children ends, and all_objects is never incomplete", "statement": "all_children of any object, also in a tree with a cycle or with ids that are not unique, returns or raises; all_objects raises or has every object that was found.", "quantifier": "all histories, including calls that raised, cycles and ids read from files", "why_tests_cant": "ranges over all states, including those after an error", "anchors": ["src/hdmf/container.py:AbstractContainer.all_children", "src/hdmf/container.py:AbstractContainer.all_objects", "src/hdmf/utils.py:LabelledDict.__setitem__"]}
{"id": "C252", "title": "An object id stays and is of one object", "statement": "The object_id of an object, once asked for, stays the same until generate_new_id of that object; different objects have different ids as long as ids read from files are not those of other objects; generate_new_id gives an id that no object has and changes no other.", "quantifier": "all histories and all pairs of objects", "why_tests_cant": "ranges over all interleavings of lazy generation of ids with other calls", "anchors": ["src/hdmf/container.py:AbstractContainer.object_id", "src/hdmf/container.py:AbstractContainer.generate_new_id", "src/hdmf/container.py:AbstractContainer.all_children"]}
{"id": "C253", "title": "Names of the same dtype are stored in the same type", "statement": "Data of a dtype are stored in a type that depends only on what the name of the dtype means: all its synonyms in the specification language give the same type, and it is the type the values are converted to when they are built.", "quantifier": "all names of dtypes, whatever the string, and all data", "why_tests_cant": "ranges over all strings and all data; the four tables of dtypes in the code are written by hand", "anchors": ["src/hdmf/backends/hdf5/h5tools.py:HDF5IO.__resolve_dtype__", "src/hdmf/backends/hdf5/h5tools.py:HDF5IO.__dtypes", "src/hdmf/spec/spec.py:DtypeHelper", "src/hdmf/build/objectmapper.py:ObjectMapper.__dtypes"]}
{"id": "C254", "title": "A field of a compound is stored like a dataset of its dtype", "statement": "Each field of a compound dataset is stored, under its name and in its place, in the same type as a dataset of that dtype with the same values would be.", "quantifier": "all lists of fields, all positions, all types of values", "why_tests_cant": "ranges over all compounds and types of values", "anchors": ["src/hdmf/backends/hdf5/h5tools.py:HDF5IO.__resolve_dtype_helper__", "src/hdmf/backends/hdf5/h5tools.py:HDF5IO.__list_fill__", "src/hdmf/build/objectmapper.py:ObjectMapper.convert_dtype"]}
{"id": "C255", "title": "Without a dtype data are stored in the type they have", "statement": "Data for which no type is given are stored in a type that holds all of it; they are refused only if they contain nothing. With a known dtype the type does not depend on the data.", "quantifier": "all nested lists and arrays of any depth", "why_tests_cant": "ranges over all nestings and mixtures of types", "anchors": ["src/hdmf/backends/hdf5/h5tools.py:HDF5IO.get_type", "src/hdmf/backends/hdf5/h5tools.py:HDF5IO.__resolve_dtype__", "src/hdmf/backends/hdf5/h5tools.py:HDF5IO.__scalar_fill__", "src/hdmf/backends/hdf5/h5tools.py:HDF5IO.__list_fill__"]}
{"id": "C256", "title": "A function takes the arguments it was decorated with", "statement": "A function decorated with docval takes exactly the arguments described, those without a default first and otherwise in the order given, also where descriptions come from get_docval of another function; get_docval returns the arguments with the names asked for, in that order, and raises a ValueError exactly if there is none of such a name.", "quantifier": "all histories of decorating functions, all lists of names and descriptions", "why_tests_cant": "ranges over all lists of descriptions and chains of reuse", "anchors": ["src/hdmf/utils.py:docval", "src/hdmf/utils.py:get_docval"]}
{"id": "C257", "title": "What is done with a copy of arguments does not change a function", "statement": "The arguments of a decorated function and their types never change, whatever is done with what get_docval returned, which is documented to be a copy.", "quantifier": "all histories of decorating functions, adding to macros and changing descriptions", "why_tests_cant": "ranges over all histories; the effect is at a distance, in a function other than the one that is decorated", "anchors": ["src/hdmf/utils.py:get_docval", "src/hdmf/utils.py:docval", "src/hdmf/utils.py:__resolve_type", "src/hdmf/utils.py:docval_macro"]}
{"id": "C258", "title": "A macro stands for all classes added to it", "statement": "An argument whose type is a macro, at any depth of lists, accepts exactly the classes that were added to the macro with docval_macro.", "quantifier": "all nested types, all histories of adding classes", "why_tests_cant": "ranges over all nestings of types and orders of decoration and registration", "anchors": ["src/hdmf/utils.py:docval_macro", "src/hdmf/utils.py:__resolve_type", "src/hdmf/utils.py:docval"]}
{"id": "C259", "title": "Types in files of another spec language are found and extended", "statement": "When a project with its own keys for types loads a spec file, each type, at any depth and whether the file uses the keys of the base language or of the project, gets its keys and values under the keys of the project, the type it includes is replaced by the spec of that type, and a file that includes an unknown type is refused.", "quantifier": "all spec dictionaries of any depth, all pairs of spec languages, all catalogs", "why_tests_cant": "ranges over all nestings of specs and all combinations of keys", "anchors": ["src/hdmf/spec/namespace.py:NamespaceCatalog.__convert_spec_cls_keys", "src/hdmf/spec/namespace.py:NamespaceCatalog.__resolve_includes", "src/hdmf/spec/namespace.py:NamespaceCatalog.__load_spec_file"]}
{"id": "C260", "title": "Attributes of wrapped data are those of the outermost object that has them", "statement": "Data in any number of wrappers (DataIO, DataChunk, TermSetWrapper, StrDataset) can be asked for any attribute: it is that of the outermost object that has it, an AttributeError is raised exactly if none has it, and hasattr always answers.", "quantifier": "all nestings of wrappers and data, all names of attributes, all limits on nested calls", "why_tests_cant": "ranges over all nestings and names, and over objects that are not fully built", "anchors": ["src/hdmf/data_utils.py:DataIO.__getattr__", "src/hdmf/data_utils.py:DataChunk.__getattr__", "src/hdmf/term_set.py:TermSetWrapper.__getattr__", "src/hdmf/utils.py:StrDataset.__getattr__"]}
{"id": "C261", "title": "A copy of a wrapper is a wrapper", "statement": "copy.copy and copy.deepcopy of a wrapper around data give a wrapper of the same kind, whatever is wrapped, and so does restoring it from its class and fields.", "quantifier": "all wrappers, everything they may wrap, all limits on nested calls", "why_tests_cant": "ranges over all wrapped objects; what happens depends on methods of what is wrapped", "anchors": ["src/hdmf/data_utils.py:DataIO.__deepcopy__", "src/hdmf/data_utils.py:DataChunk.__deepcopy__", "src/hdmf/term_set.py:TermSetWrapper.__getattr__"]}
{"id": "C262", "title": "The foreign columns of an aligned table are those its links start from", "statement": "get_foreign_columns of an AlignedDynamicTable lists exactly the DynamicTableRegion columns of the table and, unless ignored, of its categories with their names; has_foreign_columns says whether that list is not empty; and get_linked_tables begins with these columns in the same order.", "quantifier": "all graphs of tables, all categories, with or without ignoring them", "why_tests_cant": "ranges over all graphs of tables, with cycles, and relates three methods", "anchors": ["src/hdmf/common/alignedtable.py:AlignedDynamicTable.get_foreign_columns", "src/hdmf/common/alignedtable.py:AlignedDynamicTable.has_foreign_columns", "src/hdmf/common/alignedtable.py:AlignedDynamicTable.get_linked_tables"]}
{"id": "C263", "title": "The short form of what a query finds stands for the same positions", "statement": "Query.evaluate(expand=False) gives as many indices as with expand=True, in the same order, and each stands for the same positions.", "quantifier": "all results of an operation: slices with any bounds and steps, positions, lists of these", "why_tests_cant": "ranges over all slices and lists of them", "anchors": ["src/hdmf/query.py:Query.__collapse", "src/hdmf/query.py:Query.evaluate"]}
