{
 "C03": "Full characterisation of the binding proved (C03_binding); binding by position only if no optional parameter in the positional range is also given by keyword. Two violations proved: a value given twice is not rejected but slides to the next parameter; a required shape-checked parameter receives an attribute of the given object.",
 "C05": "Proved without allow_extra; with allow_extra undeclared keywords are kept if there is at least one declared parameter, but positional values can be dropped (witness).",
 "C06": "Exact for every non-empty shape specification; an empty shape specification raises IndexError (witness).",
 "C09": "Iteration axis only; HDF5 source and general iterables, arbitrary interleaving of next and maxshape.",
 "C10": {
  "note": "Each dataset queued once (as HDF5IO does); queuing one dataset twice interleaves (witness). The _fails witness goes beyond the statement.",
  "status": "proved"
 },
 "C100": "First requests and caching proved; the cache makes later register_map calls ineffective and gives a class registered for two types a single specification (the _fails theorems).",
 "C101": "Class lookup proved equal for every successful copy. The copy can raise (C101_copy_fails) and can write a class registered twice as another type (C101_same_types_fails); conditions under which neither happens are proved.",
 "C102": "Proved as long as nothing else is registered for the type; otherwise the object comes back as another class (C102_roundtrip_fails).",
 "C103": "All classes are listed; TypeSource placeholders are listed too (C103_only_classes_fails).",
 "C104": "Proved: the failed container is not cached and the tables stay consistent. Negation shown for queued references, which are left behind or lost.",
 "C105": "Negation shown: a modified container with an old builder is built anew each time it is met.",
 "C106": "Soundness without hypotheses (no error at any depth implies conformance, by induction on the depth); completeness and exactness where on the way down every child fits at most one sub-spec, quantities have a meaning, shapes are not empty and types are known. Completeness fails where sub-specs overlap (C106_complete_fails): the matching depends on the order of the children. The dtype of data is that of its first element (C110).",
 "C107": {
  "note": "No duplicates, inclusion of the errors of all children for all specs that apply, and location of every error, for all specs and builders.",
  "status": "proved"
 },
 "C108": "No RecursionError if the builders do not link in cycles (any specs). Violated otherwise: a link cycle exhausts any stack; kind mismatch TypeError, unknown type ValueError, attribute spec without dtype TypeError, empty compound dataset IndexError, empty shape IndexError, simple data for compound dtype ValueError.",
 "C109": "Proved for arrays of numbers of any number of dimensions, none empty, among nested lists, numpy arrays and fixed-size datasets. Violated for datasets that can grow (maxshape None against a fixed dimension), for ReferenceBuilder values of reference attributes and for lists of references (a reference is a dict of length 1).",
 "C11": "Proved for list-backed targets at full strength, also for columns constructed with data; a 1-D numpy target is never extended correctly and an on-disk target rejects empty vectors (witnesses).",
 "C110": "Violated: the fixed value is never looked at, and only the first element of a list is.",
 "C111": "proved for histories without removals, and with removals as long as no object is shared; fails for shared objects and after reset_parent",
 "C112": "fails: the parent is set before the name is checked, and lists are added one by one; proved: wrong type leaves no trace, and the dictionaries are unchanged for a rejected single object",
 "C113": "proved when lists and dicts are given with objects of the right types; the elements are not checked (C113_list_fails)",
 "C114": "assignment adds; proved that the result is the union",
 "C115": "Proved for containers that meet `FaithfulEnv` (distinct names and attributes, canonical values, every attribute in the specification). Refuted without: empty collections, attributes of an empty dataset, converted and fixed values.",
 "C117": "Proved for the attributes of the type itself, with distinct names other than the reserved ones. Refuted for attributes added where a type is included: the value the container holds is ignored.",
 "C118": "Proved for containers that meet `SaneEnv` (names of the items of a group distinct, no member of one specification matched by another). Fails when a child has the name of the group (C118_name_clash_fails): then the child counts as the group and its contents are written into it.",
 "C12": "Proved for list/array indexes at every depth; an on-disk index whose width is exceeded is left misaligned by the rejected addition (witness).",
 "C120": "Proved for all quantities except 0, for which the build warns that nothing is there.",
 "C121": "Refuted: if another link leads to the same target type, its target is read for the absent link. Proved when no other link in the group leads to that type.",
 "C122": "Refuted: own containers come before linked ones. Proved: the order within both parts, and nothing lost.",
 "C123": "Refuted for a child with a name different from the specification: it is written and not found. Proved when the names agree.",
 "C124": "Refuted: members of a specification for a subtype are read for the base type as well. Proved when the specifications do not overlap.",
 "C125": "Fails for a table with a region column for its own rows (C125_self_reference_fails: recursion error at every limit), for a group with an attribute and a member of one name, and for a scalar dataset that refers to a group. Proved: success excludes endless chains, no endless chain means no recursion error from some limit on, independence of the limit, and total correctness for the remaining files.",
 "C126": "Fails for scalar datasets that are references: the goal is read again (C126_scalar_reference_fails). Proved for members, links and reference attributes.",
 "C127": "Fails for two links in one group whose goals have the same name: one is silently lost (C127_link_lost_fails). Proved as equivalences for attributes, groups, datasets and data, and for links with goals of distinct names.",
 "C128": "Fails for the root, which is never entered into the cache (C128_root_fails). Proved for everything else as an equivalence.",
 "C129": "Fails in that a failed write leaves part of the tree in the file (C129_all_or_nothing_fails). The rest is proved for any number of builders, references and links.",
 "C13": "Proved for list/array indexes; an on-disk index clips values after a rejected widening (witness).",
 "C130": "Fails for a builder without a parent, which is taken for the root (C130_orphan_fails), and for a builder of another file, which is taken for what is at its path in this file (C130_other_file_fails). Proved: success if and only if every path is in the tree, nothing dangles after success, and references to builders of the tree that know their place lead to them.",
 "C131": "Fails for a new dataset of references, which overwrites a dataset of the same name (C131_references_fails). Proved for any tree, state and outcome as a frame property that names exactly what may change.",
 "C132": "Fails for attributes that are added to a dataset which was written before (C132_dataset_attributes_fails). The rest is proved.",
 "C133": "Idempotence is proved. Completing a failed write fails: the dataset of references stays empty (C133_retry_fails).",
 "C134": "Fails for a target that is not in the file and for one without a parent (C134_dangling_fails). The kind of link and the error for an unknown source are proved.",
 "C135": "Fails for something that refers to a group that holds it (C135_self_reference_fails), for a scalar dataset that refers to a group (C135_group_reference_fails) and for two links in one group to builders of the same name (C135_link_lost_fails). Otherwise proved: the file can be read, and every builder comes back with exactly its content. Links to other files are left out.",
 "C136": "Proved: the order is a permutation of the namespaces, and a namespace comes after what it includes unless that depends on it.",
 "C137": "Fails: 9.0.0 is taken for later than 10.0.0, also if the file was just written with 10.0.0; one namespace group without versions hides all. Proved: the version used is in the file, alphabetically the greatest, and not a placeholder if there is another; the written version is used if it is alphabetically the greatest.",
 "C138": "Fails: a namespace changed without a new version is not cached; after a write that broke off the namespace is never cached. Proved: nothing is overwritten, complete otherwise, idempotent.",
 "C139": "Fails: namespaces that include each other cannot be loaded. Proved: complete, in the reported versions, nothing replaced, and no failure for want of an included namespace.",
 "C14": {
  "note": "Proved for histories of successful calls from a table built without data and from any aligned table; a caught rejection breaks it (witness). The _fails witness goes beyond the statement.",
  "status": "proved"
 },
 "C140": "Fails: an unnamed spec with quantity * or +, or an unnamed link, which the type defines again is lost and the parent's is read; an attribute with the name of an inherited dataset, group, link or type is lost; a new unnamed link is lost if the parent has an unnamed spec of the type; an attribute is lost if the type is named like an inherited group that has such an attribute. Proved for all other types, with sub-specs compared by what build_spec makes of them; the order of the specs is not claimed; type definitions nested in a type are not modelled.",
 "C141": "Fails: an inherited unnamed spec that occurs at most once is copied too. Proved for attributes and named specs, under the conditions of C140.",
 "C142": "Fails: value and default_value of a dataset type are not copied. Proved for the other keys.",
 "C143": "Proved: the same attributes after copying and resolving again, and only the own ones are copied.",
 "C144": "Proved: letters kept, words joined, plural. Fails: the names are not injective (TimeSeries and time_series; many Unit and many Units), and Time_Series becomes time__series. ASCII names only.",
 "C145": "Proved: the names are exactly those of the paths and each value is at such a path. Fails: of two specs with the same name (attribute and dataset, unnamed groups and links of one type, a__b and b in a) the earlier one gets no name and is mapped to no attribute. Complete when the names differ.",
 "C146": "Proved for names that do not end with an underscore or have two in a row, which holds for types in camel case; fails without this.",
 "C147": "Proved when each spec object occurs once; complete under the conditions of C146. Fails for a spec object shared by two places.",
 "C148": "Proved: the last call decides, in both directions. Fails: unmap and mapping to another name leave get_attr_spec and get_carg_spec of the old name; two specs can have the same attribute. The directions agree for calls that use names no other spec has.",
 "C149": "Proved for single inheritance. Fails: overriding without the decorator has no effect; of several bases only the first one's functions are used.",
 "C15": "Proved for list-backed columns of every depth holding fewer than 2^64 values.",
 "C150": "Proved for columns whose indices and elements are among them, unless an index leads to an EnumData or to its elements. Fails: an EnumData with an index, listed before it, loses the index and has more rows than ids; data given as an iterator are rejected if listed before their index; the target of an index is compared by name only.",
 "C151": "Proved in full.",
 "C152": "Proved for columns that belong together. Fails: elements of an EnumData that are not listed are added only if colnames is given.",
 "C153": "Proved if no column is an iterator and no index leads to an EnumData. Fails: a column that colnames does not name is dropped silently; with an index on an EnumData the order decides whether the index or the elements are lost.",
 "C154": "Proved for columns, attributes, absent names and outermost indices. Fails: the name of an inner index gives the outermost index.",
 "C155": "Proved if no data are iterators and no elements are shared or named in colnames. Fails: with elements shared by two EnumData, the table cannot be copied.",
 "C156": "Proved if every region column has a table and other_tables are distinct; the steps allowed to the search are at least the number of tables. Fails: a region column whose table is not set gives an AttributeError; the category tables of an AlignedDynamicTable that is reached through a column are not searched.",
 "C157": "Proved if references are in range, region columns have at most one index, and in tables between first and last ids are unique and rows that are referred to have references. Fails: rows of the first table without references are dropped silently; those of a middle table give a KeyError; equal ids in a middle table multiply rows; a region column with two indices gives an AttributeError.",
 "C158": "Proved in full for tables whose rows have a value for each column.",
 "C159": "Proved for labels without empty tuples. With max_levels the labels of different columns may become equal (witness).",
 "C16": "Unchanged for missing columns, unknown keys and duplicate ids when the row brings in no new predefined column; false in general: two witnesses (unfit value for a ragged column; optional column created before rejection).",
 "C160": "Cells: proved in full. That a column gets an index exactly if lengths differ, and that frames are accepted, is proved for columns that are all lists or all values and have rows. Fails: a frame without rows gives an IndexError; a value after a list gives a TypeError; lists after a value, or in a column described without index, stay lists of lists.",
 "C161": "Proved for classes whose fields have distinct names other than the public attributes of Container. Fails: if the definition of the type itself has quantity '?' or '*', all its fields may be left out; a type that fixes the value of an attribute of its base is ignored.",
 "C162": "Proved for classes whose fields have distinct names other than the public attributes of Container; that calls succeed if defaults suit their fields and, with the generators of hdmf.common, no single container is given for a field of many. Fails: a default that its own argument does not take makes derived classes impossible to construct without it; a fixed name of a derived type is ignored if the base has one; a single container for a field of many is refused with hdmf.common loaded; a field named like a read-only property gives an AttributeError.",
 "C163": "Proved unless a class adds fields of many containers and others to a class that has only others. Fails there: __fields__ lacks the fields of the base.",
 "C164": "The number of calls and the last call are proved. Fails: it is called once for each generated class of the chain, the first times before the fields of the derived class are set; with fields of many containers skip_post_init is an unknown argument unless the generators of hdmf.common are loaded.",
 "C165": "What is taken is characterised for each dtype. Fails: uint, date, object, region and no dtype have no type; int8 to int32 take integers of any size and booleans; int64 and unsigned integers do not take Python integers.",
 "C167": "Proved for file objects that are open and have not read the file before; an object that has read it gives the same again whatever is done. Fails: an object that found a file without values goes on saying so after it was written, even with the same object; read on a closed file gives None without an error; open does not open a file again that was closed, so that read gives None and write fails.",
 "C168": "Proved if no builder that was written is dropped. Fails: a builder made at the address of a dropped one, with the same name, counts as written.",
 "C169": "What a write that succeeds does is proved. Fails: if the container cannot be built, the HERD file is replaced all the same; a HERD given without herd_path is ignored.",
 "C17": {
  "note": "ids and columns as stated; the rejected column and its indexes stay attached as children (witness). The _fails witness goes beyond the statement.",
  "status": "proved"
 },
 "C170": "Proved for a source that has not been read before. Fails: the export of a source that was read before and written since writes its old contents.",
 "C171": "Proved for histories in which a field that is set is in a container that is marked as modified by then, and for managers that are cleared (link_data=False). Fails: an attribute set after reading, or data appended, is not exported, since only children and parents are marked. Links and references are not modelled.",
 "C172": "What is accepted is characterised exactly. Fails against the signature: without data, shape and dtype the constructor raises InvalidDataIOError, so that Data.set_dataio never works with an H5DataIO; shape=() as well; a dtype given as a string is a TypeError; options are accepted without compression.",
 "C173": "Proved for filters that need not be loaded. Fails: allow_plugin_filters is not among the parameters, so that a wrapper with a loaded filter cannot be made again: ValueError.",
 "C174": "Proved for arrays, for any number of writes, and for datasets; for iterators and wrappers without data for the first write. Fails: a wrapper without data cannot be written twice; an iterator in a builder without a type is written as float32; the type of the first write is kept.",
 "C175": "Proved for wrappers without settings around data in memory. Fails: a copy is a DataIO without the settings; a copy of a wrapper without data cannot be written.",
 "C176": "Proved if each spec needs only types loaded before it (sources in the order of their first use, datasets before groups), no name is that of an included type, no source has been loaded from another directory, and no types are included from sources. Fails: specs added in a correct order to two sources in turn; a type with the name of an included one; a spec without a type; two namespaces with sources of the same name in different directories. Inherited fields are not modelled here.",
 "C177": "What an export that succeeds writes is proved. Fails: the title of a source is replaced by its doc; a source without types is a KeyError after other files have been written; a namespace file with the name of a source replaces it; a bad name is found out after the spec files have been written; a spec refused because of its source stays registered.",
 "C178": "Proved if no type of the namespace is asked for by name. Fails: include_type narrows a namespace that was included as a whole, in either order.",
 "C179": "Proved for classes with different column names and tables constructed with data that fit. Fails: a column that does not exist is a TypeError in t[column, i]; which with a Row object is an AttributeError; data given to the constructor are not checked.",
 "C180": "Construction, index and identity are proved for all calls; that the object has the values of the row is proved if no Row object gets another table or attribute and columns for Row objects take indices. Fails: negative indices; a column for Row objects only; a Row without a table; an explicit index.",
 "C181": "Proved for values that a double holds exactly, and exactly if not all columns are numbers or none has floats. Fails: extra_ok has no effect; integers above 2^53 next to floats are changed. The inference of dtypes by pandas is not modelled.",
 "C182": "Fails: only the first class down from Table that has columns can be constructed (proved as an equivalence); the generated __init__ of a class derived from it passes three arguments to one that takes two. Classes with their own __init__ are not modelled.",
 "C183": "Proved if containers have the names and types of their builders and no two builders have one location and type. Fails: two containers of one name and type in different groups without type of the same container; a class that gives its containers another name or is registered for another type (the parent stays a proxy, without an error); external links to a container in a file that is not read.",
 "C184": "Children are proved always; proxies for faithful names and types and no link to the root of another file. Fails: Proxy.resolve raises a TypeError since it adds itself to a string.",
 "C185": "Indices, slices, lists and iteration are proved for one axis and for compound datasets. Fails: d[i, j] is taken for d[[i, j]]; several rows of a dataset with two axes; slices of region references, iteration over them (whole containers) and builders for them; invert makes a new object each time. The indexing of h5py is modelled along the first axis.",
 "C186": "Proved for containers read from this file with this object. Fails: containers that it has written (the item can not be read until the file is opened again); containers of other files (the reference is to what has the same path here).",
 "C187": "Proved for < and >=, for <= and > if some element is greater than v, for == if v is there, for != if v occurs once and some element is greater. Fails: at the maximum and above (IndexError); == with a value that is not there gives all elements of a numpy array, != a TypeError; queries keep their first result.",
 "C188": "C188_expands and C188_determined hold for all tables with columns of equal length. Fails: tables that refer to themselves end in RecursionError at any depth (C188_endless for all endless chains of references); an empty cell of a ragged region into a table with a ragged column raises IndexError. Data are lists, ragged columns have one level.",
 "C189": "Proved for all selections that succeed.",
 "C19": "An empty selection of a table with a ragged column raises IndexError (witness).",
 "C190": "Proved whenever both succeed, and that both do for regions with an entry. Fails: an empty region into a table with a ragged column, where region[:] raises IndexError.",
 "C191": "Proved for selections of at least one row; of any rows without ragged columns.",
 "C192": "Proved for registrations and copies. Fails: after a merge the generators that only the receiving type map had come after CustomClassGenerator, which applies to everything, so they are not used again (C192_merge_forgets for all type maps); merging a type map with itself, which get_type_map(extensions=type_map) does, changes the list while iterating over it and puts MCIClassGenerator after CustomClassGenerator.",
 "C193": "Proved when it returns. Fails: a type map with a namespace the package does not have raises KeyError (C193_own_namespace for all such type maps), since namespaces are not merged.",
 "C194": "Proved as a refinement of the model without sharing, for programs whose calls write into no shared record; C194_load_partial, C194_add_partial and C194_merge_partial say when that is in terms of what the catalog shows. Fails: add_namespace with a source of the same name, and loading a namespace again in a copy after a load of it failed.",
 "C195": "Proved; totality needs that no category has the main table's name and no column is named 'id'.",
 "C196": "Proved for to_dataframe() and for ignore_category_ids=True with categories whose ids are 0, 1, .... Fails for other ids: pandas aligns by them, so row r is paired with the category's row of id r (C196_ignore_ids says so for all tables, C196_ignore_ids_fails is a witness).",
 "C197": "Proved for values and ragged columns (one form gives a tuple, the others a list). Fails for regions (number of the row against the row as a frame) and for None in table[row, (None, column)], a KeyError for every table.",
 "C198": "Proved for categories with a column and a main table with two. Fails: with a single cell the result is an array; table[table.name, row] and table[None, row] are the row of all tables.",
 "C199": "Proved for existing categories and columns other than 'id'. Fails: KeyError for an unknown category, False for ('category', 'id') and for the table's own name.",
 "C20": "Exact for reads of indices, and for reads of rows if the region's values are rows; nothing checks the values of a region given directly (witness).",
 "C200": "Proved by induction over the recursion for containers whose fields conform to the kinds of their classes; equality without floats and arrays. Fails: Data objects given directly are equal whatever data they hold; a string passes for the list of its characters, a list for a Data object, whole numbers in arrays for near ones.",
 "C201": "Proved for containers whose dictionaries are empty and whose Data hold sequences. Fails: TypeError for dictionaries (f1.values()[0]) and for Data with a single value; ignore_string_to_byte has no effect in fields and below Data.",
 "C202": "Proved without floats and arrays. Fails: a float against a whole number passes one way only; the tolerance is relative to the second argument.",
 "C203": "Proved for the written file. Fails: for the exported file the written one is opened again, so errors in the exported file are never raised (C203_exported_fails, for all files).",
 "C204": "Proved for paths without a directory part, with an exact characterisation of the tables that come back equal. Fails: for every path with a directory part, whatever the tables (UnboundLocalError, extracted files left behind).",
 "C205": "Exact characterisation of the columns of text that survive. Fails: pandas reads NA as missing, 007 as 7, True as a truth value.",
 "C206": "Proved for files not named like the tables. Fails: keys.tsv and the other names in the directory are overwritten and removed.",
 "C207": "Proved for the five tables that are compared. Fails: the entity-key table is not compared.",
 "C208": "Recorded, kept and nothing else: proved for all items. Fails: not all or nothing when a term is unknown. Which attributes are wrapped (the search of the tree) is given.",
 "C209": "Proved for tables with a reference. Fails: ValueError on empty tables.",
 "C21": "Stability needs non-negative indices: a negative index added with index=True changes meaning when terms are added (witness). Beyond 2^32 terms the width formula gives 128 bits and add_row raises TypeError after appending the term.",
 "C210": "Proved for all sequences and all permutations, with an exact condition for the error.",
 "C211": "Proved for specs whose names are unique in their kind. Fails: the earlier of two specs of one kind with one name can not be retrieved by name; the second is accepted.",
 "C212": "By name, and by the nearest type: proved. Fails: a list of specs, or a spec with another name, or of a group for a link, can be returned; TypeError if the namespace attribute is bytes or missing.",
 "C213": "Proved for every namespace for which caching succeeds. C213_merged_fails: sources that differ only in their ending share a dataset.",
 "C214": "Proved where the included namespaces are there and each spec needs only types loaded before it. Fails: the types selected from an included namespace are not kept, so all of its types are included; an element with a source and a namespace is loaded as a source and cached as a namespace.",
 "C215": "Proved for base names other than 'namespace' and distinct types. Fails: ValueError for every namespace with a spec in a file of a subdirectory, and for a source namespace.yaml.",
 "C216": "C216_tree gives the exact tree for every catalog. C216_each_partial: each type is there if its chain of included types ends at a registered type that includes none. Fails: types whose parent is not registered, that include themselves or are in a cycle are left out.",
 "C217": "Proved without brackets and colons in the field and the locations. Fails: with brackets errors about different things are equal; an error equals the text it is hashed by; comparing with something unhashable raises; setting the location changes the hash.",
 "C218": "Proved for all lists. C218_lost_fails: by C217 an error with brackets in its name may be lost.",
 "C219": "Proved where the expected text has no quote, the type no bracket and the quantity no blank. C219_ambiguous_fails shows the two other cases.",
 "C22": {
  "note": "Numbers of rows for every constructor call and history of successful calls; column lengths from any aligned state. The constructor makes up ids for a main table with empty predefined columns, and a caught rejection misaligns (witnesses). The _fails witness goes beyond the statement.",
  "status": "proved"
 },
 "C220": "Proved for tables with a column that has rows, and for tables without columns. For tables with columns but no rows C220_empty proves what is read: the same columns in the order of their names; C220_order_fails: their order is lost, because the names are not written.",
 "C221": "Exact: a datetime passes if and only if its offset from UTC is a whole number of minutes (C221_offset_fails: the local mean time of Berlin).",
 "C222": "C222_accepted gives exactly the texts that are accepted. Fails: 30 February, the year 0 and a text with a line feed at its end are accepted; the basic format, times without seconds and week dates are not.",
 "C223": "C223_history gives exactly what a list contains after any history. Fails: only the first element of a list is checked; an empty array of floats is accepted and makes floats of what is appended; arrays of unsigned integers are rejected, but iterators of them are accepted and the file that is written cannot be read.",
 "C224": "Proved for all arrays. Fails for lists without elements: they are arrays of floats.",
 "C225": "Proved: elements (C225_dense), invariant of all matrices (C225_ok), round trip, rejected parts. Fails: column numbers are not compared with the shape. SciPy is modelled as documented.",
 "C226": "The counter of the library is abstract and cannot be created (C226_abstract_fails). For a subclass that defines dtype and maxshape the count is proved for every history of next; it fails for for loops, which bypass the counter, and the exception before the end is AttributeError.",
 "C227": "Proved for all maps that come from the global one by copying, in any history; C227_independent: other maps do not matter. Fails for maps created with TypeMap().",
 "C228": "Proved for names without slash; C228_contains and C228_keys for all keys. Fails: a path can be looked up but is not in the group; len and iteration are those of the four sub-dictionaries; an attribute with a slash in its name is among the keys and cannot be looked up.",
 "C229": "C229_exact_partial: passes iff names (path, source) are equal and no path leads to a difference in class, data or attributes; C229_equivalence. Fails: dtype, maxshape and chunks of datasets, sources of sub-builders and names of the targets of links are not compared.",
 "C23": "A missing category or missing main column changes no table; a row rejected by a category stays in the main table, and the caller's dict is always changed (witnesses).",
 "C230": "C230_codes_partial: exactly the codes that give a value are shown, for containers with lists of at most one element and keys that are strings. Fails for lists (the code of an element has those of all elements before it), for numbers as keys, and for keys with quotes.",
 "C231": "Proved (C231_page_partial) for values without <, names without < and quotes, arrays in one line. Fails otherwise: nothing is escaped, and a line break is written as an end tag that was not opened. Character references are not modelled.",
 "C232": "C232_runs: exactly those not hidden by a function of the same attribute name in an earlier class; C232_once; C232_private: all of them, for private names and classes of different names. Fails: the order is that of the names, not of the classes; a class with the name of its base class (or that name with underscores), or a name that is not private, hides the function of the base class.",
 "C233": "Proved for all messages but for a newline at the end of the message, which is not noticed (C233_newline_fails). Of regular expressions only what the pattern uses is modelled.",
 "C234": "Proved: never changes (C234_once), nearest (C234_nearest_partial, whenever get_ancestors returns), termination (C234_returns). Fails: endless loop when containers are the parents of each other; AttributeError below an unresolved proxy.",
 "C235": "C235_fields_partial: exactly the fields whose value is not empty, strictly sorted. Fails: empty tables, texts, dictionaries and sets are left out, though empty lists are shown.",
 "C236": "Proved. np.asarray of a list is given by its text; lists and tuples are the same.",
 "C237": "C237_shown_partial: without cycles, with keys of one kind, and values that know whether they are empty; C237_dict_iff: a dictionary can be shown iff its keys can be compared. Fails: RecursionError for containers that are fields of each other, TypeError for keys of different kinds, ValueError for values whose truth is not defined.",
 "C238": "Proved for lists, tuples and arrays (C238_read, C238_once). Fails for iterators over chunks without a known end: true, but no length.",
 "C239": "C239_list: lists, shared in any way; C239_array_partial: arrays that are not extended; C239_refused. Fails: extend makes two rows of an array, or refuses the values (np.vstack); tuples are refused.",
 "C24": "Objects compared by identity, Container parents, proxies included; false with a Data parent and for children compared by content (witnesses).",
 "C240": "C240_made, C240_invalid_partial. Fails: a DataIO with a shape and no data has a length, but is false and has no elements.",
 "C241": "C241_rebuild for all four kinds (induction over the nesting), C241_attribute, C241_link, C241_dataset, C241_group. data_type_inc and target_type are names; dropped unknown keys are not modelled.",
 "C242": "Proved for datasets; for groups '+' and '*' only. Fails: GroupSpec accepts a name with quantity 3 or 'zero_or_many', LinkSpec a name with any quantity.",
 "C243": "Proved for attributes (C243_values_partial, C243_refused). Fails for datasets, which accept both values.",
 "C244": "Proved without alternatives; with them only the outer lengths agree. Fails: dims with alternatives and no shape give one shape whose dimension is the number of alternatives.",
 "C245": "Proved but for lists as dtype of a column, allowed by the documentation of DtypeSpec but always refused, by a TypeError (C245_types_fails).",
 "C246": "C246_attribute, C246_dataset, C246_group: conditions on the dictionary, necessary and sufficient.",
 "C247": "Exact where the table is not itself the root of the tree (C247_warns_partial), and no other container warns (C247_only). Fails: a region to the aligned table in one of its categories warns; a region added to a table that has a parent does not.",
 "C248": "No warning is missed for regions that were in their table, with the table set, when it got its parent, whatever happens later (C248_not_missed_partial). Fails: the order of assembly gives warnings that are wrong in the end.",
 "C249": "Proved if every region has a table and parents have no cycle. Fails: a region without a table raises an AttributeError after the parent was set.",
 "C25": "For histories without errors and Container parents; cycles arise when an error is caught or with a Data parent (witnesses).",
 "C250": "Exact when asked for the first time (C250_current_partial) and right after all_children (C250_refreshed). Fails: the dictionary is kept, so that children that are added later are missing, children that were removed are still there and new ids are not found.",
 "C251": "Ends always (C251_ends); complete if all_children returned (C251_whole_partial). Fails: after a TypeError on ids that are not unique, the second request returns the part that was filled.",
 "C252": "uuid4 is assumed to give ids that were never seen.",
 "C253": "Proved for all names but 'numeric' and 'date' (synonyms) and for all strings but those of times (agreement with the mapper). Fails: 'date' has no type in the file; times are made bytes by the mapper and text by the backend.",
 "C254": "Proved for values that are not wider than the dtype of the field. Fails: wider values are kept in a dataset but cut in a compound; fields of dtype 'numeric' and 'date' become float64.",
 "C255": "Proved for nested lists whose parts have one type; the type is always that of some part (C255_of_a_part); known dtypes do not look at the data (C255_known). Fails: only the first part is looked at.",
 "C256": "Checks of enums and unknown keys while decorating are not modelled.",
 "C257": "Proved if nothing that was returned is changed and no new macro is made. Fails: get_docval returns the dictionaries themselves; decorating resolves the types in them, so that a macro made later changes another function.",
 "C258": "Proved for the classes added before the function is decorated. Fails: classes added later are not accepted.",
 "C259": "Proved for the top of a spec in either language and for types below it in the language of the project. Fails: keys of types below the top are not changed, so that the types they include are neither replaced nor checked. Building the spec object is not part of it.",
 "C26": "As stated; returning needs an acyclic tree (C25).",
 "C260": "Proved for wrappers that are built and have data. Fails: hasattr of a DataIO without data raises InvalidDataIOError; a wrapper whose __init__ was not called recurses without end.",
 "C261": "Proved for classes that define the methods (DataIO, DataChunk). Fails: a deep copy of an array in a TermSetWrapper is the array without its terms; other copies of a TermSetWrapper, and unpickling a DataChunk, end in a RecursionError. Which methods copy and pickle look for is taken from the standard library.",
 "C262": "The agreement with links is for tables whose regions all have a table, as for C156.",
 "C263": "Proved for lists and for single slices without a step. Fails: the step of a single slice is dropped, unlike in a list; the arrays of this repository give no slices with a step, other array classes may.",
 "C27": "Histories without errors on plain objects, as C24 and C25.",
 "C28": "All as stated, over arbitrary histories of assignments; container values and `_field_config` are parameters.",
 "C29": "Key rows of this HERD; a Key row of another HERD is accepted and leaves a dangling index (witness).",
 "C30": "Recorded, kept and looked up for all histories; exactness (nothing else is retrievable) for histories with string keys. Resolution of container and attribute by the type map is a parameter.",
 "C31": "Entity ids, files, objects and entity-key rows are unique; repeating a call with a string key adds a second equal object-key row (witness), with a Key row nothing.",
 "C32": "URI stability for all histories; a call without key raises after file and object rows were added (witness); every other rejected call changes nothing.",
 "C33": "As stated.",
 "C34": "Identity up to content equality: a builder equal by content to the one stored is not stored (witness); a name containing a slash is not found (witness).",
 "C35": "C35_stable holds for all histories without purge and without a second prebuilt for the container; the inverse-tables part holds for all container graphs, also cyclic ones, when prebuilt is called with unregistered objects; negation shown for arbitrary prebuilt calls. Mapper internals are abstracted to event lists.",
 "C36": "FIFO, exactly-once and empty queue for all mapper behaviours and histories, also with cyclic container graphs. Mapper internals are abstracted to event lists. What happens to leftovers of a build that raised is C104.",
 "C37": "Proved for all specs whose sub-specs have different names, at every level; negations shown for child and parent entries of different kinds under one name, for repeated names, and for is_inherited_type.",
 "C38": "Proved for every history of accepted registrations and answered queries in which no type is first registered after it was part of an answer; the stale memo (parent registered after a query) and the endless loop on a cycle of types are proved as _fails theorems.",
 "C39": "Registered specs and sources never change under any history; rejected registrations leave specs, sources and memo alone; but a rejected registration changes the parent table, so get_hierarchy changes (C39_rejected_fails).",
 "C40": "Full statement for registered types in acyclic catalogs; a type only used as a parent gets () (C40_unregistered_fails).",
 "C41": "Specs, types and subtypes survive copying; hierarchies and sources do not, and registering a spec again in the copy is a KeyError (C41_copy_fails).",
 "C42": "Exact characterisation for all spec names and all received names other than float16/float96/float128, which are rejected (C42_fails).",
 "C43": "Holds without isodatetime fields; after an isodatetime field the rest is not checked (C43_date_fails).",
 "C44": "Exact for all non-empty specs; an empty list of dimensions raises IndexError (C44_fails).",
 "C45": "Assignment is a partition, sound and complete for fitting; the choice among several is characterised (C45_choice).",
 "C46": "Exact for positive numbers, '?', '*', '+'; 0 and spelled-out quantities are mishandled (C46_fails).",
 "C47": "Holds when each type is registered after the one it includes; otherwise subtypes are lost (C47_order_fails).",
 "C48": "Proved for every pair of dtypes and, piece by piece, for nested lists of any depth; the dtype reported for a whole list is only right when all pieces agree: for mixed lists, trailing empty lists the claim fails (witnesses).",
 "C49": "Proved for all alternatives and single shapes when the data has a shape; data without a shape raises TypeError (witness); a refinement of the shape that does not repeat the labels drops them (witness).",
 "C50": "Content is preserved at every path; the order holds except that name is moved to the front when neurodata_type_def is absent (C50_name_first, C50_order_fails).",
 "C51": "< and >= are exact for all inputs; <=, > and == are exact iff some element is greater than the value and raise IndexError otherwise (C51_error, C51_max_fails).",
 "C52": "Exact rationals (no float rounding), positive step. Exact for values not below the start (and, for ==, before the end); wrong otherwise (C52_fails).",
 "C53": "Invariant in full for lists, tuples, scalars, arrays and compound arrays; exact contents for lists except one-shot iterators, which are used up by the validation (C53_iterator_fails); arrays become two-dimensional on extend (C53_array_fails); other list methods bypass validation (C53_insert_fails).",
 "C54": "All histories of loads and unloads of well-formed files; a malformed file is merged partly (C54_malformed_fails).",
 "C55": "Earlier contents always kept; unchanged on failure when one namespace reads at most one file last; fails in general: files read before the failure count as loaded (witness).",
 "C56": "Exact for the int*, uint*, float* names and for columns of arbitrary compound dtypes; negation shown for other names (only the first letter is compared).",
 "C57": "Exact for determined shapes, non-empty axis lists and axes not below -ndim; the remaining cases raise (C57_fails).",
 "C59": "Slices: full. Index lists: for at least two indices; a one-index region is broken (C59_single_fails).",
 "C60": "getargs and popargs_to_dict as stated; a refused popargs is not atomic (witness).",
 "C61": "Callback theorem excludes del d[k] with a key containing '==' (the query syntax intercepts it); witness in the _fails theorem.",
 "C62": "Plain keys only; keys containing '==' are parsed as queries, witness in the _fails theorem.",
 "C63": "True answers of is_ragged are correct and it is exact for two levels; deeper raggedness is missed (witness). Shape as stated for arrays without an empty dimension before the last.",
 "C64": "Proved for values other than None without allow_extra; an explicit None is replaced by the default (witness).",
 "C65": "Loop termination and default buffer proved for all inputs; default chunk shape for scale factor >= 1; scale factor 0 (item larger than the chunk limit) yields an empty chunk shape (witness). The floating-point scale factor itself is a parameter of the model.",
 "C67": "Slices in full; lists and masks if non-empty; row -n and empty lists raise IndexError (witness).",
 "C68": {
  "note": "Both parts proved; mixing automatic and explicit ids without enforce_unique_id can repeat an id (witness). The _fails witness goes beyond the statement.",
  "status": "proved"
 },
 "C71": "As stated; termination for trees built without errors, no unresolved proxies.",
 "C72": "proved except for detachment by del with a key containing \"==\", where another object may lose its parent (C72_detach_fails)",
 "C73": {
  "note": "As stated; a builder created with an explicit parent is not reached when added later (witness). The _fails witness goes beyond the statement.",
  "status": "proved"
 },
 "C74": "Adoption and names as stated; a rejected assignment may leave the value stored (witness).",
 "C75": "No lower bound is checked: negative indices are accepted (witness).",
 "C76": "As stated; a HERD without references raises ValueError instead of giving an empty table (witness).",
 "C77": "String keys; with two keys of one name on an object get_key returns the other one, and an unknown object gives AttributeError (witnesses).",
 "C78": "As stated; a main column named like a category makes the table unextendable, and an id inside the data dict is dropped (witnesses).",
 "C79": "Each query is proved exact under the condition that excludes the failing cases shown in C79_list_fails / C79_range_fails.",
 "C80": "Holds for all names but those of dates (C80_fails).",
 "C81": "Soundness in full; completeness when every child fits at most one sub-spec; refuted in general (C81_fails).",
 "C82": "Holds when each term has a meaning with a declared prefix (C82_fails otherwise).",
 "C83": "Mapper internals abstracted to event lists. Modified containers are C105.",
 "C84": "All mapper behaviours and histories; mapper internals abstracted to event lists.",
 "C85": "Attributes and compound columns are kept; negation shown for dtype, which is dropped when not repeated and may be replaced by an unrelated one.",
 "C86": "Silent conversions proved lossless; value-keeping fails for signed to unsigned of the same width (witness), proved for equal kinds, unsigned into wider signed, and bool.",
 "C87": "ASCII output and faithfulness on ASCII strings proved; backslash escapes collide with literal backslashes (witness); numbers are refused in lists but arrays of numbers are stringified (witness).",
 "C88": "Value untouched proved; 'numeric' looks at the first element only (witness), proved when all pieces share one dtype.",
 "C89": "Proved.",
 "C90": "Closure, order and contents proved; a namespace with a type that may contain itself cannot be included (witness; and for every cyclic dependency at every recursion depth).",
 "C91": "Fails when a namespace is listed twice (witness); the last entry for each namespace is proved to be reported exactly.",
 "C92": "Proved.",
 "C93": "Fails: TypeError as soon as a type is left out (witness); proved that a successful request never leaves anything out.",
 "C94": "Fails for files of the same name in different directories (witness); otherwise independence proved.",
 "C95": "Not atomic (witness); disjoint merges proved complete.",
 "C96": "The attributes are those of the last registration (C96_attr_last), the written type that of the first: they disagree after a namespace including the type is loaded (C96_attr_fails) and agree for classes registered for a single type.",
 "C98": "Fails for types that depend on themselves, e.g. through a reference attribute: every call raises whatever the recursion limit (C98_cycle, C98_total_fails). Proved for well-founded dependencies.",
 "C99": "Proved while nothing is registered explicitly for either name; a later registration for the source alone splits the type into two classes (C99_late_registration_fails)."
}