import Verif.Base.Py
import Verif.Base.Slice
import Verif.Base.Tac
import Verif.Base.Value
import Verif.Lemmas.Aligned
import Verif.Lemmas.AlignedGet
import Verif.Lemmas.Arrays
import Verif.Lemmas.Builders
import Verif.Lemmas.Catalog
import Verif.Lemmas.ClassGen
import Verif.Lemmas.ClassGenAccept
import Verif.Lemmas.ClassGenInit
import Verif.Lemmas.ClassGenName
import Verif.Lemmas.ClassGenSound
import Verif.Lemmas.Convert
import Verif.Lemmas.Docval
import Verif.Lemmas.FileIO
import Verif.Lemmas.GenericChunks
import Verif.Lemmas.H5Read
import Verif.Lemmas.H5ReadImage
import Verif.Lemmas.H5ReadMore
import Verif.Lemmas.H5RoundTrip
import Verif.Lemmas.H5Write
import Verif.Lemmas.H5WriteAppend
import Verif.Lemmas.H5WriteFrame
import Verif.Lemmas.H5WriteLinks
import Verif.Lemmas.H5WriteNew
import Verif.Lemmas.H5WriteRefs
import Verif.Lemmas.H5WriteTree
import Verif.Lemmas.Herd
import Verif.Lemmas.HerdZip
import Verif.Lemmas.Hier
import Verif.Lemmas.IsoDate
import Verif.Lemmas.LabelledDict
import Verif.Lemmas.Manager
import Verif.Lemmas.Mapper
import Verif.Lemmas.MapperBuild
import Verif.Lemmas.MapperFaithful
import Verif.Lemmas.MapperRead
import Verif.Lemmas.MapperRound
import Verif.Lemmas.MapperScope
import Verif.Lemmas.Multi
import Verif.Lemmas.Names
import Verif.Lemmas.NamesMap
import Verif.Lemmas.Namespace
import Verif.Lemmas.Nested
import Verif.Lemmas.NestedTotal
import Verif.Lemmas.NsCache
import Verif.Lemmas.NsLoad
import Verif.Lemmas.NsWrite
import Verif.Lemmas.Parents
import Verif.Lemmas.Ragged
import Verif.Lemmas.RefData
import Verif.Lemmas.Rows
import Verif.Lemmas.Same
import Verif.Lemmas.Share
import Verif.Lemmas.Spec
import Verif.Lemmas.SpecCache
import Verif.Lemmas.SpecCopy
import Verif.Lemmas.SpecCopyTotal
import Verif.Lemmas.Subspec
import Verif.Lemmas.Table
import Verif.Lemmas.TableInit
import Verif.Lemmas.TableInitLens
import Verif.Lemmas.TableInitMain
import Verif.Lemmas.TableInitOrder
import Verif.Lemmas.Tree
import Verif.Lemmas.TypeMap
import Verif.Lemmas.TypeTree
import Verif.Lemmas.VErr
import Verif.Model.Aligned
import Verif.Model.AlignedForeign
import Verif.Model.AlignedGet
import Verif.Model.AllObj
import Verif.Model.Arrays
import Verif.Model.BuilderEq
import Verif.Model.BuilderView
import Verif.Model.Builders
import Verif.Model.Catalog
import Verif.Model.Changes
import Verif.Model.ChunkStream
import Verif.Model.ClassGen
import Verif.Model.Collapse
import Verif.Model.Convert
import Verif.Model.DataIO
import Verif.Model.Delegate
import Verif.Model.DocShare
import Verif.Model.Docval
import Verif.Model.Enum
import Verif.Model.FileIO
import Verif.Model.GenericChunks
import Verif.Model.H5Read
import Verif.Model.H5RoundTrip
import Verif.Model.H5Write
import Verif.Model.Herd
import Verif.Model.HerdZip
import Verif.Model.Hier
import Verif.Model.Hooks
import Verif.Model.Html
import Verif.Model.Ids
import Verif.Model.IsoDate
import Verif.Model.LabelledDict
import Verif.Model.Manager
import Verif.Model.Mapper
import Verif.Model.Monitor
import Verif.Model.Multi
import Verif.Model.Names
import Verif.Model.Namespace
import Verif.Model.Nested
import Verif.Model.NsCache
import Verif.Model.NsWrite
import Verif.Model.Once
import Verif.Model.Orphan
import Verif.Model.Parents
import Verif.Model.Ragged
import Verif.Model.Raises
import Verif.Model.ReadIo
import Verif.Model.RefData
import Verif.Model.Region
import Verif.Model.Repr
import Verif.Model.Rows
import Verif.Model.Same
import Verif.Model.Shape
import Verif.Model.Share
import Verif.Model.Slicer
import Verif.Model.SortKeys
import Verif.Model.Sparse
import Verif.Model.Spec
import Verif.Model.SpecCache
import Verif.Model.SpecCopy
import Verif.Model.SpecDict
import Verif.Model.SpecKeys
import Verif.Model.StoreType
import Verif.Model.Subspec
import Verif.Model.Table
import Verif.Model.TableFile
import Verif.Model.TableInit
import Verif.Model.Terms
import Verif.Model.Tree
import Verif.Model.TypeConf
import Verif.Model.TypeMap
import Verif.Model.TypeTree
import Verif.Model.Utils
import Verif.Model.VErr
import Verif.Model.Validate
import Verif.Model.Vmap
import Verif.Model.Vmatch
import Verif.Model.Vtypes
import Verif.Model.Wrap
import Verif.Props.Aligned
import Verif.Props.AlignedForeign
import Verif.Props.AlignedGet
import Verif.Props.AllObj
import Verif.Props.Arrays
import Verif.Props.BuilderEq
import Verif.Props.BuilderView
import Verif.Props.Builders
import Verif.Props.Catalog
import Verif.Props.Changes
import Verif.Props.ChunkStream
import Verif.Props.ClassGen
import Verif.Props.Collapse
import Verif.Props.Convert
import Verif.Props.DataIO
import Verif.Props.Delegate
import Verif.Props.DocShare
import Verif.Props.Docval
import Verif.Props.Enum
import Verif.Props.FileIO
import Verif.Props.GenericChunks
import Verif.Props.H5Read
import Verif.Props.H5RoundTrip
import Verif.Props.H5Write
import Verif.Props.Herd
import Verif.Props.HerdZip
import Verif.Props.Hier
import Verif.Props.Hooks
import Verif.Props.Html
import Verif.Props.Ids
import Verif.Props.IsoDate
import Verif.Props.LabelledDict
import Verif.Props.Manager
import Verif.Props.Mapper
import Verif.Props.Monitor
import Verif.Props.Multi
import Verif.Props.Names
import Verif.Props.Namespace
import Verif.Props.Nested
import Verif.Props.NsCache
import Verif.Props.NsWrite
import Verif.Props.Once
import Verif.Props.Orphan
import Verif.Props.Parents
import Verif.Props.Ragged
import Verif.Props.Raises
import Verif.Props.ReadIo
import Verif.Props.RefData
import Verif.Props.Region
import Verif.Props.Repr
import Verif.Props.Rows
import Verif.Props.Same
import Verif.Props.Shape
import Verif.Props.Share
import Verif.Props.Slicer
import Verif.Props.SortKeys
import Verif.Props.Sparse
import Verif.Props.Spec
import Verif.Props.SpecCache
import Verif.Props.SpecCopy
import Verif.Props.SpecDict
import Verif.Props.SpecKeys
import Verif.Props.StoreType
import Verif.Props.Subspec
import Verif.Props.Table
import Verif.Props.TableFile
import Verif.Props.TableInit
import Verif.Props.Terms
import Verif.Props.Tree
import Verif.Props.TypeConf
import Verif.Props.TypeMap
import Verif.Props.TypeTree
import Verif.Props.Utils
import Verif.Props.VErr
import Verif.Props.Validate
import Verif.Props.Vmap
import Verif.Props.Vmatch
import Verif.Props.Vtypes
import Verif.Props.Wrap
import Verif.Axioms
