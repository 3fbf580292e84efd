import Verif.Cases.Accepts
import Verif.Cases.Agree
import Verif.Cases.Argparse
import Verif.Cases.Catalog
import Verif.Cases.Cli
import Verif.Cases.Command
import Verif.Cases.Comply
import Verif.Cases.Concurrent
import Verif.Cases.Configuration
import Verif.Cases.Conformance
import Verif.Cases.Describe
import Verif.Cases.Entry
import Verif.Cases.Expected
import Verif.Cases.Extras
import Verif.Cases.Groups
import Verif.Cases.Guarantee
import Verif.Cases.History
import Verif.Cases.Install
import Verif.Cases.Installed
import Verif.Cases.Json
import Verif.Cases.Listing
import Verif.Cases.Names
import Verif.Cases.Notes
import Verif.Cases.Nxdl
import Verif.Cases.NxdlTree
import Verif.Cases.Part
import Verif.Cases.Paths
import Verif.Cases.Reading
import Verif.Cases.RegexText
import Verif.Cases.Removed
import Verif.Cases.Removed2
import Verif.Cases.Renamed
import Verif.Cases.Reorder
import Verif.Cases.Schema
import Verif.Cases.Session
import Verif.Cases.Showable
import Verif.Cases.Stored
import Verif.Cases.Tree
import Verif.Cases.TreeAlone
import Verif.Cases.TreeHidden
import Verif.Cases.TreeItems
import Verif.Cases.TreeMore
import Verif.Cases.TreeName
import Verif.Cases.TreeOrder
import Verif.Cases.TreeStored
import Verif.Cases.Unused
import Verif.Cases.Version
import Verif.Cases.Whole
import Verif.Cases.Wider
import Verif.Lemmas.Argparse
import Verif.Lemmas.Argparse2
import Verif.Lemmas.Argparse3
import Verif.Lemmas.Argparse4
import Verif.Lemmas.Argparse5
import Verif.Lemmas.Basic
import Verif.Lemmas.Catalog
import Verif.Lemmas.Emits
import Verif.Lemmas.GroupTable
import Verif.Lemmas.Items
import Verif.Lemmas.Mins
import Verif.Lemmas.Paths
import Verif.Lemmas.Pick
import Verif.Lemmas.Prog
import Verif.Lemmas.Regex
import Verif.Lemmas.Run
import Verif.Model.AppDef
import Verif.Model.Argparse
import Verif.Model.Attribute
import Verif.Model.Cache
import Verif.Model.Cli
import Verif.Model.Concurrent
import Verif.Model.DefaultPlot
import Verif.Model.Describe
import Verif.Model.Finding
import Verif.Model.Groups
import Verif.Model.H5
import Verif.Model.H5Tree
import Verif.Model.ItemName
import Verif.Model.Json
import Verif.Model.LinkGraph
import Verif.Model.Main
import Verif.Model.Nxdl
import Verif.Model.NxdlParse
import Verif.Model.NxdlSchema
import Verif.Model.Process
import Verif.Model.Reading
import Verif.Model.Regex
import Verif.Model.RegexText
import Verif.Model.Report
import Verif.Model.Schema
import Verif.Model.SchemaManager
import Verif.Model.TreeGraph
import Verif.Model.Utils
import Verif.Model.Validate
import Verif.Model.Validator
import Verif.Model.Version
import Verif.Props.Accepts
import Verif.Props.Addressed
import Verif.Props.Agree
import Verif.Props.AppDef
import Verif.Props.Argparse
import Verif.Props.Argparse2
import Verif.Props.Argparse3
import Verif.Props.Argparse4
import Verif.Props.ArgparseTop
import Verif.Props.Attribute
import Verif.Props.Attribute2
import Verif.Props.Attribute3
import Verif.Props.AttributeTotal
import Verif.Props.Cache
import Verif.Props.Catalog
import Verif.Props.Catalog2
import Verif.Props.Cli
import Verif.Props.Cli2
import Verif.Props.Command
import Verif.Props.Command2
import Verif.Props.Completes
import Verif.Props.Completes2
import Verif.Props.Completes3
import Verif.Props.Completes4
import Verif.Props.Completes5
import Verif.Props.Comply
import Verif.Props.Concurrent
import Verif.Props.Concurrent2
import Verif.Props.Concurrent3
import Verif.Props.Configuration
import Verif.Props.Contents
import Verif.Props.Data
import Verif.Props.Data2
import Verif.Props.Dates
import Verif.Props.DefaultPlot
import Verif.Props.DefaultPlotV2
import Verif.Props.DefaultPlotV3
import Verif.Props.Describe
import Verif.Props.Describe2
import Verif.Props.Entry
import Verif.Props.Exceptions
import Verif.Props.Expected
import Verif.Props.Expected2
import Verif.Props.Expected3
import Verif.Props.Extract
import Verif.Props.Extras
import Verif.Props.Extras2
import Verif.Props.Extras3
import Verif.Props.Group
import Verif.Props.Group2
import Verif.Props.Group3
import Verif.Props.Group4
import Verif.Props.Group5
import Verif.Props.Guarantee
import Verif.Props.H5Tree
import Verif.Props.H5TreeArray
import Verif.Props.H5TreeAttrs
import Verif.Props.H5TreeLinks
import Verif.Props.History
import Verif.Props.Install
import Verif.Props.Install2
import Verif.Props.Install3
import Verif.Props.InstallHistory
import Verif.Props.Installable
import Verif.Props.Installed
import Verif.Props.ItemName
import Verif.Props.ItemName2
import Verif.Props.Json
import Verif.Props.Json2
import Verif.Props.Json3
import Verif.Props.Json4
import Verif.Props.Json5
import Verif.Props.Kinds
import Verif.Props.LinkGraph
import Verif.Props.Links
import Verif.Props.Listing
import Verif.Props.Listing2
import Verif.Props.Listing3
import Verif.Props.NonNexus
import Verif.Props.Notes
import Verif.Props.Notes2
import Verif.Props.Notes3
import Verif.Props.Notes4
import Verif.Props.NxTypes
import Verif.Props.NxdlDims
import Verif.Props.NxdlParse
import Verif.Props.NxdlParse2
import Verif.Props.NxdlParse3
import Verif.Props.NxdlParse4
import Verif.Props.NxdlParse5
import Verif.Props.NxdlSchema
import Verif.Props.NxdlSchema2
import Verif.Props.NxdlSchema3
import Verif.Props.NxdlSchema4
import Verif.Props.NxdlSchema5
import Verif.Props.NxdlSchemaSample
import Verif.Props.NxdlTree
import Verif.Props.ObjectText
import Verif.Props.Obstacles
import Verif.Props.OpenFiles
import Verif.Props.Part
import Verif.Props.Part2
import Verif.Props.Part3
import Verif.Props.Part4
import Verif.Props.Part5
import Verif.Props.Paths
import Verif.Props.Process
import Verif.Props.Process2
import Verif.Props.Process3
import Verif.Props.Process4
import Verif.Props.Process5
import Verif.Props.Process6
import Verif.Props.Process7
import Verif.Props.PutIn
import Verif.Props.Reading
import Verif.Props.Reading2
import Verif.Props.RegexText
import Verif.Props.RegexText2
import Verif.Props.Removed
import Verif.Props.Removed2
import Verif.Props.Removed3
import Verif.Props.Removed4
import Verif.Props.Renamed
import Verif.Props.Renamed2
import Verif.Props.Renamed3
import Verif.Props.Renamed4
import Verif.Props.Renamed5
import Verif.Props.Reorder
import Verif.Props.Reorder2
import Verif.Props.Reorder3
import Verif.Props.Reorder4
import Verif.Props.Report
import Verif.Props.Sample
import Verif.Props.Schema
import Verif.Props.SchemaManager
import Verif.Props.SchemaManager2
import Verif.Props.SchemaManager3
import Verif.Props.SchemaManager4
import Verif.Props.SchemaManager5
import Verif.Props.SchemaParts
import Verif.Props.Session
import Verif.Props.Shared
import Verif.Props.Showable
import Verif.Props.SimpleTypes
import Verif.Props.Singleton
import Verif.Props.Stored
import Verif.Props.Stored2
import Verif.Props.Stored3
import Verif.Props.SummaryParts
import Verif.Props.TreeAlone
import Verif.Props.TreeData
import Verif.Props.TreeGraph
import Verif.Props.TreeHidden
import Verif.Props.TreeItems
import Verif.Props.TreeMore
import Verif.Props.TreeName
import Verif.Props.TreeOrder
import Verif.Props.TreeRead
import Verif.Props.TreeRead2
import Verif.Props.TreeRead3
import Verif.Props.TreeStored
import Verif.Props.TrueNames
import Verif.Props.Unfold
import Verif.Props.Unused
import Verif.Props.Unused2
import Verif.Props.Usage
import Verif.Props.Utils
import Verif.Props.Version
import Verif.Props.Version2
import Verif.Props.Version3
import Verif.Props.Version4
import Verif.Props.VersionAll
import Verif.Props.VersionStyles
import Verif.Props.Whole
import Verif.Props.Whole2
import Verif.Props.Whole3
import Verif.Props.Wider
import Verif.Py.Basic
import Verif.Spec.Agree
import Verif.Spec.AppDef
import Verif.Spec.Argparse
import Verif.Spec.ArgparseTop
import Verif.Spec.Attributes
import Verif.Spec.Cache
import Verif.Spec.Catalog
import Verif.Spec.Cli
import Verif.Spec.Command
import Verif.Spec.Completes
import Verif.Spec.Comply
import Verif.Spec.Concurrent
import Verif.Spec.Contents
import Verif.Spec.Data
import Verif.Spec.DefaultPlot
import Verif.Spec.Describe
import Verif.Spec.Entry
import Verif.Spec.Exceptions
import Verif.Spec.Expected
import Verif.Spec.Extras
import Verif.Spec.Groups
import Verif.Spec.Guarantee
import Verif.Spec.H5Tree
import Verif.Spec.Installable
import Verif.Spec.Installed
import Verif.Spec.Json
import Verif.Spec.LinkGraph
import Verif.Spec.Links
import Verif.Spec.Names
import Verif.Spec.Notes
import Verif.Spec.NxdlParse
import Verif.Spec.NxdlSchema
import Verif.Spec.NxdlTree
import Verif.Spec.ObjectText
import Verif.Spec.Obstacles
import Verif.Spec.OpenFiles
import Verif.Spec.Part
import Verif.Spec.Paths
import Verif.Spec.Process
import Verif.Spec.PutIn
import Verif.Spec.Reading
import Verif.Spec.RegexText
import Verif.Spec.Removed
import Verif.Spec.Renamed
import Verif.Spec.Reorder
import Verif.Spec.Report
import Verif.Spec.Schema
import Verif.Spec.SchemaManager
import Verif.Spec.SchemaParts
import Verif.Spec.Session
import Verif.Spec.Shared
import Verif.Spec.Showable
import Verif.Spec.SimpleTypes
import Verif.Spec.Stored
import Verif.Spec.SummaryParts
import Verif.Spec.TreeAlone
import Verif.Spec.TreeData
import Verif.Spec.TreeGraph
import Verif.Spec.TreeHidden
import Verif.Spec.TreeItems
import Verif.Spec.TreeMore
import Verif.Spec.TreeRead
import Verif.Spec.TreeStored
import Verif.Spec.Unfold
import Verif.Spec.Unused
import Verif.Spec.Usage
import Verif.Spec.Utils
import Verif.Spec.Version
import Verif.Spec.VersionAll
import Verif.Spec.VersionStyles
import Verif.Spec.Whole
import Verif.Spec.Wider
