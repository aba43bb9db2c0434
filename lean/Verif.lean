import Verif.Model.Attr
import Verif.Model.BigFloat
import Verif.Model.Cache
import Verif.Model.Catalog
import Verif.Model.Codec
import Verif.Model.Context
import Verif.Model.Discover
import Verif.Model.Document
import Verif.Model.Domain
import Verif.Model.Express
import Verif.Model.FactText
import Verif.Model.Fnv
import Verif.Model.Goroutines
import Verif.Model.Grid
import Verif.Model.GridJson
import Verif.Model.Http
import Verif.Model.Hydrate
import Verif.Model.Image
import Verif.Model.Instance
import Verif.Model.Ixbrl
import Verif.Model.Json
import Verif.Model.Keeping
import Verif.Model.Label
import Verif.Model.Linkbase
import Verif.Model.Listing
import Verif.Model.Media
import Verif.Model.Member
import Verif.Model.NetUrl
import Verif.Model.Network
import Verif.Model.ParseFloat
import Verif.Model.Path
import Verif.Model.Period
import Verif.Model.Prelude
import Verif.Model.Process
import Verif.Model.Quadrant
import Verif.Model.Query
import Verif.Model.Renderable
import Verif.Model.Router
import Verif.Model.Schema
import Verif.Model.Server
import Verif.Model.Setup
import Verif.Model.Startup
import Verif.Model.Store
import Verif.Model.TextBlock
import Verif.Model.Threads
import Verif.Model.Tree
import Verif.Model.Url
import Verif.Model.Web
import Verif.Model.Xml
import Verif.Model.XmlText
import Verif.Proof.Alike
import Verif.Proof.Attr
import Verif.Proof.AttrVal
import Verif.Proof.Basic
import Verif.Proof.BigFloat
import Verif.Proof.BigPow
import Verif.Proof.Cache
import Verif.Proof.CacheRuns
import Verif.Proof.Catalog
import Verif.Proof.Chance
import Verif.Proof.Codec
import Verif.Proof.Context
import Verif.Proof.Decimal
import Verif.Proof.DecimalOrder
import Verif.Proof.Discover
import Verif.Proof.Document
import Verif.Proof.Domain
import Verif.Proof.Express
import Verif.Proof.Fnv
import Verif.Proof.FnvEndless
import Verif.Proof.FnvWindow
import Verif.Proof.GridJson
import Verif.Proof.GridWF
import Verif.Proof.Hash
import Verif.Proof.Instance
import Verif.Proof.Ixbrl
import Verif.Proof.Json
import Verif.Proof.JsonText
import Verif.Proof.Label
import Verif.Proof.Linkbase
import Verif.Proof.Media
import Verif.Proof.Member
import Verif.Proof.NetUrl
import Verif.Proof.Network
import Verif.Proof.Order
import Verif.Proof.Path
import Verif.Proof.Period
import Verif.Proof.PeriodText
import Verif.Proof.Prelude
import Verif.Proof.Quadrant
import Verif.Proof.Query
import Verif.Proof.Relations
import Verif.Proof.Reloaded
import Verif.Proof.Router
import Verif.Proof.Runs
import Verif.Proof.SameLb
import Verif.Proof.Schema
import Verif.Proof.Store
import Verif.Proof.TextBlock
import Verif.Proof.Threads
import Verif.Proof.Traces
import Verif.Proof.Url
import Verif.Proof.Versions
import Verif.Proof.Ways
import Verif.Proof.Web
import Verif.Proof.XmlLoad
import Verif.Proof.XmlMarkup
import Verif.Proof.XmlRuns
import Verif.Proof.XmlStream
import Verif.Proof.XmlText
import Verif.Proof.XmlTree
import Verif.Props.ArcOrder
import Verif.Props.Attr
import Verif.Props.AttrExact
import Verif.Props.Cache
import Verif.Props.CacheSize
import Verif.Props.CalcRelations
import Verif.Props.Catalog
import Verif.Props.Chance
import Verif.Props.ChanceLabels
import Verif.Props.ColumnOrder
import Verif.Props.Context
import Verif.Props.Discover
import Verif.Props.Document
import Verif.Props.Domain
import Verif.Props.Dts
import Verif.Props.EndToEnd
import Verif.Props.EqualContexts
import Verif.Props.ExactCalc
import Verif.Props.ExactDocument
import Verif.Props.ExactDomain
import Verif.Props.ExactErrors
import Verif.Props.ExactKeys
import Verif.Props.ExactLangs
import Verif.Props.ExactMore
import Verif.Props.ExactNotes
import Verif.Props.ExactRows
import Verif.Props.ExactUrl
import Verif.Props.Exactly
import Verif.Props.Express
import Verif.Props.FactText
import Verif.Props.Followed
import Verif.Props.FollowedArcs
import Verif.Props.FollowedArcsDemo
import Verif.Props.Goroutines
import Verif.Props.Grid
import Verif.Props.GridJson
import Verif.Props.GridLabels
import Verif.Props.Hash
import Verif.Props.Http
import Verif.Props.Hydrate
import Verif.Props.Hypercubes
import Verif.Props.Image
import Verif.Props.Instance
import Verif.Props.Isolation
import Verif.Props.Ixbrl
import Verif.Props.Json
import Verif.Props.Label
import Verif.Props.Linkbase
import Verif.Props.Listing
import Verif.Props.Located
import Verif.Props.Media
import Verif.Props.Member
import Verif.Props.Money
import Verif.Props.Near
import Verif.Props.NetUrl
import Verif.Props.Network
import Verif.Props.Notes
import Verif.Props.Offers
import Verif.Props.Orders
import Verif.Props.OwnLanguages
import Verif.Props.OwnNamespace
import Verif.Props.Percent
import Verif.Props.Period
import Verif.Props.PeriodWords
import Verif.Props.Process
import Verif.Props.Published
import Verif.Props.PublishedLabels
import Verif.Props.Quadrant
import Verif.Props.Query
import Verif.Props.Registry
import Verif.Props.Relations
import Verif.Props.Relative
import Verif.Props.Reload
import Verif.Props.Renderable
import Verif.Props.Reordered
import Verif.Props.Respelled
import Verif.Props.Restart
import Verif.Props.Router
import Verif.Props.SameCell
import Verif.Props.Schema
import Verif.Props.Server
import Verif.Props.ServerDocument
import Verif.Props.ServerExpress
import Verif.Props.Setup
import Verif.Props.Spelling
import Verif.Props.Startup
import Verif.Props.Store
import Verif.Props.Tables
import Verif.Props.TextBlock
import Verif.Props.TypedContent
import Verif.Props.TypedRows
import Verif.Props.Units
import Verif.Props.Unreferred
import Verif.Props.Url
import Verif.Props.Versions
import Verif.Props.VersionsServed
import Verif.Props.Ways
import Verif.Props.Web
import Verif.Props.Written
import Verif.Props.Xml
import Verif.Props.XmlText
import Verif.Spec.Attr
import Verif.Spec.AttrVal
import Verif.Spec.Basic
import Verif.Spec.Cache
import Verif.Spec.Catalog
import Verif.Spec.Cells
import Verif.Spec.Chance
import Verif.Spec.Codec
import Verif.Spec.Context
import Verif.Spec.Decimal
import Verif.Spec.Discover
import Verif.Spec.Document
import Verif.Spec.Domain
import Verif.Spec.Dts
import Verif.Spec.Embed
import Verif.Spec.EndToEnd
import Verif.Spec.FollowedArcs
import Verif.Spec.Given
import Verif.Spec.Goroutines
import Verif.Spec.Grid
import Verif.Spec.GridJson
import Verif.Spec.GridLabels
import Verif.Spec.Hash
import Verif.Spec.Http
import Verif.Spec.Hydrate
import Verif.Spec.Image
import Verif.Spec.Instance
import Verif.Spec.Isolation
import Verif.Spec.Ixbrl
import Verif.Spec.Json
import Verif.Spec.Label
import Verif.Spec.Linkbase
import Verif.Spec.Listing
import Verif.Spec.Media
import Verif.Spec.Member
import Verif.Spec.Near
import Verif.Spec.NetUrl
import Verif.Spec.Network
import Verif.Spec.Notes
import Verif.Spec.OwnLanguages
import Verif.Spec.Path
import Verif.Spec.Percent
import Verif.Spec.Period
import Verif.Spec.Process
import Verif.Spec.Quadrant
import Verif.Spec.Query
import Verif.Spec.Relations
import Verif.Spec.Relative
import Verif.Spec.Reordered
import Verif.Spec.Respelled
import Verif.Spec.Restart
import Verif.Spec.Router
import Verif.Spec.Runs
import Verif.Spec.SameCell
import Verif.Spec.Schema
import Verif.Spec.Served
import Verif.Spec.Server
import Verif.Spec.Setup
import Verif.Spec.Startup
import Verif.Spec.Tables
import Verif.Spec.TextBlock
import Verif.Spec.Threads
import Verif.Spec.Units
import Verif.Spec.Unreferred
import Verif.Spec.Url
import Verif.Spec.Versions
import Verif.Spec.Ways
import Verif.Spec.Web
import Verif.Spec.Xml
import Verif.Spec.XmlText
