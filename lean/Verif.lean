import Verif.Go.Float
import Verif.Go.Num
import Verif.Go.Str
import Verif.Go.Time
import Verif.Go.Utf8
import Verif.Model.Alias
import Verif.Model.Api
import Verif.Model.Arith
import Verif.Model.Bits
import Verif.Model.Bucketer
import Verif.Model.Client
import Verif.Model.Demo
import Verif.Model.Dist
import Verif.Model.Duration
import Verif.Model.Fine
import Verif.Model.Gob
import Verif.Model.Group
import Verif.Model.Health
import Verif.Model.Html
import Verif.Model.Http
import Verif.Model.JsonText
import Verif.Model.Locks
import Verif.Model.Messages
import Verif.Model.Misc
import Verif.Model.Nested
import Verif.Model.Path
import Verif.Model.Read
import Verif.Model.Registry
import Verif.Model.Render
import Verif.Model.RpcClient
import Verif.Model.Setup
import Verif.Model.Sys
import Verif.Model.Tree
import Verif.Model.Types
import Verif.Model.Units
import Verif.Model.Unmarshal
import Verif.Model.Value
import Verif.Model.Whole
import Verif.Model.Words
import Verif.Model.Zero
import Verif.Proof.Alias
import Verif.Proof.App
import Verif.Proof.Bits
import Verif.Proof.Bucketer
import Verif.Proof.BucketerFl
import Verif.Proof.Call
import Verif.Proof.Canon
import Verif.Proof.Careful
import Verif.Proof.Change
import Verif.Proof.Changing
import Verif.Proof.Client
import Verif.Proof.Cost
import Verif.Proof.Cost2
import Verif.Proof.Counter
import Verif.Proof.CounterHtml
import Verif.Proof.CounterPage
import Verif.Proof.CounterTime
import Verif.Proof.CounterTimeText
import Verif.Proof.Demo
import Verif.Proof.Demo2
import Verif.Proof.Demo3
import Verif.Proof.Demo4
import Verif.Proof.Detached
import Verif.Proof.Dist
import Verif.Proof.DistApi
import Verif.Proof.DistErr
import Verif.Proof.DistHist
import Verif.Proof.DistHisto
import Verif.Proof.DistMedian
import Verif.Proof.DistTime
import Verif.Proof.DistVals
import Verif.Proof.Duration
import Verif.Proof.Edges
import Verif.Proof.Fair
import Verif.Proof.Fine
import Verif.Proof.Fine2
import Verif.Proof.Fine3
import Verif.Proof.Fine4
import Verif.Proof.Float
import Verif.Proof.FloatErr
import Verif.Proof.Flow
import Verif.Proof.Group
import Verif.Proof.Group2
import Verif.Proof.Group3
import Verif.Proof.Group4
import Verif.Proof.Group5
import Verif.Proof.Group6
import Verif.Proof.GroupSim
import Verif.Proof.Handle
import Verif.Proof.Health
import Verif.Proof.Html
import Verif.Proof.HtmlOrder
import Verif.Proof.Http
import Verif.Proof.Ids
import Verif.Proof.Joint
import Verif.Proof.Joint2
import Verif.Proof.Joint3
import Verif.Proof.JsonGrammar
import Verif.Proof.JsonText
import Verif.Proof.Kinds
import Verif.Proof.Link
import Verif.Proof.Link2
import Verif.Proof.ListAgain
import Verif.Proof.ListRun
import Verif.Proof.ListRun2
import Verif.Proof.Lists
import Verif.Proof.Live
import Verif.Proof.Locks
import Verif.Proof.Locks2
import Verif.Proof.Locks3
import Verif.Proof.Markup
import Verif.Proof.Messages
import Verif.Proof.Nested
import Verif.Proof.Nested2
import Verif.Proof.Nested3
import Verif.Proof.NestedSim
import Verif.Proof.Num
import Verif.Proof.Often
import Verif.Proof.Order
import Verif.Proof.Page
import Verif.Proof.PageRun
import Verif.Proof.PageWhole
import Verif.Proof.PageWhole2
import Verif.Proof.Path
import Verif.Proof.PlayI
import Verif.Proof.PlayJ
import Verif.Proof.PlayW
import Verif.Proof.Poll
import Verif.Proof.PrettyOrder
import Verif.Proof.Reach
import Verif.Proof.ReadNow
import Verif.Proof.ReadRun
import Verif.Proof.Reads
import Verif.Proof.Record
import Verif.Proof.RegMany
import Verif.Proof.Registry
import Verif.Proof.Registry2
import Verif.Proof.Render
import Verif.Proof.Request
import Verif.Proof.SameTime
import Verif.Proof.Setup
import Verif.Proof.Setup2
import Verif.Proof.ShortOrder
import Verif.Proof.Sim
import Verif.Proof.Snap
import Verif.Proof.Sys
import Verif.Proof.Sys2
import Verif.Proof.Text
import Verif.Proof.TextOrder
import Verif.Proof.TextRead
import Verif.Proof.Track
import Verif.Proof.Tree
import Verif.Proof.Typed
import Verif.Proof.Types
import Verif.Proof.Unmarshal
import Verif.Proof.Visit
import Verif.Proof.Visit2
import Verif.Proof.Wait
import Verif.Proof.Wait2
import Verif.Proof.Whole
import Verif.Proof.Whole2
import Verif.Proof.Whole3
import Verif.Proof.Whole4
import Verif.Proof.Whole5
import Verif.Proof.Words
import Verif.Proof.Zero
import Verif.Props.Again
import Verif.Props.Alias
import Verif.Props.App
import Verif.Props.Bits
import Verif.Props.Bucketer
import Verif.Props.Call
import Verif.Props.Changing
import Verif.Props.Client
import Verif.Props.Cost
import Verif.Props.Counter
import Verif.Props.CounterHtml
import Verif.Props.CounterPage
import Verif.Props.CounterTime
import Verif.Props.CounterTimeText
import Verif.Props.Demo
import Verif.Props.Dist
import Verif.Props.DistHisto
import Verif.Props.DistStats
import Verif.Props.Duration
import Verif.Props.Edges
import Verif.Props.Embed
import Verif.Props.Ex
import Verif.Props.Ex2
import Verif.Props.Exist
import Verif.Props.Fair
import Verif.Props.Fine
import Verif.Props.Finite
import Verif.Props.Flow
import Verif.Props.Gob
import Verif.Props.Group
import Verif.Props.Handle
import Verif.Props.Health
import Verif.Props.Html
import Verif.Props.HtmlOrder
import Verif.Props.Http
import Verif.Props.Joint
import Verif.Props.Json
import Verif.Props.JsonText
import Verif.Props.Kinds
import Verif.Props.ListAgain
import Verif.Props.Listing
import Verif.Props.Lists
import Verif.Props.Live
import Verif.Props.Locks
import Verif.Props.Loss
import Verif.Props.Markup
import Verif.Props.Messages
import Verif.Props.Misc
import Verif.Props.Nested
import Verif.Props.Often
import Verif.Props.Order
import Verif.Props.PageRun
import Verif.Props.PageWhole
import Verif.Props.Path
import Verif.Props.Poll
import Verif.Props.PrettyOrder
import Verif.Props.Record
import Verif.Props.RegMany
import Verif.Props.Registry
import Verif.Props.Render
import Verif.Props.Request
import Verif.Props.Rest
import Verif.Props.RpcClient
import Verif.Props.Setup
import Verif.Props.ShortOrder
import Verif.Props.Text
import Verif.Props.TextOrder
import Verif.Props.TextRead
import Verif.Props.Types
import Verif.Props.Unmarshal
import Verif.Props.Wait
import Verif.Props.Whole
import Verif.Props.Wire
import Verif.Props.Words
import Verif.Props.Zero
import Verif.Spec.Again
import Verif.Spec.Alias
import Verif.Spec.App
import Verif.Spec.Bits
import Verif.Spec.Bucketer
import Verif.Spec.Call
import Verif.Spec.Changing
import Verif.Spec.Client
import Verif.Spec.Cost
import Verif.Spec.Counter
import Verif.Spec.CounterHtml
import Verif.Spec.CounterPage
import Verif.Spec.CounterTime
import Verif.Spec.CounterTimeText
import Verif.Spec.Decimal
import Verif.Spec.Demo
import Verif.Spec.Dist
import Verif.Spec.DistHisto
import Verif.Spec.Duration
import Verif.Spec.Edges
import Verif.Spec.Embed
import Verif.Spec.Fair
import Verif.Spec.Fine
import Verif.Spec.Flow
import Verif.Spec.Group
import Verif.Spec.Handle
import Verif.Spec.Health
import Verif.Spec.Html
import Verif.Spec.HtmlOrder
import Verif.Spec.Http
import Verif.Spec.Joint
import Verif.Spec.Json
import Verif.Spec.JsonText
import Verif.Spec.Kinds
import Verif.Spec.ListAgain
import Verif.Spec.Listing
import Verif.Spec.Lists
import Verif.Spec.Live
import Verif.Spec.Locks
import Verif.Spec.Loss
import Verif.Spec.Markup
import Verif.Spec.Messages
import Verif.Spec.Nested
import Verif.Spec.Often
import Verif.Spec.Order
import Verif.Spec.PageRun
import Verif.Spec.PageWhole
import Verif.Spec.Path
import Verif.Spec.Poll
import Verif.Spec.PrettyOrder
import Verif.Spec.Record
import Verif.Spec.RegMany
import Verif.Spec.Registry
import Verif.Spec.Render
import Verif.Spec.Request
import Verif.Spec.Rest
import Verif.Spec.RpcClient
import Verif.Spec.Setup
import Verif.Spec.ShortOrder
import Verif.Spec.Text
import Verif.Spec.TextOrder
import Verif.Spec.TextRead
import Verif.Spec.Tree
import Verif.Spec.Typed
import Verif.Spec.Types
import Verif.Spec.Unmarshal
import Verif.Spec.Wait
import Verif.Spec.Whole
import Verif.Spec.Wire
import Verif.Spec.Words
import Verif.Spec.Zero
import Verif.Tests
import Verif.TestsApi
import Verif.TestsGroup
import Verif.Axioms
