import Verif.Props.Contentline
import Verif.Props.Folding
import Verif.Props.Tree
import Verif.Props.Text
import Verif.Props.Duration
import Verif.Props.Datetime
import Verif.Props.Generic
import Verif.Props.Timespan
import Verif.Props.Compare
import Verif.Props.Queries
import Verif.Props.Normalize
import Verif.Props.Timeline
import Verif.Props.Period
import Verif.Props.Timezone
import Verif.Props.Today
import Verif.Props.Component
import Verif.Props.Duplicate
import Verif.Props.Order
import Verif.Props.Lists
import Verif.Props.Params
import Verif.Spec.Represent
import Verif.Proofs.Represent
import Verif.Proofs.RtConv
import Verif.Proofs.RtList
import Verif.Proofs.RtMember
import Verif.Proofs.RtSpan
import Verif.Proofs.RtObj
import Verif.Proofs.RtEntry
import Verif.Props.Alarm
import Verif.Props.RoundTrip
import Verif.Spec.Tzid
import Verif.Proofs.Tzid
import Verif.Props.Tzid
import Verif.Proofs.RtCal
import Verif.Props.CalendarTrip
import Verif.Model.CalendarText
import Verif.Spec.Unquote
import Verif.Spec.Writable
import Verif.Proofs.Unquote
import Verif.Proofs.Writable
import Verif.Proofs.CalText
import Verif.Props.CalendarText
import Verif.Py.List
import Verif.Model.Context
import Verif.Model.Container
import Verif.Model.Validation
import Verif.Model.Clone
import Verif.Spec.Context
import Verif.Spec.Container
import Verif.Spec.Validation
import Verif.Spec.Clone
import Verif.Proofs.Container
import Verif.Proofs.Slice
import Verif.Proofs.Validation
import Verif.Proofs.Clone
import Verif.Props.Context
import Verif.Props.Container
import Verif.Props.Validation
import Verif.Props.Clone
import Verif.Model.Person
import Verif.Spec.Person
import Verif.Proofs.Person
import Verif.Props.Person
import Verif.Model.Vtimezone
import Verif.Spec.Vtimezone
import Verif.Proofs.SortDates
import Verif.Proofs.Vtimezone
import Verif.Proofs.ReadZone
import Verif.Props.Vtimezone
import Verif.Spec.ZoneText
import Verif.Proofs.ZoneText
import Verif.Props.ZoneText
import Verif.Spec.Url
import Verif.Proofs.Urlparse
import Verif.Props.Url
import Verif.Model.Tzinfo
import Verif.Props.Tzinfo
import Verif.Proofs.Parsed
import Verif.Props.Parsed
import Verif.Spec.Accepted
import Verif.Proofs.Accepted
import Verif.Proofs.AcceptedSpan
import Verif.Proofs.AcceptedObj
import Verif.Proofs.AcceptedText
import Verif.Props.Accepted
import Verif.Props.Stable
import Verif.Props.Strip
import Verif.Props.Registry
import Verif.Props.Iter
import Verif.Props.Time
import Verif.Props.Rrule
import Verif.Props.AllDay
import Verif.Props.Describe
import Verif.Props.Grammar
import Verif.Spec.Accepts
import Verif.Proofs.Accepts
import Verif.Props.Accepts
import Verif.Model.Query
import Verif.Props.Query
import Verif.Model.Located
import Verif.Spec.Located
import Verif.Proofs.Located
import Verif.Proofs.Numbered
import Verif.Proofs.Culprit
import Verif.Props.Located
import Verif.Spec.Faults
import Verif.Proofs.Faults
import Verif.Proofs.FaultSpan
import Verif.Proofs.FaultLoad
import Verif.Proofs.FaultReject
import Verif.Props.Faults
import Verif.Spec.ZoneFaults
import Verif.Proofs.ZoneFaults
import Verif.Props.ZoneFaults
import Verif.Spec.Write
import Verif.Proofs.Write
import Verif.Proofs.WriteReject
import Verif.Proofs.WriteAssign
import Verif.Props.Write
import Verif.Spec.ReadWrite
import Verif.Proofs.ReadWrite
import Verif.Props.ReadWrite
import Verif.Spec.ZoneWrite
import Verif.Proofs.ZoneWrite
import Verif.Props.ZoneWrite
import Verif.Proofs.LineText
import Verif.Props.LineText
import Verif.Proofs.Exact
import Verif.Props.Exact
import Verif.Spec.ReadTime
import Verif.Model.CalendarTimeline
import Verif.Proofs.ReadTime
import Verif.Props.ReadTime
import Verif.Spec.Layout
import Verif.Proofs.Layout
import Verif.Props.Layout
import Verif.Model.Lazy
import Verif.Spec.Lazy
import Verif.Proofs.Lazy
import Verif.Props.Lazy
import Verif.Model.Cost
import Verif.Proofs.Cost
import Verif.Props.Cost
import Verif.Spec.SameTimeline
import Verif.Proofs.SameTimeline
import Verif.Props.SameTimeline
import Verif.Model.Fromutc
import Verif.Spec.Fromutc
import Verif.Proofs.Fromutc
import Verif.Props.Fromutc
import Verif.Model.Depth
import Verif.Spec.Depth
import Verif.Proofs.Depth
import Verif.Props.Depth
import Verif.Spec.ReadText
import Verif.Proofs.ReadText
import Verif.Props.ReadText
import Verif.Spec.ReadParts
import Verif.Proofs.ReadParts
import Verif.Props.ReadParts
import Verif.Model.Equal
import Verif.Spec.Equal
import Verif.Proofs.Equal
import Verif.Proofs.EqualLoad
import Verif.Proofs.EqualTrip
import Verif.Props.Equal
import Verif.Spec.Base64
import Verif.Proofs.Base64
import Verif.Props.Base64
import Verif.Spec.Survive
import Verif.Proofs.Survive
import Verif.Proofs.Needed
import Verif.Proofs.NeededList
import Verif.Proofs.NeededTime
import Verif.Props.Survive
import Verif.Spec.Whole
import Verif.Proofs.Whole
import Verif.Props.Whole
import Verif.Props.WholeCalendar
import Verif.Model.TimeOfDay
import Verif.Props.TimeOfDay
import Verif.Model.Assign
import Verif.Spec.Edited
import Verif.Props.Edited
import Verif.Model.CalEdit
import Verif.Spec.CalEdited
import Verif.Props.CalEdited
import Verif.Props.CloneTrip
import Verif.Model.CalNormalize
import Verif.Spec.CalNormalize
import Verif.Props.CalNormalize
import Verif.Model.TimeEdit
import Verif.Spec.TimeEdit
import Verif.Props.TimeEdit
import Verif.Model.Session
import Verif.Spec.Session
import Verif.Props.Session
import Verif.Props.SessionLater
import Verif.Spec.TimeEffect
import Verif.Props.TimeEffect
import Verif.Model.Shared
import Verif.Spec.Shared
import Verif.Props.Shared
import Verif.Model.PutExtra
import Verif.Spec.PutExtra
import Verif.Props.PutExtra
import Verif.Spec.Exchange
import Verif.Props.Exchange
