import Verif.Model.Text
import Verif.Model.Event
import Verif.Model.Input
import Verif.Model.Parse
import Verif.Model.Iter
import Verif.Model.Select
import Verif.Model.Stream
import Verif.Model.Api
import Verif.Model.File
import Verif.Model.Errors
import Verif.Props.Text
import Verif.Props.Attr
import Verif.Props.Select
import Verif.Props.Parse
import Verif.Props.Iter
import Verif.Props.Show
import Verif.Props.RoundTrip
import Verif.Props.File
import Verif.Props.Transform
import Verif.Props.Calls
import Verif.Props.Insert
import Verif.Props.Inject
import Verif.Props.Result
import Verif.Props.Alike
import Verif.Props.Concat
import Verif.Props.Laws
import Verif.Props.Calculus
import Verif.Props.Heap
import Verif.Props.Outline
import Verif.Props.Respell
import Verif.Props.Messages
import Verif.Props.Faults
import Verif.Props.Size
import Verif.Props.Order
import Verif.Props.Ahead
import Verif.Props.NoLookAhead
import Verif.Props.Source
import Verif.Props.Hidden
import Verif.Props.Format
import Verif.Props.UserState
import Verif.Props.Along
import Verif.Props.Settle
import Verif.Props.Asked
import Verif.Props.Ended
import Verif.Props.Convert
import Verif.Props.Cut
import Verif.Props.Apart
import Verif.Props.Copies
import Verif.Props.Agree
import Verif.Props.Form
import Verif.Props.ElementCalls
import Verif.Props.PerName
import Verif.Props.Marks
import Verif.Props.HandOn
import Verif.Props.Unmark
import Verif.Tests.Units
import Verif.Tests.Docs
import Verif.Tests.Inner
