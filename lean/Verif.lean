import Verif.Model.Api
import Verif.Model.Walker
import Verif.Model.Order
import Verif.Model.Generator
import Verif.Model.Pool
import Verif.Model.Heap
import Verif.Model.Cache
import Verif.Props.Wire
import Verif.Props.Safety
import Verif.Props.Decode
import Verif.Props.Merge
import Verif.Props.RoundTrip
import Verif.Props.Tags
import Verif.Props.Program
import Verif.Props.Fields
import Verif.Props.Errors
import Verif.Props.Memory
import Verif.Props.Order
import Verif.Props.Stable
import Verif.Props.Generator
import Verif.Props.Pool
import Verif.Props.Heap
import Verif.Props.Cache
import Verif.Props.EndToEnd
import Verif.Props.Evolve
import Verif.Props.Abstract
import Verif.Props.Reads
import Verif.Props.Reading
import Verif.Props.GenFile
import Verif.Props.Flat
import Verif.Props.Total
import Verif.Props.Graph
import Verif.Props.Cost
import Verif.Props.Conc
import Verif.Props.Width
import Verif.Props.GenText
import Verif.Props.GenImport
import Verif.Props.GoRun
import Verif.Props.ErrText
import Verif.Props.Again
import Verif.Props.Source
import Verif.Props.SourceMsg
import Verif.Props.SourceApi
import Verif.Props.GenCodec
import Verif.Props.SourceWalk
import Verif.Props.SourceShared
import Verif.Props.CacheWrite
