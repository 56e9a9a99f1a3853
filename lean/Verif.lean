import Verif.Props.IdMap
import Verif.Props.Walker
import Verif.Props.Traverse
import Verif.Props.Geo
import Verif.Props.Plc
import Verif.Props.PlcValidate
import Verif.Props.PlcGeo
import Verif.Props.Export
import Verif.Props.Cavity
import Verif.Props.FlipIn
import Verif.Props.Delaunay
import Verif.Props.Integrity
import Verif.Props.FlipQuality
import Verif.Props.Progress
import Verif.Props.Recover
import Verif.Props.DelaunayMesh
import Verif.Props.DelaunayBuild
import Verif.Props.Tiling
import Verif.Props.TilingQuality
import Verif.Props.General
import Verif.Props.GeneralTri
import Verif.Props.Steiner
import Verif.Props.Points
import Verif.Props.Transform
import Verif.Props.Obj
import Verif.Props.TriSteiner
import Verif.Props.MoveSteiner
