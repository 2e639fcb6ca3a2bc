import Verif.Props.Construct
import Verif.Props.Query
import Verif.Props.Edit
import Verif.Props.Geom
import Verif.Props.Feature
import Verif.Props.Smooth
import Verif.Props.Operators
import Verif.Props.Remesh
import Verif.Props.Simplify
import Verif.Props.Fill
import Verif.Props.Fairing
import Verif.Props.Denoise
import Verif.Props.L0
import Verif.Props.Curv
import Verif.Props.Tensor
import Verif.Props.Deriv
import Verif.Props.Turn
import Verif.Props.Decide
import Verif.Props.CollapseFace
import Verif.Props.Lines
import Verif.Props.Coherent
import Verif.Props.Front
import Verif.Props.FrontX
import Verif.Props.Settle
import Verif.Props.Context
import Verif.Props.Repair
import Verif.Props.Signature
import Verif.Props.Start
import Verif.Props.Contract
import Verif.Props.Clone
import Verif.Props.Queue
import Verif.Props.UnionFind
import Verif.Props.Text
import Verif.Props.Hash
import Verif.Props.Ply
import Verif.Props.Pieces
import Verif.Props.Motion
import Verif.Props.Surface
import Verif.Props.Built
import Verif.Props.Files
import Verif.Props.Relax
import Verif.Props.Session
import Verif.Props.Works
import Verif.Props.Examples
import Verif.Props.ExFront
import Verif.Props.Handles
import Verif.Props.Tests
import Verif.Props.Scale
import Verif.Props.Undo
import Verif.Props.Radius
import Verif.Props.Message
import Verif.Props.Whole
import Verif.Props.ExWhole
import Verif.Props.Const
import Verif.Props.Ready
