import Verif.Basic
import Verif.Num
import Verif.Map
import Verif.Dof.Props
import Verif.Dof.RejectProps
import Verif.Dof.MatrixProps
import Verif.Dof.CoefsProps
import Verif.Ref.Props
import Verif.Container.Props
import Verif.Mesh.NodeProps
import Verif.Mesh.PartProps
import Verif.Mesh.UnusedProps
import Verif.Mesh.StaleProps
import Verif.Mesh.CellProps
import Verif.Mesh.GroupProps
import Verif.Mesh.GroupLost
import Verif.Mesh.BoxProps
import Verif.Mesh.FaceProps
import Verif.Mesh.FaceLost
import Verif.Nastran.LineProps
import Verif.Nastran.FixedProps
import Verif.Nastran.FreeProps
import Verif.Nastran.PlusProps
import Verif.Nastran.CommentProps
import Verif.Nastran.FieldProps
import Verif.Nastran.ByProps
import Verif.Sets.Props
import Verif.Sets.CommonProps
import Verif.Pipeline.Props
import Verif.Load.CombinedProps
import Verif.Load.PressureProps
import Verif.Load.KindsProps
import Verif.Constraint.SpcProps
import Verif.Constraint.RedundantProps
import Verif.Constraint.ImposedProps
import Verif.Constraint.ImposedLast
import Verif.Constraint.LmpcProps
import Verif.Constraint.RigidProps
import Verif.Geom.SystemsProps
import Verif.Geom.OrientationProps
import Verif.Geom.Cord2Props
import Verif.Geom.StorageProps
import Verif.Geom.EulerProps
import Verif.Value.StepsProps
import Verif.Load.NodalForceProps
import Verif.Element.SectionProps
import Verif.Element.ElasticProps
import Verif.Element.CompositeProps
import Verif.Element.DiscreteProps
import Verif.Element.SpringsProps
import Verif.Element.DirectProps
import Verif.Element.DirectSplitProps
import Verif.Systus.MatrixProps
import Verif.Systus.CollisionProps
import Verif.Element.DirectAsterProps
import Verif.Element.SharedProps
import Verif.Commandline.SolverProps
import Verif.Commandline.TranslationProps
import Verif.NastranWrite.LineProps
import Verif.NastranWrite.CellProps
import Verif.Systus.CellProps
import Verif.NastranWrite.RelationProps
import Verif.NastranWrite.RigidProps
import Verif.NastranWrite.SpcProps
import Verif.NastranWrite.LoadProps
import Verif.NastranWrite.PressureProps
import Verif.NastranWrite.LineLoadProps
import Verif.Mesh.SystemsProps
import Verif.NastranWrite.GridProps
import Verif.NastranWrite.MaterialProps
import Verif.NastranWrite.PropertyProps
import Verif.NastranWrite.MassProps
import Verif.NastranWrite.BushProps
import Verif.Med.Families
import Verif.Med.FamilyLemmas
import Verif.Med.FamilyLoops
import Verif.Med.CellLoops
import Verif.Med.FamilyProps
import Verif.NastranWrite.MoreCards
import Verif.Results.F06
import Verif.Results.F06Lemmas
import Verif.Results.F06Props
import Verif.Results.F06Files
import Verif.Results.F06Stress
import Verif.Results.F06End
import Verif.Case.Control
import Verif.Case.ControlLemmas
import Verif.Case.ControlProps
import Verif.Case.Subcases
import Verif.Case.Refuted
import Verif.Case.Lists
import Verif.Case.ListsProps
import Verif.Case.Write
import Verif.Case.WriteProps
import Verif.Case.WriteRefuted
import Verif.Case.Ends
import Verif.Case.Kept
import Verif.Aster.Constraints
import Verif.Aster.ConstraintProps
import Verif.Aster.Gaps
import Verif.Aster.GapProps
import Verif.Aster.Loads
import Verif.Aster.LoadProps
import Verif.Aster.Commands
import Verif.Aster.CommandLemmas
import Verif.Aster.CommandProps
import Verif.Aster.CommandNeeds
import Verif.Modes.Search
import Verif.Modes.SearchProps
import Verif.Value.Tables
import Verif.Value.TablesProps
import Verif.Modes.Response
import Verif.Modes.ResponseProps
import Verif.Modes.Excitation
import Verif.Modes.ExcitationProps
import Verif.Systus.SubcasesProps
import Verif.Systus.LoadsProps
import Verif.Params.Cards
import Verif.Params.Props
import Verif.Optistruct.Cards
import Verif.Optistruct.Props
import Verif.Results.Tests
import Verif.Results.TestsProps
import Verif.Systus.Data
import Verif.Systus.DataProps
import Verif.Systus.Materials
import Verif.Systus.MaterialsProps
import Verif.Systus.Relations
import Verif.Systus.RelationsProps
import Verif.Systus.Rigid
import Verif.Systus.RigidProps
import Verif.Element.AddedMass
import Verif.Element.AddedMassProps
import Verif.Element.Virtual
import Verif.Element.VirtualProps
import Verif.Load.Lines
import Verif.Load.LinesProps
import Verif.Element.Segments
import Verif.Element.SegmentsProps
import Verif.Element.ScalarCards
import Verif.Element.ScalarCardsProps
import Verif.Mesh.Bars
import Verif.Mesh.BarsProps
import Verif.Aster.Materials
import Verif.Aster.MaterialsProps
import Verif.Load.Cards
import Verif.Load.CardsProps
import Verif.Aster.Assign
import Verif.Aster.AssignProps
import Verif.Constraint.LocalSpc
import Verif.Constraint.LocalSpcProps
import Verif.Aster.Written
import Verif.Aster.WrittenProps
import Verif.Element.Required
import Verif.Element.RequiredProps
import Verif.Element.Dmig
import Verif.Element.DmigProps
import Verif.Constraint.Contacts
import Verif.Constraint.ContactsProps
import Verif.Mesh.Named
import Verif.Mesh.NamedProps
import Verif.Constraint.Added
import Verif.Constraint.AddedProps
import Verif.Systus.Nodes
import Verif.Systus.NodesProps
import Verif.Systus.Frames
import Verif.Systus.FramesProps
import Verif.NastranWrite.Systems
import Verif.NastranWrite.SystemsProps
import Verif.Modes.Cards
import Verif.Modes.CardsProps
import Verif.Element.Rods
import Verif.Element.RodsProps
import Verif.Nastran.Include
import Verif.Nastran.IncludeProps
import Verif.Aster.NonLinear
import Verif.Aster.NonLinearProps
import Verif.Modes.Auto
import Verif.Modes.AutoProps
import Verif.Aster.MaterialsMore
import Verif.Aster.Displacements
import Verif.Aster.DisplacementsProps
import Verif.Systus.Sections
import Verif.Systus.SectionsProps
import Verif.Pipeline.Missing
import Verif.Pipeline.MissingProps
import Verif.Mesh.ScalarPoints
import Verif.Mesh.ScalarPointsProps
import Verif.Aster.Behaviour
import Verif.Aster.BehaviourProps
import Verif.Commandline.Options
import Verif.Commandline.OptionsProps
import Verif.Aster.TsaiWu
import Verif.Aster.TsaiWuProps
import Verif.Results.Csv
import Verif.Results.CsvProps
import Verif.Commandline.Runs
import Verif.Commandline.RunsProps
import Verif.Mesh.Skins
import Verif.Mesh.SkinsProps
import Verif.Mesh.SkinGeom
import Verif.Systus.Penalty
import Verif.Systus.PenaltyProps
import Verif.Systus.MatrixCells
import Verif.Systus.MatrixCellsProps
import Verif.Mesh.SetGroups
import Verif.Mesh.SetGroupsProps
import Verif.Systus.Amplitudes
import Verif.Systus.AmplitudesProps
import Verif.Mesh.Slides
import Verif.Mesh.SlidesProps
import Verif.Mesh.Oriented
import Verif.Mesh.OrientedProps
import Verif.Systus.MatrixFiles
import Verif.Systus.MatrixFilesProps
import Verif.Aster.LocalTable
import Verif.Aster.LocalTableProps
import Verif.Element.Numbers
import Verif.Element.NumbersProps
import Verif.NastranWrite.Connection
import Verif.NastranWrite.ConnectionProps
import Verif.Aster.Skins
import Verif.Aster.SkinsProps
import Verif.Mesh.Under
import Verif.Mesh.UnderProps
import Verif.Element.CopiesProps
import Verif.Value.StepsLimits
import Verif.Container.EraseProps
import Verif.Dof.CoefsLost
import Verif.Load.GravityLost
import Verif.Mesh.FaceTetra
import Verif.Mesh.GroupHidden
