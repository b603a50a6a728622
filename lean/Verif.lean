import Verif.Model.Assemble
import Verif.RepoTests
import Verif.Props.Safety
import Verif.Props.Layout
import Verif.Props.Encoding
import Verif.Props.Builds
import Verif.Props.Operands
import Verif.Props.Labels
import Verif.Props.Sched
import Verif.Props.Rows
import Verif.Props.CommandLine
import Verif.Props.Containers
import Verif.Props.Refinement
import Verif.Props.Literals
import Verif.Props.Floats
import Verif.Props.Forms
import Verif.Props.Names
import Verif.Props.Select
import Verif.Props.Distinct
import Verif.Props.Synonyms
import Verif.Props.Tester
import Verif.Props.Unambiguous
import Verif.Props.Error
import Verif.Props.Messages
import Verif.Props.Printf
import Verif.Props.Undefined
import Verif.Props.Plain
import Verif.Props.Counters
import Verif.Props.World
import Verif.Props.Ending
import Verif.Props.Written
import Verif.Props.Clash
import Verif.Props.Rounding
import Verif.Props.Sizes
import Verif.Props.Link
import Verif.Props.Trace
import Verif.Props.Prefix
import Verif.Props.Locality
import Verif.Props.Tables
import Verif.Props.Flow
import Verif.Props.Reported
import Verif.Props.First
import Verif.Props.Dksh
import Verif.Props.Exact
import Verif.Props.Memory
import Verif.Props.Tight
import Verif.Lemmas.Disasm
import Verif.Lemmas.DisasmText
import Verif.Lemmas.DisasmFloat
import Verif.Lemmas.DisasmOperand
import Verif.Lemmas.DisasmRow
import Verif.Lemmas.DisasmComplete
import Verif.Props.Disasm
import Verif.Lemmas.DisasmDksh
import Verif.Props.Decide
import Verif.Props.LinkDksh
import Verif.Props.Insert
import Verif.Props.Room
import Verif.Props.Solid
import Verif.Props.Placid
import Verif.Props.Entry
import Verif.Props.Shift
import Verif.Props.Contents
import Verif.Props.Slots
import Verif.Props.Rename
import Verif.Props.Trade
import Verif.Props.Translate
import Verif.Props.Arrange
import Verif.Props.Cut
import Verif.Props.Spell
import Verif.Props.Strip
