import Verif.Props.CApi
import Verif.Props.Word
import Verif.Props.Store
import Verif.Props.Errors
import Verif.Props.Accents
import Verif.Props.Levenshtein
import Verif.Props.Documents
import Verif.Props.Matcher
import Verif.Props.Online
import Verif.Props.Preset
import Verif.Props.Bookkeeping
import Verif.Props.Objects
import Verif.Props.Containers
import Verif.Props.DataFile
import Verif.Props.Split
import Verif.Props.Arithmetic
import Verif.Props.WordText
import Verif.Props.Python
import Verif.Props.ErrorMatrix
import Verif.Props.Settings
import Verif.Props.Program
import Verif.Props.Tools
import Verif.Props.Apps
import Verif.Props.Hud
import Verif.Props.Sctest
import Verif.Props.SingleWord
import Verif.Props.Resources
import Verif.Props.Wide
import Verif.Props.Suite
import Verif.Props.PySuite
import Verif.Props.Messages
import Verif.Props.ExactMatch
import Verif.Props.CTexts
import Verif.Props.Visits
import Verif.Props.PyModule
import Verif.Props.MatcherLife
import Verif.Props.Mutual
import Verif.Props.Better
import Verif.Props.Refused
import Verif.Props.Walk
import Verif.Props.Exports
import Verif.Props.NulWords
import Verif.Props.Characters
import Verif.Props.Heap
import Verif.Props.Scalability
import Verif.Props.CreatePerformance
import Verif.Props.Triangle
import Verif.Props.First
import Verif.Props.Damerau
import Verif.Props.Again
import Verif.Props.Typos
import Verif.Props.Apart
import Verif.Props.Renamed
import Verif.Props.Position
import Verif.Props.Scale
import Verif.Props.Union
import Verif.Props.OnlineOrder
import Verif.Props.Unrelated
import Verif.Props.HeapSearch
import Verif.Props.Filters
import Verif.Props.SubstringSearch
import Verif.Props.Common
import Verif.Props.Cheaper
import Verif.Props.OnlineMore
import Verif.Props.Twins
import Verif.Props.Favour
import Verif.Props.OnlineApart
import Verif.Props.HeapOnline
