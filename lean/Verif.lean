import Verif.Props.Hex
import Verif.Props.BoolTerm
import Verif.Props.TagOps
import Verif.Props.DumpRestore
import Verif.Props.Maildir
import Verif.Props.MessageSync
import Verif.Props.Threading
import Verif.Props.ThreadTree
import Verif.Props.StringMap
import Verif.Props.DocIdSet
import Verif.Props.Query
import Verif.Props.ThreadSummary
import Verif.Props.MessageId
import Verif.Props.Directory
import Verif.Props.TermList
import Verif.Props.New
import Verif.Props.Sprinter
import Verif.Props.Insert
import Verif.Props.Filter
import Verif.Props.Mime
import Verif.Props.MimeNode
import Verif.Props.Mbox
import Verif.Props.Search
import Verif.Props.Address
import Verif.Props.Open
import Verif.Props.Reply
import Verif.Props.Compact
import Verif.Props.Config
import Verif.Props.Sexp
import Verif.Props.Args
import Verif.Props.Time
import Verif.Props.Show
import Verif.Props.RelDate
import Verif.Props.Fields
import Verif.Props.Count
import Verif.Props.Main
import Verif.Props.Hooks
import Verif.Props.ConfigCmd
import Verif.Props.Message
import Verif.Props.Reindex
import Verif.Props.Git
import Verif.Props.AddFile
import Verif.Props.DumpFile
import Verif.Props.NewFrontEx
import Verif.Props.Setup
import Verif.Props.ShowCrypto
import Verif.Props.Handles
import Verif.Props.Compat
import Verif.Props.PyObjects
import Verif.Props.Words
import Verif.Props.PyCollections
import Verif.Props.ElParser
import Verif.Props.ElTag
import Verif.Props.Fcc
import Verif.Props.Ruby
import Verif.Props.Draft
import Verif.Props.Mua
import Verif.Props.Hello
import Verif.Props.Coolj
import Verif.Props.PyConfig
import Verif.Props.TreeDraw
import Verif.Props.PyAtomic
import Verif.Props.PatchName
import Verif.Props.ShowBuf
import Verif.Props.Alternative
import Verif.Props.BlankLines
import Verif.Props.Jump
import Verif.Props.SearchTag
import Verif.Props.ElFilter
import Verif.Props.MuaSecure
import Verif.Props.ElAddress
