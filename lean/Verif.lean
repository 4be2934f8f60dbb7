import Verif.Props.Arith
import Verif.Props.Arith2
import Verif.Props.Bytes
import Verif.Props.Parse
import Verif.Props.Print
import Verif.Props.Names
import Verif.Props.Utf8
import Verif.Props.Abi
import Verif.Props.Cost
import Verif.Props.Host
import Verif.Props.Safety
import Verif.Props.Ledger
import Verif.Props.Data
import Verif.Props.Memory
import Verif.Props.Compile
import Verif.Props.CompileEx
import Verif.Props.Context
import Verif.Props.Run
import Verif.Props.Hash
import Verif.Props.Principal
import Verif.Props.Equal
import Verif.Props.Sequences
import Verif.Props.Consensus
import Verif.Props.Skip
import Verif.Props.Term
import Verif.Props.Deserialize
import Verif.Props.Copy
import Verif.Props.Fold
import Verif.Props.Words
import Verif.Props.WordsMem
import Verif.Props.Tokens
import Verif.Props.Isolation
import Verif.Props.History
import Verif.Props.Chain
import Verif.Props.Typed
import Verif.Props.Deploy
