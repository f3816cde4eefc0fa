import Verif.Props.Matter
import Verif.Props.Util
import Verif.Props.Indexer
import Verif.Props.Counter
import Verif.Props.Prims
import Verif.Props.Texts
import Verif.Props.Json
import Verif.Props.Tholder3
import Verif.Props.Tholder4
import Verif.Props.Tholder5
import Verif.Props.Defaults
import Verif.Props.Common
import Verif.Props.Saider2
import Verif.Props.Serder
import Verif.Props.Prefixer2
import Verif.Props.Pather
import Verif.Props.PathSigned
import Verif.Props.Signer
import Verif.Props.Salter
import Verif.Props.Secrets
import Verif.Props.Typed
import Verif.Props.Classes
import Verif.Props.Args
import Verif.Props.Wasm
import Verif.Props.Pretty
import Verif.Props.Data
import Verif.Model.Short
import Verif.Props.Short
import Verif.Props.Prefixer3
import Verif.Props.Stream
import Verif.Props.Wire
import Verif.Props.Panics
import Verif.Props.SaidStable
import Verif.Props.Content
import Verif.Props.WasmLists
import Verif.Spec.JsonText
import Verif.Lemmas.JsonRead
import Verif.Lemmas.JsonRead2
import Verif.Props.JsonRead
import Verif.Spec.Read
import Verif.Lemmas.Padded
import Verif.Props.Read
import Verif.Spec.Cuts
import Verif.Props.Panics2
import Verif.Spec.Altered
import Verif.Props.Altered
import Verif.Props.FromMap
import Verif.Spec.Shown
import Verif.Props.Recontent
import Verif.Props.Signed
import Verif.Spec.Text
import Verif.Lemmas.Text
import Verif.Props.Text
import Verif.Props.Incomplete
import Verif.Props.History
import Verif.Props.Messages
import Verif.Props.Duplicity
import Verif.Props.Receipts
import Verif.Props.Altered2
import Verif.Props.PartialRotation
import Verif.Props.Log
import Verif.Props.Graph
import Verif.Props.Builds
import Verif.Props.Build
import Verif.Props.Panics3
import Verif.Props.Native
import Verif.Props.Disclosure
import Verif.Props.Js
import Verif.Props.Ample
import Verif.Props.Incept
import Verif.Props.Incept2
import Verif.Props.Incept3
import Verif.Props.Attached
import Verif.Props.Attached2
import Verif.Props.Vault
import Verif.Props.Vault2
import Verif.Props.Vault3
import Verif.Props.Vault4
import Verif.Props.Vault5
import Verif.Props.Founding
import Verif.Props.Founding2
import Verif.Props.Founding3
import Verif.Props.Life
import Verif.Props.Life2
import Verif.Props.Life3
import Verif.Props.LifeIxn
import Verif.Props.Life4
import Verif.Props.Control
import Verif.Props.Start
import Verif.Props.Start2
import Verif.Props.Start3
import Verif.Props.JsPlain
import Verif.Props.JsCodex
import Verif.Props.Told
import Verif.Props.Told2
import Verif.Props.Delegation
import Verif.Props.Credential
import Verif.Props.Agreement
import Verif.Props.Agreement2
import Verif.Props.Dat
