import Verif.Props.Lexer
import Verif.Props.Registry
import Verif.Props.Tree
import Verif.Props.Command
import Verif.Props.Iso
import Verif.Props.Format
import Verif.Props.Localiser
import Verif.Props.LocaliserSync
import Verif.Props.Provider
import Verif.Props.ProviderDetails
import Verif.Props.ProviderOpen
import Verif.Props.ProviderSync
import Verif.Props.ProviderOne
import Verif.Props.ProviderLocaliser
import Verif.Props.Errors
import Verif.Props.ProviderUsable
import Verif.Props.ValueOrder
import Verif.Props.LanguageTag
import Verif.Props.ScriptData
import Verif.Props.FormatterOrder
import Verif.Props.Features
import Verif.Props.AutoTraits
import Verif.Props.Sql
import Verif.Props.IcuSync
import Verif.Props.Reentry
import Verif.Props.Options
import Verif.Props.Blame
import Verif.Props.OpenBlame
import Verif.Props.Ratio
import Verif.Props.SyntaxBlame
import Verif.Props.Braces
import Verif.Props.Written
import Verif.Props.IsoForms
import Verif.Props.Endless
import Verif.Props.RequestBlame
import Verif.Props.EndToEnd
import Verif.Props.Fallback
import Verif.Props.Crash
import Verif.Props.Contagion
import Verif.Props.ThreadPanics
import Verif.Props.ThreadAnswers
import Verif.Props.Transparent
import Verif.Props.BlameExact
import Verif.Props.BlameOrder
import Verif.Props.Caching
import Verif.Props.Forget
import Verif.Props.ProviderBlame
import Verif.Props.ProviderEvery
import Verif.Props.ProviderExact
import Verif.Props.LocaliserExact
import Verif.Props.OtherStrings
import Verif.Props.LocaliserNew
import Verif.Props.LockSync
import Verif.Props.Messages
import Verif.Props.Settings
import Verif.Props.Shown
import Verif.Props.FormatExact
import Verif.Tests.Repo
import Verif.Axioms
