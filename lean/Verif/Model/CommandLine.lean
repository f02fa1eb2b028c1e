import Verif.Model.Utf8
import Verif.Model.Main
import Verif.Model.Disk
/-!
# Model of the command line

`src/cli_parser.rs` together with the part of clap 4.5.43 it uses: `Parser::get_matches_with`,
`parse_long_arg`, `parse_short_arg`, `parse_opt_value` and `react` of clap_builder for a command
without positional arguments and subcommands, and the options `--help` and `--version` clap adds.
Arguments are the bytes given to `execve`.

Simplified: the texts of errors, help and version are left out. clap stores the value of `--config`
when the next option is met or at the end; here it is stored at once. This makes no difference,
since all errors are treated alike and any option, also `--help`, makes clap store the value first.
-/

namespace Cinit.CommandLine

/-- Bytes of an ASCII text. -/
def ascii (s : String) : List Nat := s.toList.map Char.toNat

/-- Why clap ends the process: `ErrorKind::DisplayHelp`, `ErrorKind::DisplayVersion`, or any other
error. -/
inductive Stop where
  | help | version | usage
  deriving DecidableEq, Repr

/-- `clap::ArgMatches`: the value of `config` given, and the count of `verbose`. -/
structure Matches where
  config : Option Str := none
  verbose : Nat := 0
  deriving DecidableEq, Repr

/-- cli_parser.rs:53-59, `ArgAction::Count`: a saturating `u8` -/
def Matches.count (m : Matches) : Matches := { m with verbose := min (m.verbose + 1) 255 }

/-- cli_parser.rs:44-52, `ArgAction::Set` with one value that is a `String`: an error if there is
one already or if the value is not UTF-8. -/
def Matches.set (m : Matches) (value : List Nat) : Res Stop Matches :=
  match m.config with
  | some _ => .err .usage
  | none =>
    match fromUtf8 value with
    | none => .err .usage
    | some path => .ok { m with config := some path }

/-- `parse_short_arg`: the letters after a single dash. The result tells whether a value is still
to come (`ParseResult::Opt`). -/
def shorts (m : Matches) : List Nat → Res Stop (Matches × Bool)
  | [] => .ok (m, false)
  | b :: rest =>
    if b = 'v'.toNat then shorts m.count rest
    else if b = 'c'.toNat then
      if rest = [] then .ok (m, true)
      else if rest.head? = some '='.toNat then
        m.set rest.tail >>= fun m => .ok (m, false)
      else m.set rest >>= fun m => .ok (m, false)
    else if b = 'h'.toNat then .err .help
    else if b = 'V'.toNat then .err .version
    else .err .usage

/-- `ParsedArg::to_long` of clap_lex: the text after two dashes, split at the first `=`. -/
def splitOnce : List Nat → List Nat × Option (List Nat)
  | [] => ([], none)
  | b :: bs => if b = '='.toNat then ([], some bs) else
      (b :: (splitOnce bs).1, (splitOnce bs).2)

/-- `parse_long_arg` -/
def long (m : Matches) (name : List Nat) (value : Option (List Nat)) :
    Res Stop (Matches × Bool) :=
  if name = ascii "config" then
    match value with
    | none => .ok (m, true)
    | some v => m.set v >>= fun m => .ok (m, false)
  else if value.isSome then .err .usage
  else if name = ascii "verbose" then .ok (m.count, false)
  else if name = ascii "help" then .err .help
  else if name = ascii "version" then .err .version
  else .err .usage

/-- `get_matches_with`. `waiting` is `ParseState::Opt`: the value of `config` is to come. -/
def arguments (m : Matches) : Bool → List (List Nat) → Res Stop Matches
  | waiting, [] => if waiting then .err .usage else .ok m
  | waiting, a :: as =>
    if a = ascii "--" then
      if waiting ∨ as ≠ [] then .err .usage else .ok m
    else if a.take 2 = ascii "--" then
      if waiting then .err .usage
      else long m (splitOnce (a.drop 2)).1 (splitOnce (a.drop 2)).2 >>= fun r =>
        arguments r.1 r.2 as
    else if a.head? = some '-'.toNat ∧ a ≠ ascii "-" then
      if waiting then .err .usage
      else shorts m (a.drop 1) >>= fun r => arguments r.1 r.2 as
    else if waiting then m.set a >>= fun m => arguments m false as
    else .err .usage

/-- cli_parser.rs:51 -/
def defaultPath : Str := "/etc/cinit.yml".toList

/-- cli_parser.rs:30-61 `parse_arguments`, and the values main.rs:79-89 takes from the result: the
path of the configuration and the verbosity. The first argument is the name of the program. -/
def parseArguments (argv : List (List Nat)) : Res Stop (Str × Nat) :=
  arguments {} false argv.tail >>= fun m => .ok (m.config.getD defaultPath, m.verbose)

/-- `clap::Error::exit_code`: help and version are no errors. -/
def exitCode : Stop → Int
  | .help => 0
  | .version => 0
  | .usage => 2

/-- main.rs:78-110 `run`, from the command line on: `machine` is what the run depends on if the
configuration is at the given path. -/
def runWith (argv : List (List Nat)) (machine : Str → Machine) : Ending :=
  match parseArguments argv with
  | .ok (path, _) => run (machine path)
  | .err stop => .exited (exitCode stop) []
  | .panic p => .aborted p []

end Cinit.CommandLine
