import Verif.Spec.Tale
import Verif.Spec.Service
/-!
# Which warnings and errors the course of a run gives reason for
-/

namespace Cinit.Spec

open Cinit Logging

/-- A message without the text of the error it quotes. -/
def Msg.bare : Msg → Msg
  | .failure l s _ => .failure l s []
  | .badMainpid s _ => .badMainpid s []
  | msg => msg

/-- A warning or an error of cinit itself. -/
def alarmOf : Entry → Option Msg
  | .own _ msg =>
    if msg.level = .warn ∨ msg.level = .error then some (Msg.bare msg) else none
  | .program .. => none

/-- A line of a message that is not an assignment. -/
def unparsed (text : Str) : List Msg :=
  ((lines text).filter fun line => '=' ∉ line).map .unparsed

/-- A flag that is given another value than 1. -/
def flag (text key : Str) : List Msg :=
  match assigned text key with
  | some value => if value = ['1'] then [] else [.unexpected key value]
  | none => []

/-- A main process that is not a number. -/
def mainProcess (text : Str) : List Msg :=
  match assigned text "MAINPID".toList with
  | some value => if newMainPid text = none then [.badMainpid value []] else []
  | none => []

/-- What is wrong with the values in a message. -/
def values (text : Str) : List Msg :=
  flag text "READY".toList ++ flag text "STOPPING".toList ++ mainProcess text

/-- What is wrong with a message, `past` being the history before it. -/
def Objections (ps : List ProcessConfig) (past : Log) (q : Int) (text : Str) (as : List Msg) : Prop :=
  match owner ps past q with
  | none => as = [.unknownPid q]
  | some i =>
    if isNotify ps i then ∃ vs, vs.Perm (values text) ∧ as = unparsed text ++ vs
    else ∃ c, ps[i]? = some c ∧ as = [.fixed .warn
      "cinit only accepts notifications from processes of type notify".toList, .notAllowed c.name]

/-- The warnings and errors an event gives reason for, `past` being the history before it. Whether
removing a stream from epoll or creating a process is what fails cannot be told from the
history. -/
def Warrants (ps : List ProcessConfig) (d : Inlets) (past : Log) (e : Event) (as : List Msg) : Prop :=
  match e with
  | .failed => as = match past with
    | .ready ev :: _ =>
      if ev.fd = d.signalFd then []
      else if ev.fd = d.statusFd then [.failure .warn "Failed to print report".toList []]
      else if ev.fd = d.notifyFd then [.failure .warn "Failed to receive notification".toList []]
      else []
    | _ => []
  | .unsigned => as = [.failure .warn "Failed to receive notification".toList []]
  | .unpolled => as = [.failure .error "Could not complete epoll".toList []]
  | .ready ev => as = if ev.inp || ev.hup then [] else [.fixed .warn "Received unknown event".toList]
  | .hangup _ => as = [] ∨ as = [.fixed .warn "Could not unregister fd from epoll".toList]
  | .watched _ ok =>
    as = if ok then [] else [.fixed .warn "Could not unregister fd from epoll".toList]
  | .spawnFailed _ => ∃ fork : Bool, as = (if fork then [.fixed .error "Forking failed".toList] else []) ++
      [.failure .error "Failed to spawn child".toList []]
  | .waited _ rc (some i) => ∃ c, ps[i]? = some c ∧ as = if rc = 0 then [] else [.crashed .error c.name rc]
  | .refused i s => ∃ c, ps[i]? = some c ∧ as = [.refused .warn c.name s]
  | .datagram q text => Objections ps past q text as
  | .exit code => as = if code = 3 then [.failure .error "Failed to register with epoll".toList []] else []
  | _ => as = []

/-- Messages can be shared out among the events of a run, in order, such that each event has
something to do with its share. -/
def Shared (R : Log → Event → List Msg → Prop) : Log → List Msg → Prop
  | [], as => as = []
  | e :: past, as => ∃ old new, as = old ++ new ∧ Shared R past old ∧ R past e new

/-- The warnings and errors a run gives reason for, in order. -/
abbrev Alarms (ps : List ProcessConfig) (d : Inlets) : Log → List Msg → Prop :=
  Shared (Warrants ps d)

/-- Something the kernel is asked for fails. -/
def fails : Event → Bool
  | .failed | .unsigned | .unpolled | .spawnFailed _ => true
  | .watched _ ok => !ok
  | _ => false

end Cinit.Spec
