import Verif.Model.Optargs
import Verif.Spec.Passwd
/-
A command line of "mount" as a user means it: options, each in one of the ways it may be written, in
any order, with the two other arguments anywhere between them.
-/
namespace Silofs.Oa
open Silofs.PwSpec (Opt Legal commas)

/-- Options without a value. -/
inductive Flag where
  | hostids | acl | noOther | copyMode | nodaemon | coredump | stdalloc | noPrompt | systemd
  deriving DecidableEq

/-- Letter. -/
def Flag.short : Flag → Nat
  | .hostids => 105
  | .acl => 69
  | .noOther => 65
  | .copyMode => 66
  | .nodaemon => 68
  | .coredump => 67
  | .stdalloc => 77
  | .noPrompt => 80
  | .systemd => 82

/-- Name. -/
def Flag.long : Flag → Word
  | .hostids => [97, 108, 108, 111, 119, 45, 104, 111, 115, 116, 105, 100, 115]
  | .acl => [97, 108, 108, 111, 119, 45, 120, 97, 116, 116, 114, 45, 97, 99, 108]
  | .noOther => [110, 111, 45, 97, 108, 108, 111, 119, 45, 111, 116, 104, 101, 114]
  | .copyMode => [98, 117, 102, 102, 101, 114, 45, 99, 111, 112, 121, 45, 109, 111, 100, 101]
  | .nodaemon => [110, 111, 100, 97, 101, 109, 111, 110]
  | .coredump => [99, 111, 114, 101, 100, 117, 109, 112]
  | .stdalloc => [115, 116, 100, 97, 108, 108, 111, 99]
  | .noPrompt => [110, 111, 45, 112, 114, 111, 109, 112, 116]
  | .systemd => [115, 121, 115, 116, 101, 109, 100, 45, 114, 117, 110]

/-- Options with a value. -/
inductive Valued where
  | opts (os : List Opt)
  | writeback (v : Bool)
  | asyncwr (v : Bool)
  | password (p : Word)
  | loglevel (t : Word)
  deriving DecidableEq

/-- Letter. -/
def Valued.short : Valued → Nat
  | .opts _ => 111
  | .writeback _ => 87
  | .asyncwr _ => 97
  | .password _ => 112
  | .loglevel _ => 76

/-- Name. -/
def Valued.long : Valued → Word
  | .opts _ => [111, 112, 116, 115]
  | .writeback _ => [119, 114, 105, 116, 101, 98, 97, 99, 107, 45, 99, 97, 99, 104, 101]
  | .asyncwr _ => [97, 115, 121, 110, 99, 119, 114]
  | .password _ => [112, 97, 115, 115, 119, 111, 114, 100]
  | .loglevel _ => [108, 111, 103, 108, 101, 118, 101, 108]

/-- The value as text; booleans may be given as digits or as words. -/
def boolText (word v : Bool) : Word :=
  match word, v with
  | false, false => [48]
  | false, true => [49]
  | true, false => [102, 97, 108, 115, 101]
  | true, true => [116, 114, 117, 101]

/-- The value as text. -/
def Valued.text (word : Bool) : Valued → Word
  | .opts os => commas os
  | .writeback v => boolText word v
  | .asyncwr v => boolText word v
  | .password p => p
  | .loglevel t => t

/-- Ways to write an option with a value: "-c v", "-cv", "--name v", "--name=v". -/
inductive Way where
  | short | glued | long | longEq
  deriving DecidableEq

/-- Parts of a command line. -/
inductive Part where
  /-- "--name" -/
  | flag (f : Flag)
  /-- "-abc" -/
  | letters (f : Flag) (fs : List Flag)
  /-- an option with a value -/
  | valued (v : Valued) (way : Way) (word : Bool)
  /-- another argument -/
  | arg (t : Word)

/-- The words on the command line. -/
def Part.words : Part → List Word
  | .flag f => [45 :: 45 :: f.long]
  | .letters f fs => [45 :: (f :: fs).map Flag.short]
  | .valued v .short w => [[45, v.short], v.text w]
  | .valued v .glued w => [45 :: v.short :: v.text w]
  | .valued v .long w => [45 :: 45 :: v.long, v.text w]
  | .valued v .longEq w => [45 :: 45 :: (v.long ++ 61 :: v.text w)]
  | .arg t => [t]

/-- What may be written: passwords are passwords, without a comma among sub-options; there are
not too many sub-options; a value glued to its letter is not empty; other arguments do not begin with
'-'. -/
def Part.Ok : Part → Prop
  | .flag _ => True
  | .letters _ _ => True
  | .valued v way w =>
    (way = .glued → v.text w ≠ []) ∧
    (match v with
     | .opts os => (∀ p, Opt.passwd p ∈ os → Legal p ∧ 44 ∉ p) ∧ (commas os).length < 256
     | .password p => Legal p
     | _ => True)
  | .arg t => t.head? ≠ some 45

/-- The flags named. -/
def Part.flags : Part → List Flag
  | .flag f => [f]
  | .letters f fs => f :: fs
  | _ => []

/-- The sub-options named; "-p" is the same as "passwd". -/
def Part.subs : Part → List Opt
  | .valued (.opts os) _ _ => os
  | .valued (.password p) _ _ => [.passwd p]
  | _ => []

/-- The last value given. -/
def lastOf {α : Type} (f : Part → Option α) (ps : List Part) (d : α) : α :=
  ((ps.filterMap f).getLast?).getD d

/-- Value for write-back. -/
def Part.writeback : Part → Option Bool
  | .valued (.writeback v) _ _ => some v
  | _ => none

/-- Value for asynchronous write. -/
def Part.asyncwr : Part → Option Bool
  | .valued (.asyncwr v) _ _ => some v
  | _ => none

/-- Log level. -/
def Part.level : Part → Option Word
  | .valued (.loglevel t) _ _ => some t
  | _ => none

/-- Other arguments. -/
def Part.args : Part → List Word
  | .arg t => [t]
  | _ => []

/-- The settings a user asks for: of options which exclude each other the last one, defaults for what
is not mentioned. -/
structure Asked (ps : List Part) (m : Mnt) : Prop where
  rdonly : m.sub.rdonly = PwSpec.last .rw .ro (ps.flatMap Part.subs) false
  nodev : m.sub.nodev = PwSpec.last .dev .nodev (ps.flatMap Part.subs) false
  nosuid : m.sub.nosuid = PwSpec.last .suid .nosuid (ps.flatMap Part.subs) false
  noexec : m.sub.noexec = PwSpec.last .exec .noexec (ps.flatMap Part.subs) false
  hostids : m.sub.hostids = true ↔ Opt.hostids ∈ ps.flatMap Part.subs ∨ Flag.hostids ∈ ps.flatMap Part.flags
  password : m.sub.password = PwSpec.lastPass (ps.flatMap Part.subs) none
  others : m.allowOther = false ↔ Flag.noOther ∈ ps.flatMap Part.flags
  acl : m.xattrAcl = true ↔ Flag.acl ∈ ps.flatMap Part.flags
  splice : m.splice = false ↔ Flag.copyMode ∈ ps.flatMap Part.flags
  daemon : m.daemon = false ↔ Flag.nodaemon ∈ ps.flatMap Part.flags
  coredump : m.coredump = true ↔ Flag.coredump ∈ ps.flatMap Part.flags
  stdalloc : m.stdalloc = true ↔ Flag.stdalloc ∈ ps.flatMap Part.flags
  noPrompt : m.noPrompt = true ↔ Flag.noPrompt ∈ ps.flatMap Part.flags
  systemd : m.systemd = true ↔ Flag.systemd ∈ ps.flatMap Part.flags
  writeback : m.writeback = lastOf Part.writeback ps true
  asyncwr : m.asyncwr = lastOf Part.asyncwr ps true
  level : m.level = lastOf (fun p => p.level.map some) ps none
  fuse : m.withFuse = true
  admin : m.allowAdmin = true
  lazytime : m.lazytime = false

end Silofs.Oa
