import Verif.Model.Serve
/- What is asked of the threads of a mounted file-system. -/
namespace Silofs.Srv

/-- A state which the daemon can be in, whatever happens. -/
def Reach (s : S) : Prop := ∃ nd nw es, 1 ≤ nd ∧ s = run (init nd nw) es

/-- A request is being executed, or its changes are being stored. -/
def Busy : Disp → Prop
  | .exec _ => True
  | .submit _ => True
  | _ => False

/-- A dispatcher which has not run into trouble. -/
def Fine : Disp → Prop
  | .loop => True
  | .chan => True
  | .exec r => r ≠ .init false
  | .submit c => c = 0 ∨ c = 2
  | _ => False

/-- Nothing more comes from the kernel: the file-system is unmounted (ENODEV), or, if `gone` is not set, it
may just be silent.  Operations which are under way end without trouble. -/
def Quiet (gone : Bool) : Ev → Prop
  | .disp _ a e => (a = .err 19 ∨ (gone = false ∧ a = .timeout)) ∧ (e = 0 ∨ e = 2)
  | .prep _ _ => False
  | _ => True

/-- In a round each dispatcher is given the processor at least once. -/
def Round (nd : Nat) (es : List Ev) : Prop := ∀ i < nd, ∃ a e, Ev.disp i a e ∈ es

/-- Nobody sends a signal. -/
def NoSig (es : List Ev) : Prop := Ev.sig ∉ es

end Silofs.Srv
