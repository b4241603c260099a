/-!
# Methods of peer groups (src/config.c, src/fastd.h, src/peer_group.h)

Model only. Names are C strings, i.e. byte lists without NUL, compared with `strcmp`.
-/

namespace Fastd.Config

abbrev Name := List UInt8

/-- `fastd_peer_group_t` (src/peer_group.h:24-41), reduced to the method list and the list of
children, in the order of their `next` pointers. -/
inductive Group
  | mk (methods : List Name) (children : List Group)

def Group.methods : Group → List Name
  | .mk m _ => m

def Group.children : Group → List Group
  | .mk _ c => c

/-- `fastd_config_method` (src/config.c:71-82) on the group's method list: walk to the end unless the
name is found. -/
def configMethod : List Name → Name → List Name
  | [], name => [name]
  | m :: ms, name => if m = name then m :: ms else m :: configMethod ms name

/-- The parser state's current group. `fastd_config_peer_group_push` (src/config.c:159-170) inserts
the new group in front of its parent's children and makes it the current one, so that the current
group is reached from the root by following `children` (first child) pointers; `above` are the parent
groups, innermost first, with the current group (and the groups it is contained in) removed from
their children. -/
structure PState where
  cur : Group
  above : List Group

/-- The relevant actions of the parser (src/config.y:387, 545, 551). -/
inductive Op
  | method (name : Name)
  | push
  | pop

def PState.step (s : PState) : Op → PState
  | .method n => { s with cur := .mk (configMethod s.cur.methods n) s.cur.children }
  | .push => ⟨.mk [] [], s.cur :: s.above⟩
  | .pop =>
    match s.above with
    | [] => s
    | p :: ps => ⟨.mk p.methods (s.cur :: p.children), ps⟩

/-- `fastd_string_stack_contains` (src/fastd.h:554-563) -/
def stackContains : List Name → Name → Bool
  | [], _ => false
  | s :: st, n => if s = n then true else stackContains st n

/-- The first loop of `collect_methods` (src/config.c:494-499): `conf.method_list` (top first) and
`*count`. -/
def collectLoop : List Name → List Name × Nat → List Name × Nat
  | [], acc => acc
  | m :: ms, (list, count) =>
    if !stackContains list m then collectLoop ms (m :: list, count + 1) else collectLoop ms (list, count)

mutual
/-- `collect_methods` (src/config.c:491-504) -/
def collect : Group → List Name × Nat → List Name × Nat
  | .mk ms cs, acc => collectAll cs (collectLoop ms acc)
def collectAll : List Group → List Name × Nat → List Name × Nat
  | [], acc => acc
  | g :: gs, acc => collectAll gs (collect g acc)
end

/-- Outcome of `configure_methods`. -/
inductive MRes (α : Type)
  | ok (methods : α)
  /-- `exit_error`, unsupported method -/
  | exit
  /-- write outside of the array -/
  | overrun

/-- The loop of `configure_methods` (src/config.c:516-520) from index `i` on. `arr` is the zeroed array
with `n_methods + 1` entries (`none` is an entry with null name); `create` is
`fastd_method_create_by_name`. -/
def fillMethods {μ : Type} (create : Name → Option μ) :
    List Name → Nat → List (Option (Name × μ)) → MRes (List (Option (Name × μ)))
  | [], _, arr => .ok arr
  | n :: ns, i, arr =>
    if i < arr.length then
      match create n with
      | none => .exit
      | some m => fillMethods create ns (i + 1) (arr.set i (some (n, m)))
    else .overrun

/-- `configure_methods` (src/config.c:508-523), without `configure_method_parameters`. -/
def configureMethods {μ : Type} (create : Name → Option μ) (root : Group) :
    MRes (List (Option (Name × μ))) :=
  let (list, count) := collect root ([], 0)
  fillMethods create list 0 (List.replicate (count + 1) none)

/-- `fastd_peer_group_lookup(group, methods)` (src/peer_group.h:55-63); the group's own list comes
first, then those of its parents up to the root. -/
def lookupMethods : List (List Name) → List Name
  | [] => []
  | [m] => m
  | m :: p :: ps => if m.isEmpty then lookupMethods (p :: ps) else m

end Fastd.Config
