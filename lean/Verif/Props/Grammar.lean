import Verif.Config.ExecConf
import Verif.Props.LexTok

/-!
# C70: the grammar of configuration files
-/

namespace Fastd.Config.Gram

open Fastd.Config (Bytes keywords)
open Fastd.Config.Exec (contents)

/-- **C70, keywords**: the keywords of the scanner are those of the grammar. -/
theorem C70_keywords :
    (∀ w name, (w, name) ∈ keywords → ∃ k, ofTok (.keyword name) = some (.kw k)) ∧
    (∀ k : Kw, ∃ w name, (w, name) ∈ keywords ∧ ofTok (.keyword name) = some (.kw k)) := by
  constructor
  · have : ∀ x ∈ keywords, (ofTok (.keyword x.2)).isSome = true ∧ ∀ t, ofTok (.keyword x.2) = some t → ∃ k, t = .kw k := by
      have h1 : ∀ x ∈ keywords, (kwTable.lookup x.2).isSome = true := by decide +kernel
      intro x hx
      have := h1 x hx
      obtain ⟨k, hk⟩ := Option.isSome_iff_exists.1 this
      simp [ofTok, hk]
    intro w name h
    obtain ⟨h1, h2⟩ := this _ h
    obtain ⟨t, ht⟩ := Option.isSome_iff_exists.1 h1
    obtain ⟨k, rfl⟩ := h2 t ht
    exact ⟨k, ht⟩
  · have h1 : ∀ x ∈ kwTable, kwTable.lookup x.1 = some x.2 ∧ ∃ y ∈ keywords, y.2 = x.1 := by decide +kernel
    have h2 : ∀ k : Kw, k ∈ kwTable.map (·.2) := by intro k; cases k <;> decide +kernel
    intro k
    obtain ⟨⟨n, _⟩, hx, rfl⟩ := List.mem_map.1 (h2 k)
    obtain ⟨hl, ⟨w, _⟩, hy, rfl⟩ := h1 _ hx
    exact ⟨w, _, hy, by simp only [ofTok, hl, Option.map_some]⟩

/-- **C70, ambiguity**: there is at most one way to read a file, for each of the three kinds of files. -/
theorem C70_unambiguous (ts : List T) :
    (∀ a b, DConf a ts → DConf b ts → a = b) ∧ (∀ a b, DGConf a ts → DGConf b ts → a = b) ∧ (∀ a b, DPConf a ts → DPConf b ts → a = b) :=
  ⟨fun _ _ h h' => h.det h', fun _ _ h h' => h.det h', fun _ _ h h' => h.det h'⟩

/-- **C70, parser**: the parsers accept exactly the sequences of tokens which have a derivation, and find the derived statements. -/
theorem C70_parser (ts : List T) :
    (∀ ss, parseConf ts = some ss ↔ DConf ss ts) ∧ (∀ ss, parseGroup ts = some ss ↔ DGConf ss ts) ∧ (∀ ss, parsePeer ts = some ss ↔ DPConf ss ts) :=
  ⟨fun _ => parseConf_iff, fun _ => parseGroup_iff, fun _ => parsePeer_iff⟩

theorem contents_doc : ∀ (is : List Lex.Tok) (ts : List T), is.map ofTok = ts.map some → contents (is ++ [.eof]) = (ts, false) := by
  intro is
  induction is with
  | nil => intro ts h; cases ts with
    | nil => rfl
    | cons t ts => simp at h
  | cons i is ih =>
    intro ts h
    cases ts with
    | nil => simp at h
    | cons t ts =>
      simp only [List.map_cons, List.cons.injEq] at h
      have hi : i ≠ .eof := by rintro rfl; simp [ofTok] at h
      have := ih ts h.2
      cases i with
      | eof => exact absurd rfl hi
      | _ => simp only [List.cons_append, contents, h.1, this]

/-- **C70, text**: if the items of a file, with spaces and comments between them, are the tokens of some statements, then these are the statements
that are found, however the file is read. -/
theorem C70_text (lc : Lex.Libc) (ds : List (List Lex.Gap × Lex.Item)) (tr : List Lex.Gap) (hi : ∀ d ∈ ds, d.2.Valid lc)
    (hg : ∀ d ∈ ds, ∀ g ∈ d.1, g.Valid) (ht : ∀ g ∈ tr, g.Valid) (hs : Lex.Spaced ds) (ts : List T)
    (hts : ds.map (fun d => ofTok d.2.tok) = ts.map some) (ss : List Stmt) (hd : DConf ss ts)
    (file : List Bytes) (hp : ∀ p ∈ file, p ≠ []) (h : file.flatten = Lex.docText ds tr) :
    ∃ toks, Lex.scan lc file = .ok toks ∧ contents (toks.map (·.1)) = (ts, false) ∧ parseConf ts = some ss := by
  obtain ⟨toks, h1, h2⟩ := Lex.C67 lc ds tr hi hg ht hs file hp h
  refine ⟨toks, h1, ?_, parseConf_iff.2 hd⟩
  rw [h2]
  exact contents_doc _ _ (by rw [← hts, List.map_map]; rfl)

/-! ## Every statement can be written -/

theorem exP (s : PStmt) : ∃ t, DPStmt s t := by
  cases s with
  | remote4 a n => exact ⟨_, .remote4 (.inl rfl) (.colon n)⟩
  | remote6 a n => exact ⟨_, .remote6 (.inl rfl) (.colon n)⟩
  | remote6s a i n => exact ⟨_, .remote6s (.inl rfl) (.colon n)⟩
  | remoteHost af h n => cases af with
    | unspec => exact ⟨_, .remoteHost .none (.colon n)⟩
    | inet => exact ⟨_, .remoteHost .v4 (.colon n)⟩
    | inet6 => exact ⟨_, .remoteHost .v6 (.colon n)⟩
  | float b => cases b with
    | true => exact ⟨_, .float .yes⟩
    | false => exact ⟨_, .float .no⟩
  | key s => exact ⟨_, .key s⟩
  | interface s => exact ⟨_, .interface s⟩
  | mtu n => exact ⟨_, .mtu n⟩
  | incl s => exact ⟨_, .incl s⟩

theorem exPs (ss : List PStmt) : ∃ t, DPConf ss t := by
  induction ss with
  | nil => exact ⟨_, .nil⟩
  | cons s ss ih =>
    obtain ⟨t, h⟩ := exP s
    obtain ⟨t', h'⟩ := ih
    exact ⟨_, .cons h h'⟩

theorem exEv (ev : Ev) : ∃ t, DEv ev t := by cases ev <;> exact ⟨_, by constructor⟩

theorem exSync (b : Bool) : ∃ t, DSync b t := by
  cases b
  · exact ⟨_, .none⟩
  · exact ⟨_, .sync⟩

theorem exBool (b : Bool) : ∃ t, DBool b t := by cases b <;> exact ⟨_, by constructor⟩

theorem exPort (p : Option UInt64) : ∃ t, DMaybePort p t := by
  cases p with
  | none => exact ⟨_, .none⟩
  | some n => exact ⟨_, .some (.colon n)⟩

theorem exLevel (l : Option Level) : ∃ t, DMaybeLevel l t := by
  cases l with
  | none => exact ⟨_, .none⟩
  | some l => cases l <;> exact ⟨_, .some (by constructor)⟩

theorem exDflt (d : Option BindDefault) : ∃ t, DMaybeDefault d t := by
  cases d with
  | none => exact ⟨_, .none⟩
  | some d => cases d <;> exact ⟨_, by constructor⟩

mutual
theorem exG : ∀ s : GStmt, ∃ t, DGStmt s t
  | .peer n b => by obtain ⟨t, h⟩ := exPs b; exact ⟨_, .leaf (.peer h)⟩
  | .group n b => by obtain ⟨t, h⟩ := exGs b; exact ⟨_, .group h⟩
  | .limit n => ⟨_, .leaf (.limit n)⟩
  | .method n => ⟨_, .leaf (.method n)⟩
  | .on ev s c => by
    obtain ⟨t, h⟩ := exEv ev
    obtain ⟨t', h'⟩ := exSync s
    exact ⟨_, .leaf (.on h h')⟩
  | .inclPeer f none => ⟨_, .leaf (.inclPeer .none)⟩
  | .inclPeer f (some a) => ⟨_, .leaf (.inclPeer (.some a))⟩
  | .inclPeers d => ⟨_, .leaf (.inclPeers d)⟩
  | .incl f => ⟨_, .leaf (.incl f)⟩
theorem exGs : ∀ ss : List GStmt, ∃ t, DGConf ss t
  | [] => ⟨_, .nil⟩
  | s :: ss => by
    obtain ⟨t, h⟩ := exG s
    obtain ⟨t', h'⟩ := exGs ss
    cases h with
    | leaf h => exact ⟨_, .leaf h h'⟩
    | group h => exact ⟨_, .group h h'⟩
end

theorem exS (s : Stmt) (h : ∀ g, s ≠ .g g) : ∃ t, DSimple s t := by
  cases s with
  | g s => exact absurd rfl (h s)
  | dropCaps v => cases v <;> exact ⟨_, .dropCaps (by constructor)⟩
  | secureHandshakes b => obtain ⟨t, h⟩ := exBool b; exact ⟨_, .secureHandshakes h⟩
  | logLevel l => cases l <;> exact ⟨_, .logLevel (by constructor)⟩
  | logStderr l => obtain ⟨t, h⟩ := exLevel l; exact ⟨_, .logStderr h⟩
  | logSyslog i l =>
    obtain ⟨t, hl⟩ := exLevel l
    cases i with
    | none => exact ⟨_, .logSyslog hl⟩
    | some i => exact ⟨_, .logSyslogAs i hl⟩
  | hideIp b => obtain ⟨t, h⟩ := exBool b; exact ⟨_, .hideIp h⟩
  | hideMac b => obtain ⟨t, h⟩ := exBool b; exact ⟨_, .hideMac h⟩
  | bind a p i d =>
    obtain ⟨tp, hp⟩ := exPort p
    obtain ⟨td, hd⟩ := exDflt d
    have hi : ∃ t, DMaybeIface i t := by
      cases i with
      | none => exact ⟨_, .none⟩
      | some s => exact ⟨_, .some s⟩
    obtain ⟨ti, hi⟩ := hi
    cases a with
    | v4 a => exact ⟨_, .bind (.v4 a) hp hi hd⟩
    | v6 a => exact ⟨_, .bind (.v6 a) hp hi hd⟩
    | any => exact ⟨_, .bind .any hp hi hd⟩
  | bindScoped a i p d =>
    obtain ⟨tp, hp⟩ := exPort p
    obtain ⟨td, hd⟩ := exDflt d
    exact ⟨_, .bindScoped hp hd⟩
  | pmtu b => cases b with
    | none => exact ⟨_, .pmtu .auto⟩
    | some b => obtain ⟨t, h⟩ := exBool b; exact ⟨_, .pmtu (.bool h)⟩
  | mode m => cases m <;> exact ⟨_, .mode (by constructor)⟩
  | persist b => obtain ⟨t, h⟩ := exBool b; exact ⟨_, .persist h⟩
  | offload b => obtain ⟨t, h⟩ := exBool b; exact ⟨_, .offload h⟩
  | forward b => obtain ⟨t, h⟩ := exBool b; exact ⟨_, .forward h⟩
  | user s => exact ⟨_, .user s⟩
  | group s => exact ⟨_, .group s⟩
  | cipher a b => exact ⟨_, .cipher a b⟩
  | mac a b => exact ⟨_, .mac a b⟩
  | interface s => exact ⟨_, .interface s⟩
  | packetMark n => exact ⟨_, .packetMark n⟩
  | mtu n => exact ⟨_, .mtu n⟩
  | protocol s => exact ⟨_, .protocol s⟩
  | secret s => exact ⟨_, .secret s⟩
  | preUp s => exact ⟨_, .preUp s⟩
  | postDown s => exact ⟨_, .postDown s⟩
  | statusSocket s => exact ⟨_, .statusSocket s⟩

/-- **C70, expressiveness**: every configuration can be written down. -/
theorem C70_written (ss : List Stmt) : ∃ ts, DConf ss ts := by
  induction ss with
  | nil => exact ⟨_, .nil⟩
  | cons s ss ih =>
    obtain ⟨t', h'⟩ := ih
    by_cases hg : ∃ g, s = .g g
    · obtain ⟨g, rfl⟩ := hg
      obtain ⟨t, h⟩ := exG g
      exact ⟨_, .g h h'⟩
    · obtain ⟨t, h⟩ := exS s (fun g e => hg ⟨g, e⟩)
      exact ⟨_, .simple h h'⟩

namespace Demo

open Kw

/-- `peer group "g" { peer "p" { float yes; } on up "x"; } bind any:80 default;` -/
def ts : List T :=
  [.kw kPeer, .kw kGroup, .str [103], .lbrace, .kw kPeer, .str [112], .lbrace, .kw kFloat, .kw kYes, .semi, .rbrace, .kw kOn, .kw kUp, .str [120], .semi,
    .rbrace, .kw kBind, .kw kAny, .colon, .uint 80, .kw kDefault, .semi]

/-- The statements of this file; a file with a semicolon missing is refused, and so is `on pre-up sync "x";`. -/
example : DConf [.g (.group [103] [.peer [112] [.float true], .on .up false [120]]), .bind .any (some 80) none (some .both)] ts ∧
    parseConf (ts.dropLast) = none ∧ parseConf [.kw kOn, .kw kPreUp, .kw kSync, .str [120], .semi] = none := by
  refine ⟨?_, rfl, rfl⟩
  exact parseConf_iff.1 rfl

end Demo

end Fastd.Config.Gram
