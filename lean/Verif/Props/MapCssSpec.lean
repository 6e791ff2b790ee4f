import Verif.Model.MapCss
import Mathlib.Data.List.Forall2

/-! # Specification of stylesheet texts

Relations between stylesheets and the texts which are written for them, with gaps in all places where the grammar allows them. -/
namespace Verif.MapCssSpec
open Verif.MapCss (Condition Zoom Selector Declaration Rule Tools)

/-- White space. -/
def Space (c : Char) : Prop := c ∈ [' ', '\t', '\n', '\x0b', '\x0c', '\r']

/-- The text of a comment: the first place where it is closed is its end. -/
def Body (close body : List Char) : Prop := ∀ i < body.length, ¬ close <+: (body ++ close).drop i

/-- White space and comments. -/
inductive Gap : List Char → Prop
  | nil : Gap []
  | space (c g) (hc : Space c) (h : Gap g) : Gap (c :: g)
  | block (body g) (hb : Body ['*', '/'] body) (h : Gap g) : Gap (['/', '*'] ++ body ++ ['*', '/'] ++ g)
  | html (body g) (hb : Body ['-', '-', '>'] body) (h : Gap g) : Gap (['<', '!', '-', '-'] ++ body ++ ['-', '-', '>'] ++ g)

/-- A character which does not begin a gap. -/
def Solid (c : Char) : Prop := ¬ Space c ∧ c ≠ '/' ∧ c ≠ '<'

/-- A nonempty text of ASCII characters which contains none of these and does not begin with a gap. -/
def Word (without : List Char) (w : List Char) : Prop :=
  (∃ c t, w = c :: t ∧ Solid c) ∧ ∀ c ∈ w, c.toNat < 128 ∧ c ∉ without

/-- Digits of a number. -/
def Digits (w : List Char) (n : Nat) : Prop :=
  ∃ ds : List Nat, ds ≠ [] ∧ (∀ d ∈ ds, d < 10) ∧ w = ds.map (fun d => Char.ofNat (48 + d)) ∧ n = ds.foldl (fun v d => 10 * v + d) 0

def Operation (op : List Char) : Prop := op ∈ [['='], ['!', '='], ['>'], ['<']]

inductive PrintsCondition : Condition → List Char → Prop
  | existence (g h key) (hg : Gap g) (hh : Gap h) (hk : Word [']', '=', '!', '>', '<'] key) :
    PrintsCondition ⟨key, [], []⟩ (g ++ '[' :: (h ++ key ++ [']']))
  | comparison (g h k key op value) (hg : Gap g) (hh : Gap h) (hk : Word [']', '=', '!', '>', '<'] key) (ho : Operation op) (hk' : Gap k)
    (hv : Word [']', '=', '!', '>', '<'] value) : PrintsCondition ⟨key, op, value⟩ (g ++ '[' :: (h ++ key ++ op ++ k ++ value ++ [']']))

/-- `|z5` or `|z1-15` -/
inductive PrintsZoom : Zoom → List Char → Prop
  | single (g h w n) (hg : Gap g) (hh : Gap h) (hw : Digits w n) (hn : n < 256) : PrintsZoom ⟨UInt8.ofNat n, UInt8.ofNat n⟩ (g ++ ['|', 'z'] ++ h ++ w)
  | range (g h w n k l v m) (hg : Gap g) (hh : Gap h) (hw : Digits w n) (hn : n < 256) (hk : Gap k) (hl : Gap l) (hv : Digits v m) (hm : m < 256) :
    PrintsZoom ⟨UInt8.ofNat n, UInt8.ofNat m⟩ (g ++ ['|', 'z'] ++ h ++ w ++ k ++ ['-'] ++ l ++ v)

def ElementName (w : List Char) : Prop := w ∈ [['n', 'o', 'd', 'e'], ['w', 'a', 'y'], ['a', 'r', 'e', 'a'], ['r', 'e', 'l', 'a', 't', 'i', 'o', 'n']]

/-- A further name of a list. -/
def PrintsNextName (n w : List Char) : Prop := ∃ g h, Gap g ∧ Gap h ∧ ElementName n ∧ w = g ++ [','] ++ h ++ n

inductive PrintsSelector : Selector → List Char → Prop
  | elements (g n ns ws z zw c cw cs cws) (hg : Gap g) (hn : ElementName n) (hns : List.Forall₂ PrintsNextName ns ws) (hz : PrintsZoom z zw)
    (hc : PrintsCondition c cw) (hcs : List.Forall₂ PrintsCondition cs cws) : PrintsSelector ⟨n :: ns, z, c :: cs⟩ (g ++ n ++ ws.flatten ++ zw ++ cw ++ cws.flatten)
  | canvas (g z zw) (hg : Gap g) (hz : PrintsZoom z zw) : PrintsSelector ⟨[['c', 'a', 'n', 'v', 'a', 's']], z, []⟩ (g ++ ['c', 'a', 'n', 'v', 'a', 's'] ++ zw)
  | element (g z zw c cw) (hg : Gap g) (hz : PrintsZoom z zw) (hc : PrintsCondition c cw) :
    PrintsSelector ⟨[['e', 'l', 'e', 'm', 'e', 'n', 't']], z, [c]⟩ (g ++ ['e', 'l', 'e', 'm', 'e', 'n', 't'] ++ zw ++ cw)

/-- A further selector of a list. -/
def PrintsNextSelector (s : Selector) (w : List Char) : Prop := ∃ g v, Gap g ∧ PrintsSelector s v ∧ w = g ++ [','] ++ v

/-- A list of selectors. -/
inductive PrintsSelectors : List Selector → List Char → Prop
  | mk (s w ss ws) (hs : PrintsSelector s w) (hss : List.Forall₂ PrintsNextSelector ss ws) : PrintsSelectors (s :: ss) (w ++ ws.flatten)

def PrintsDeclaration (d : Declaration) (w : List Char) : Prop :=
  ∃ g h, Gap g ∧ Gap h ∧ Word [':', '}'] d.key ∧ Word [';'] d.value ∧ w = g ++ d.key ++ [':'] ++ h ++ d.value ++ [';']

inductive PrintsRule : Rule → List Char → Prop
  | mk (ss sw d dw ds dws g h) (hs : PrintsSelectors ss sw) (hd : PrintsDeclaration d dw) (hds : List.Forall₂ PrintsDeclaration ds dws) (hg : Gap g) (hh : Gap h) :
    PrintsRule ⟨ss, d :: ds⟩ (sw ++ g ++ ['{'] ++ dw ++ dws.flatten ++ h ++ ['}'])

/-- `@keyword url("file");` -/
def PrintsReference (keyword file w : List Char) : Prop :=
  ∃ g h, Gap g ∧ Gap h ∧ Word ['"'] file ∧ w = g ++ keyword ++ [' ', 'u', 'r', 'l', '(', '"'] ++ h ++ file ++ ['"', ')', ';']

inductive Entry (A L : Type) where
  | rule (r : Rule)
  | texture (a : A)
  | lsystem (name : List Char) (l : L)

variable {A L : Type}

/-- The entries which a text begins with, and the text behind them. The text of an imported file stands for the import. -/
inductive Reads (T : Tools A L) : List Char → List Char → List (Entry A L) → Prop
  | done (t) : Reads T t t []
  | rule (r w t u es) (hr : PrintsRule r w) (ht : Reads T t u es) : Reads T (w ++ t) u (.rule r :: es)
  | imported (f w c g fs t u es) (hf : PrintsReference ['@', 'i', 'm', 'p', 'o', 'r', 't'] f w) (hc : T.file f = some c) (hi : Reads T c g fs) (hg : Gap g)
    (ht : Reads T t u es) : Reads T (w ++ t) u (fs ++ es)
  | texture (f w c a t u es) (hf : PrintsReference ['@', 't', 'e', 'x', 't', 'u', 'r', 'e'] f w) (hc : T.file f = some c) (ha : T.atlas c = .ok a)
    (ht : Reads T t u es) : Reads T (w ++ t) u (.texture a :: es)
  | lsystem (f w c l t u es) (hf : PrintsReference ['@', 'l', 's', 'y', 's', 't', 'e', 'm'] f w) (hc : T.file f = some c) (hl : T.lsystem c = .ok l)
    (ht : Reads T t u es) : Reads T (w ++ t) u (.lsystem (Strings.getFileNameWithoutExtension '\\' '/' '.' f) l :: es)

def Entry.rule? : Entry A L → Option Rule
  | .rule r => some r
  | _ => none

def Entry.texture? : Entry A L → Option A
  | .texture a => some a
  | _ => none

/-- The L-system of this name. -/
def Entry.lsystem? (name : List Char) : Entry A L → Option L
  | .lsystem n l => if n = name then some l else none
  | _ => none

/-- The stylesheet of entries: of L-systems with the same name the first one. -/
def IsSheet (s : MapCss.Sheet A L) (es : List (Entry A L)) : Prop :=
  s.rules = es.filterMap Entry.rule? ∧ s.textures = es.filterMap Entry.texture? ∧ ∀ name, s.lsystems.find name = es.findSome? (Entry.lsystem? name)

end Verif.MapCssSpec
