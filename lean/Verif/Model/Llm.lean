import Verif.Model.Normalize
/-
Model of /repo/math_evaluation/llms/llm_models.py.

Simplification: the network clients are an arbitrary external call; `functools.partial` is the
closure of the call over client and model name.
-/

namespace Verif
open Re

variable {X V S : Type}

/-! ### `str.format` (Python standard library) -/

/-- A piece of a format template. -/
inductive Seg where
  | lit (s : Str)
  | field (name : Str)
deriving DecidableEq, Repr

/-- Parsing of a template: `{{` and `}}` are literal braces, `{name}` is a field.  `cur` is the
current literal (reversed); `fld` is the current field name (reversed) when inside a field.
Simplification: conversions, format specifications and nested fields are not supported, none
occurs in prompts.py. -/
def parseFormat : Str → Option Str → Str → Except PyErr (List Seg)
  | cur, none, [] => .ok [.lit cur.reverse]
  | _, some _, [] => .error .valueError
  | cur, none, '{' :: '{' :: rest => parseFormat ('{' :: cur) none rest
  | cur, none, '}' :: '}' :: rest => parseFormat ('}' :: cur) none rest
  | cur, none, '{' :: rest => do
    let segs ← parseFormat [] (some []) rest
    .ok (.lit cur.reverse :: segs)
  | _, none, '}' :: _ => .error .valueError
  | cur, none, x :: rest => parseFormat (x :: cur) none rest
  | _, some f, '}' :: rest => do
    let segs ← parseFormat [] none rest
    .ok (.field f.reverse :: segs)
  | _, some f, x :: rest => parseFormat [] (some (x :: f)) rest

/-- Substitution of the fields. -/
def fillSegs (args : List (Str × Str)) : List Seg → Except PyErr Str
  | [] => .ok []
  | .lit s :: rest => do
    let r ← fillSegs args rest
    .ok (s ++ r)
  | .field f :: rest =>
    match args.lookup f with
    | some v => do
      let r ← fillSegs args rest
      .ok (v ++ r)
    | none => .error .keyError

/-- `template.format(**args)` -/
def strFormat (template : Str) (args : List (Str × Str)) : Except PyErr Str := do
  let segs ← parseFormat [] none template
  fillSegs args segs

/-! ### llm_models.py -/

/-- llm_models.py:53-54: the answer is put between two dollars -/
def wrapDollar (answer : Str) : Str :=
  if startsWith s%"$" answer && endsWith s%"$" answer && countChar '$' answer == 2 then answer
  else s%"$" ++ replace s%"$" [] answer ++ s%"$"

/-- A chat message (llm_models.py:65-67). -/
structure Message where
  role : Str
  content : Str
deriving DecidableEq, Repr

/-- llm_models.py:75, `Type:[\s]*(.*)` -/
def typeRe : Re := cat [lit s%"Type:", many ws, grp 1 (many dot)]

/-- llm_models.py:75, `re.search(r"Type:[\s]*(.*)", text).group(1)`; `none` is the AttributeError on no match -/
def extractType (text : Str) : Option Str := (reSearch typeRe text).map fun t => t.groupD 1

/-- llm_models.py:70-80, the loop of `get_llm_type`; the first argument is the number of tries left.  The call
returns a text, or `None` (then `re.search` raises), or raises; all exceptions are swallowed. -/
def typeLoop (call : List Message → Ext X (Option Str)) (msgs : List Message) :
    Nat → M X (Option Str)
  | 0 => pure none
  | n + 1 => do
    let r ← M.tryExcept (do
      match ← M.ext (call msgs) with
      | none => M.raise .typeError
      | some text =>
        match extractType text with
        | some t => pure (some t)
        | none => M.raise .attributeError) (fun _ => pure none)
    match r with
    | some t => pure (some t)
    | none => typeLoop call msgs n

/-- llm_models.py:45-80 `get_llm_type`; `t1`, `t2` are `prompt_template` and `prompt_template_2` of prompts.py, a
negative `max_try` behaves like 0 -/
def getLlmType (t1 t2 : Str) (call : List Message → Ext X (Option Str)) (question answer : Str)
    (promptType : Int) (maxTry : Nat) : M X (Option Str) := do
  let answer := wrapDollar answer
  let args := [(s%"question", question), (s%"ground_truth", answer)]
  let prompt ← (if promptType = 1 then M.lift (strFormat t1 args)
    else if promptType = 2 then M.lift (strFormat t2 args)
    else M.raise .valueError)
  typeLoop call [⟨s%"user", prompt⟩] maxTry

/-- llm_models.py:28, 33: the two providers of `create_llm` -/
inductive Provider where
  | openai | tongyi
deriving DecidableEq, Repr

/-- llm_models.py:27-42 `create_llm`: the provider whose client is used, or `ValueError`.  Simplification: importing
and constructing the client is not modelled. -/
def createLlm (llm : Str) : Except PyErr Provider :=
  if llm = s%"openai" then .ok .openai
  else if llm = s%"tongyi" then .ok .tongyi
  else .error .valueError

end Verif
