#!/usr/bin/env python3
"""Translate /repo/include/graphqlservice/internal/Grammar.h and the selectors and error messages of
/repo/src/SyntaxTree.cpp to lean/Verif/Grammar/Rules.lean. Only reads /repo as text."""
import os, re
REPO = '/repo'
here = os.path.dirname(os.path.abspath(__file__))
src = open(REPO + '/include/graphqlservice/internal/Grammar.h').read()
start = src.index('// http://spec.graphql.org/June2018/#sec-Source-Text\n')
text = src[start:]
line0 = src[:start].count('\n') + 1
syn = open(REPO + '/src/SyntaxTree.cpp').read()

msgs = {}
for m in re.finditer(r'ast_control<((?:[^<>]|<[^<>]*>)*)>::error_message\s*=\s*((?:"(?:[^"\\]|\\.)*"\s*)+);', syn):
    lits = re.findall(r'"((?:[^"\\]|\\.)*)"', m.group(2))
    msgs[m.group(1)] = ''.join(lits)

structs = []
for m in re.finditer(r'struct\s+(\w+)\s*:\s*(.*?)\n\{\n\};', text, re.S):
    l1 = line0 + text[:m.start()].count('\n')
    l2 = line0 + text[:m.end()].count('\n')
    structs.append((m.group(1), re.sub(r'//[^\n]*', '', m.group(2)).strip(), l1, l2))
names = [s[0] for s in structs]

def split(s):
    out, depth, cur, i = [], 0, '', 0
    while i < len(s):
        c = s[i]
        if c == "'":
            j = i + 1
            if s[j] == '\\': j += 1
            cur += s[i:j + 2]; i = j + 2; continue
        if c in '<(': depth += 1
        if c in '>)': depth -= 1
        if c == ',' and depth == 0: out.append(cur.strip()); cur = ''
        else: cur += c
        i += 1
    if cur.strip(): out.append(cur.strip())
    return out

def q(n): return '«%s»' % n if n in ('variable', 'alias') else n
def seqs(xs): return xs[0] if len(xs) == 1 else 'seqs [' + ', '.join(xs) + ']'
def par(x): return x if re.fullmatch(r'[\w.«»]+', x) else '(' + x + ')'
def must(x):
    if x in names: return 'need .' + q(x)
    return 'must %s %s' % (par('str ' + '"' + msgs[x] + '"'), par(tr(x)))
BUILTIN = {'space': 'space', 'digit': 'digit', 'xdigit': 'xdigit', 'identifier': 'identifier', 'bof': 'empty',
  'ellipsis': 'lit (str "...")', 'utf8::bom': 'bom', 'tao::graphqlpeg::eof': 'eof', 'ascii::eol': 'eol', 'eolf': 'eolf'}
def tr(e):
    e = e.strip()
    if e in names: return '.ref .' + q(e)
    if e in BUILTIN: return BUILTIN[e]
    m = re.fullmatch(r'TAO_PEGTL_KEYWORD\("(\w+)"\)', e)
    if m: return 'keyword "%s"' % m.group(1)
    m = re.fullmatch(r'([\w:]+)<(.*)>', e, re.S)
    op, args = m.group(1), split(m.group(2))
    if op == 'seq': return seqs([tr(a) for a in args])
    if op == 'sor': return 'sors [' + ', '.join(tr(a) for a in args) + ']'
    if op == 'star': return 'star ' + par(seqs([tr(a) for a in args]))
    if op == 'plus': return 'plus ' + par(seqs([tr(a) for a in args]))
    if op == 'opt': return 'opt ' + par(seqs([tr(a) for a in args]))
    if op == 'not_at': return 'notAt ' + par(seqs([tr(a) for a in args]))
    if op == 'must': return seqs([must(a) for a in args])
    if op == 'if_must': return 'seqs [' + ', '.join([tr(args[0])] + [must(a) for a in args[1:]]) + ']'
    if op == 'list': return 'list %s %s' % (par(tr(args[0])), par(tr(args[1])))
    if op == 'rep': return 'rep %s %s' % (args[0], par(tr(args[1])))
    if op == 'until': return '«until» ' + par(tr(args[0]))
    if op == 'range': return "range %s %s" % (args[0], args[1])
    if op == 'utf8::range': return 'utf8 %s %s' % tuple(args)
    if op == 'one':
        if len(args) == 1: return 'chr ' + args[0]
        if args[0].startswith('0x'):
            return 'one fun c => ' + ' || '.join('c == %s' % a for a in args)
        return 'one fun c => (str "%s").contains c' % ''.join((lambda x: {'"': '\\"', "\\\\": "\\\\"}.get(x, x))(a[1:-1]) for a in args)
    raise Exception(e)

def wrap(prefix, body, width=110):
    out, cur = [], prefix
    for w in re.findall(r'\'"\'|"(?:[^"\\]|\\.)*"[\])]*|[^\s"\']+|\'|\s+', body):
        if len(cur) + len(w) > width and w.strip() and not w.startswith('"'):
            out.append(cur.rstrip()); cur = '    ' + w
        else: cur += w
    out.append(cur)
    return '\n'.join(out)

o = []
o.append('''import Verif.Grammar.Peg

/-!
# The grammar

Generated by `tools/grammar.py` from `/repo/include/graphqlservice/internal/Grammar.h` (every `struct` of the grammar, in
order), and the selectors and error messages of `/repo/src/SyntaxTree.cpp`. A `struct` which is derived from another one
has the same expression; a `struct` which is used in another one is a reference. `bof` is `empty`: it is only used where
parsing begins.
-/
namespace Verif.Peg
open Verif.Value Rule

/-- The names of the rules. -/
inductive R where''')
o.append('\n'.join('  | ' + q(n) for n in names))
o.append('deriving DecidableEq, Repr\n')
o.append('/-- `ast_control<Rule>::error_message`, SyntaxTree.cpp:551-733 -/\ndef message : R → Str')
for n in names:
    if n in msgs: o.append('  | .%s => str "%s"' % (q(n), msgs[n]))
o.append('  | _ => []\n')
o.append("""/-- `must<n>` -/
def need (n : R) : Rule R := .must (message n) (.ref n)
""")
o.append('namespace G\n')
for n, e, a, b in structs:
    if e in names: body = 'G.' + q(e)
    else: body = tr(e)
    o.append('/-- Grammar.h:%d-%d -/' % (a, b))
    body = re.sub(r'(?<![\w.])(seqs|sors|list|plus|rep|chr|range|keyword|digit|xdigit|space|identifier|eol|eolf|bom|star|opt|notAt|must|utf8|lit|one|eof|empty|«until»)(?![\w"])', lambda m: 'Rule.' + m.group(1) if m.group(1) in ('star','opt','notAt','must','utf8','lit','one','eof','empty','list','plus','rep','chr','range','keyword','digit','xdigit','space','identifier','eol','eolf','bom','seqs','sors','«until»') else m.group(1), body)
    # undo inside string literals
    parts = re.split(r'(\'"\'|"(?:[^"\\]|\\.)*")', body)
    body = ''.join(p.replace('Rule.', '') if p.startswith('"') else p for p in parts)
    o.append(wrap('def %s : Rule R := ' % q(n), body) + '\n')
o.append('end G\n')
o.append('/-- The expression of each rule. -/\ndef grammar : R → Rule R')
o.append('\n'.join('  | .%s => G.%s' % (q(n), q(n)) for n in names) + '\n')

def selectors(kind):
    out = []
    for m in re.finditer(r'struct %s<(\w+)> : ([\w:]+)' % kind, syn):
        out.append((m.group(1), m.group(2), syn[:m.start()].count('\n') + 1))
    return out
def emit(lean, kind, base, doc):
    sels = selectors(kind)
    o.append('/-- `%s`, %s -/' % (kind, doc))
    o.append('def %s : R → Sel' % lean)
    for n, v, l in sels:
        o.append('  | .%s => %s  -- SyntaxTree.cpp:%d' % (q(n), '.store' if v == 'std::true_type' else '.foldOne', l))
    o.append('  | %s' % ('n => %s n' % base if base else '_ => .discard') + '\n')
emit('astSelector', 'ast_selector', None, 'SyntaxTree.cpp:104-409')
emit('schemaSelector', 'schema_selector', 'astSelector', 'SyntaxTree.cpp:411-494')
emit('executableSelector', 'executable_selector', 'astSelector', 'SyntaxTree.cpp:496-549')
o.append('end Verif.Peg')
open(here + '/../lean/Verif/Grammar/Rules.lean', 'w').write('\n'.join(o) + '\n')
print(len(structs), 'rules', len(msgs), 'messages')

# ---- certificate for termination: nullable rules, and ranks for the calls before anything is consumed ----
defs = {n: e for n, e, _, _ in structs}
def parse(e):
    e = e.strip()
    if e in names: return ('ref', e)
    if e in ('bof', 'tao::graphqlpeg::eof', 'eolf'): return ('nul',)
    if e in BUILTIN or e.startswith('TAO_PEGTL_KEYWORD'): return ('tok',)
    m = re.fullmatch(r'([\w:]+)<(.*)>', e, re.S)
    op, args = m.group(1), split(m.group(2))
    if op in ('one', 'range', 'utf8::range'): return ('tok',)
    if op == 'rep': args = args[1:]; op = 'seq'
    if op == 'until': return ('nul',)
    xs = [parse(a) for a in args]
    if op in ('seq', 'must', 'if_must', 'plus'): return ('seq', xs)
    if op == 'sor': return ('sor', xs)
    if op in ('star', 'opt', 'not_at'): return ('opt', [('seq', xs)])
    if op == 'list': return ('seq', [xs[0], ('opt', [('seq', [xs[1], xs[0]])])])
    raise Exception(op)
trees = {n: parse(defs[n] if defs[n] not in names else defs[n]) for n in names}
for n in names:
    e = n
    while defs[e] in names: e = defs[e]
    trees[n] = parse(defs[e])
nul = {n: False for n in names}
def isnul(t):
    if t[0] == 'ref': return nul[t[1]]
    if t[0] == 'tok': return False
    if t[0] in ('nul', 'opt'): return True
    if t[0] == 'seq': return all(isnul(x) for x in t[1])
    return any(isnul(x) for x in t[1])
while True:
    new = {n: isnul(trees[n]) for n in names}
    if new == nul: break
    nul = new
def firsts(t):
    if t[0] == 'ref': return {t[1]}
    if t[0] in ('tok', 'nul'): return set()
    if t[0] in ('sor', 'opt'): return set().union(*[firsts(x) for x in t[1]])
    out = set()
    for x in t[1]:
        out |= firsts(x)
        if not isnul(x): break
    return out
rank = {}
def getrank(n, path=()):
    assert n not in path, path + (n,)
    if n not in rank: rank[n] = 1 + max([getrank(m, path + (n,)) for m in firsts(trees[n])], default=-1)
    return rank[n]
for n in names: getrank(n)
o = ["""import Verif.Grammar.Rules
import Verif.Grammar.PegProps

/-!
# The grammar is well-formed

Generated by `tools/grammar.py`: which rules may match the empty text, and the order in which rules call each other before
anything is consumed. The theorem checks this for every rule of the grammar.
-/
namespace Verif.Peg

def nulTable : R → Bool"""]
o += ['  | .%s => true' % q(n) for n in names if nul[n]] + ['  | _ => false', '', 'def rankTable : R → Nat']
for k in range(max(rank.values()), 0, -1):
    xs = [n for n in names if rank[n] == k]
    if xs:
        line = '  '
        for x in xs:
            t = '| .%s ' % q(x)
            if len(line) + len(t) > 105: o.append(line.rstrip()); line = '  '
            line += t
        o.append(line + '=> %d' % k)
o += ['  | _ => 0', '', """theorem wellFormed : WellFormed grammar nulTable rankTable where
  null n := by cases n <;> decide
  order n := by cases n <;> rfl
  loop n := by cases n <;> rfl

end Verif.Peg"""]
open(here + '/../lean/Verif/Grammar/WellFormed.lean', 'w').write('\n'.join(o) + '\n')
print('max rank', max(rank.values()), 'nullable', sorted(n for n in names if nul[n]))
