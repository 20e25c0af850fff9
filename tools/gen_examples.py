#!/usr/bin/env python3
"""Generates lean/Verif/Model/Examples.lean: the texts returned by the ExampleConfig methods, verbatim."""
import re,subprocess
R='/repo/'
modes=[('id','IDConfig'),('tree','TreeConfig'),('stats','StatsConfig'),('shell','ShellConfig'),('prof','ProfConfig'),('phase','PhaseConfig'),('potential','PotentialConfig'),('coord','CoordConfig'),('check','CheckConfig'),('cmd','GlobalConfig')]
ver=re.search(r'SourceVersion = "(.*?)"',open(R+'version/version.go').read()).group(1)
out='''/-
Generated by tools/gen_examples.py: the texts returned by the ExampleConfig methods, verbatim (in the global one, the result of Sprintf).
-/
import Verif.Model.Config
import Verif.Model.Chars

namespace Shellfish.Modes
open Shellfish.Config Shellfish.Text

set_option maxRecDepth 100000

'''
for f,t in modes:
    s=open(R+f'cmd/{f}.go').read()
    a=s.index(f'func (config *{t}) ExampleConfig() string')
    b=s.index('`',a)+1; c=s.index('`',b); e=s.index('\n}',c)
    l1=s[:a].count('\n')+1; l2=s[:e].count('\n')+2
    txt=s[b:c]
    if f=='cmd':
        assert txt.count('%')-2*txt.count('%%')==1
        txt=txt.replace('%%','\0').replace('%s',ver).replace('\0','%')
    assert '"#' not in txt
    n='global' if f=='cmd' else f
    out+=f'/-- cmd/{f}.go:{l1}-{l2}: the lines. -/\ndef {n}Lines : List Str := [\n'+',\n'.join('  chars "'+x.replace('\\','\\\\').replace('"','\\"')+'"' for x in txt.split('\n'))+f']\n\n/-- cmd/{f}.go:{l1}-{l2}. -/\ndef {n}Example : Str := joinWith \'\\n\' {n}Lines\n\n'
out+='end Shellfish.Modes\n'
open('/verif/lean/Verif/Model/Examples.lean','w').write(out)
